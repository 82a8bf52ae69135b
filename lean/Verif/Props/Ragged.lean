import Verif.Model.Ragged
import Verif.Props.Axes
import Verif.Props.Pipeline
import Verif.Props.FromFiles
/-!
# C222: tensors of different lengths are put into one batch
-/

namespace DS.Tn

section
variable {α : Type}

/-- `t` has on every axis other than `d` the size that `t0` has there. -/
def SameElsewhere (d : Nat) (t t0 : Ten α) : Prop := ∀ a, a ≠ d → t.shape[a]? = t0.shape[a]?

/-- `t` has on every axis other than `d` the size that `t0` has there, or size 1. -/
def OneElsewhere (d : Nat) (t t0 : Ten α) : Prop := ∀ a, a ≠ d → t.shape[a]? = t0.shape[a]? ∨ t.shape[a]? = some 1

/-- The multi-index `ix` with 0 on the axes where `shape` has size 1. -/
def onOne (shape ix : List Nat) : List Nat := List.zipWith (fun n i => if n = 1 then 0 else i) shape ix

theorem normDim_pos {n d : Nat} (h : d < n) : normDim n (d : Int) = .ok d := by
  unfold normDim; rw [if_pos ⟨by omega, by omega⟩]; simp

theorem mapM_all_ok {β γ : Type} (f : β → Py γ) (g : β → γ) (xs : List β) (h : ∀ x ∈ xs, f x = .ok (g x)) : xs.mapM f = .ok (xs.map g) := by
  induction xs with
  | nil => rfl
  | cons x xs ih =>
    rw [List.mapM_cons, h x List.mem_cons_self, ih fun y hy => h y (List.mem_cons_of_mem _ hy)]
    rfl

theorem exch_exch (a b k : Nat) : exch a b (exch a b k) = k := by
  unfold exch; split <;> split <;> (try split) <;> omega

theorem swap_replicate {β : Type} (k : Nat) (a : β) (i j : Nat) : swap (List.replicate k a) i j = List.replicate k a := by
  unfold swap
  split
  · rename_i x y hx hy
    have h1 := List.eq_of_mem_replicate (List.mem_of_getElem? hx)
    have h2 := List.eq_of_mem_replicate (List.mem_of_getElem? hy)
    subst h1; subst h2
    simp [List.set_replicate_self]
  · rfl

theorem swap_cons {β : Type} (x : β) (xs : List β) (d : Nat) (hd : d < xs.length) : swap (x :: xs) (d + 1) 1 = x :: swap xs d 0 := by
  unfold swap
  have h0 : 0 < xs.length := by omega
  rw [List.getElem?_cons_succ, show (1 : Nat) = 0 + 1 from rfl, List.getElem?_cons_succ, List.getElem?_eq_getElem hd, List.getElem?_eq_getElem h0]
  simp

/-- What the axis swap of one tensor gives. -/
def moved (d : Nat) (t : Ten α) : Ten α := ⟨swap t.shape d 0, swap t.names d 0, fun ix => t.val (swap ix d 0)⟩

theorem transpose_moved (t : Ten α) (n d : Nat) (hn : t.shape.length = n) (hd : d < n) : t.transpose (d : Int) 0 = .ok (moved d t) := by
  unfold Ten.transpose
  have h1 : normDim t.ndim (d : Int) = .ok d := normDim_pos (by unfold Ten.ndim; omega)
  have h2 : normDim t.ndim 0 = .ok 0 := normDim_pos (d := 0) (by unfold Ten.ndim; omega)
  rw [h1, h2]
  rfl

/-- What `pad_sequence` gives when it does not raise. -/
def padded (pad : α) (ts : List (Ten α)) (tail : List Nat) : Ten α where
  shape := ts.length :: maxSize ts :: tail
  names := (ts.length :: maxSize ts :: tail).map fun _ => none
  val := fun ix =>
    match ts[ix.headD 0]? with
    | some c => if ix.tail.headD 0 < c.shape.headD 0 then c.val (copySrc c.shape ix.tail) else pad
    | none => pad

theorem head_moved (t : Ten α) (d : Nat) (hd : d < t.shape.length) : (moved d t).shape.headD 0 = t.shape.getD d 0 := by
  have h := swap_get t.shape d 0 hd (by omega) 0
  have h0 : exch d 0 0 = d := by unfold exch; split <;> simp_all
  rw [h0] at h
  show (swap t.shape d 0).headD 0 = _
  rw [List.headD_eq_head?_getD, List.head?_eq_getElem?, h, List.getD_eq_getElem?_getD]

theorem copyable_moved (t t0 : Ten α) (d : Nat) (hd : d < t.shape.length) (hl : t.shape.length = t0.shape.length) :
    copyable (moved d t).shape ((moved d t).shape.headD 0 :: (moved d t0).shape.tail) = true ↔ OneElsewhere d t t0 := by
  have hlen : (moved d t).shape.length = t.shape.length := swap_length _ _ _
  have hlen0 : (moved d t0).shape.length = t0.shape.length := swap_length _ _ _
  have hL : ((moved d t).shape.headD 0 :: (moved d t0).shape.tail).length = (moved d t).shape.length := by
    simp only [List.length_cons, List.length_tail]; omega
  unfold copyable
  rw [hL, Nat.sub_self, List.drop_zero, decide_eq_true (Nat.le_refl _), Bool.true_and, List.all_eq_true]
  have hs : ∀ k, (moved d t).shape[k]? = t.shape[exch d 0 k]? := fun k => swap_get t.shape d 0 hd (by omega) k
  have hs0 : ∀ k, (moved d t0).shape[k]? = t0.shape[exch d 0 k]? := fun k => swap_get t0.shape d 0 (by omega) (by omega) k
  have ht : ∀ k, ((moved d t).shape.headD 0 :: (moved d t0).shape.tail)[k + 1]? = t0.shape[exch d 0 (k + 1)]? := by
    intro k; rw [List.getElem?_cons_succ, List.getElem?_tail, hs0]
  have hex0 : ∀ a, a ≠ d → ∃ k, exch d 0 (k + 1) = a := by
    intro a ha
    have hne : exch d 0 a ≠ 0 := by unfold exch; split <;> (try split) <;> omega
    refine ⟨exch d 0 a - 1, ?_⟩
    rw [Nat.sub_add_cancel (by omega), exch_exch]
  have hne : ∀ k, exch d 0 (k + 1) ≠ d := by intro k; unfold exch; split <;> (try split) <;> omega
  constructor
  · intro h a ha
    obtain ⟨k, rfl⟩ := hex0 a ha
    rw [← hs, ← ht]
    by_cases hk : k + 1 < (moved d t).shape.length
    · have := h ((moved d t).shape[k + 1], ((moved d t).shape.headD 0 :: (moved d t0).shape.tail)[k + 1]'(by omega)) (by
        rw [List.mem_iff_getElem?]
        exact ⟨k + 1, by rw [List.getElem?_zip_eq_some]; exact ⟨List.getElem?_eq_getElem hk, List.getElem?_eq_getElem _⟩⟩)
      rw [List.getElem?_eq_getElem hk, List.getElem?_eq_getElem (by omega)]
      simpa using this
    · left; rw [List.getElem?_eq_none (by omega), List.getElem?_eq_none (by omega)]
  · intro h p hp
    rw [List.mem_iff_getElem?] at hp
    obtain ⟨k, hk⟩ := hp
    rw [List.getElem?_zip_eq_some] at hk
    cases k with
    | zero =>
      have h1 := hk.2
      rw [List.getElem?_cons_zero] at h1
      have h2 := hk.1
      rw [← List.head?_eq_getElem?] at h2
      rw [List.headD_eq_head?_getD, h2] at h1
      simp at h1
      simp [h1]
    | succ k =>
      have h1 := hk.1; have h2 := hk.2
      rw [hs] at h1; rw [ht] at h2
      have := h _ (hne k)
      rw [h1, h2] at this
      simpa using this

theorem zipWith_swap {β γ δ : Type} (f : β → γ → δ) (xs : List β) (ys : List γ) (d : Nat) (hx : d < xs.length) (hl : ys.length = xs.length) :
    List.zipWith f (swap xs d 0) (swap ys d 0) = swap (List.zipWith f xs ys) d 0 := by
  apply List.ext_getElem?
  intro k
  rw [swap_get _ d 0 (by simp; omega) (by simp; omega), List.getElem?_zipWith, swap_get _ d 0 hx (by omega), swap_get _ d 0 (by omega) (by omega),
    List.getElem?_zipWith]

theorem shape_back (s : List Nat) (d w : Nat) (hd : d < s.length) : swap (w :: (swap s d 0).tail) d 0 = s.set d w := by
  have h1 : w :: (swap s d 0).tail = (swap s d 0).set 0 w := by
    have : (swap s d 0) ≠ [] := by intro h; have := swap_length s d 0; rw [h] at this; simp at this; omega
    obtain ⟨a, l, h⟩ := List.exists_cons_of_ne_nil this
    rw [h]; rfl
  rw [h1]
  apply List.ext_getElem?
  intro k
  have hl := swap_length s d 0
  rw [swap_get _ d 0 (by simp; omega) (by simp; omega), List.getElem?_set, List.getElem?_set, swap_get _ d 0 hd (by omega), exch_exch, hl]
  by_cases hk : d = k
  · subst hk
    have : exch d 0 d = 0 := by unfold exch; simp
    have h0 : 0 < s.length := by omega
    rw [this, if_pos rfl, if_pos rfl, if_pos h0, if_pos hd]
  · have : exch d 0 k ≠ 0 := by unfold exch; split <;> (try split) <;> omega
    rw [if_neg hk, if_neg (fun h => this h.symm)]

/-- **C222.** Tensors of the same number of axes, with the same sizes off axis `d`, come out as one tensor with a first axis for the batch, as wide on axis `d`
as the widest of them. At place `i` of the batch is tensor `i`, and `pad` behind its end. More generally, a tensor may have size 1 on an axis on which the
first tensor has another size; its entries are then repeated. Anything else raises RuntimeError.
Missing: that all sizes off the axis must agree (`C222_refused_false`); tensors of different numbers of axes (`C222_ranks_partial`). -/
theorem C222_exact_partial (t0 : Ten α) (ts : List (Ten α)) (pad : α) (n d : Nat) (dim : Int) (hd : d < n) (hdim : dim = d ∨ dim = (d : Int) - n)
    (hn : ∀ t ∈ t0 :: ts, t.shape.length = n) :
    ((∀ t ∈ ts, OneElsewhere d t t0) → ∃ (out : Ten α) (w : Nat), concatenateRagged (t0 :: ts) pad dim = .ok out ∧
      (∀ t ∈ t0 :: ts, t.shape.getD d 0 ≤ w) ∧ (∃ t ∈ t0 :: ts, t.shape.getD d 0 = w) ∧
      out.shape = (ts.length + 1) :: t0.shape.set d w ∧ out.names = List.replicate (n + 1) none ∧
      ∀ (i : Nat) (t : Ten α) (ix : List Nat), (t0 :: ts)[i]? = some t → ix.length = n →
        (ix.getD d 0 < t.shape.getD d 0 → out.val (i :: ix) = t.val (onOne t.shape ix)) ∧
        (t.shape.getD d 0 ≤ ix.getD d 0 → out.val (i :: ix) = pad)) ∧
    ((∃ t ∈ ts, ¬ OneElsewhere d t t0) → concatenateRagged (t0 :: ts) pad dim = .error .runtimeError) := by
  have h0 := hn t0 List.mem_cons_self
  have hD : (if 0 ≤ dim then (.ok dim : Py Int) else .ok ((t0.ndim : Int) + dim)) = .ok (d : Int) := by
    split
    · rcases hdim with h | h
      · rw [h]
      · omega
    · rcases hdim with h | h
      · omega
      · unfold Ten.ndim; rw [h0, h]; congr 1; omega
  have hm : (t0 :: ts).mapM (fun t => t.transpose (d : Int) 0) = .ok ((t0 :: ts).map (moved d)) :=
    mapM_all_ok _ _ _ fun t ht => transpose_moved t n d (hn t ht) hd
  have hrun : concatenateRagged (t0 :: ts) pad dim = (padSequence pad ((t0 :: ts).map (moved d))).bind fun out => out.transpose ((d : Int) + 1) 1 := by
    unfold concatenateRagged
    simp only
    split at hD
    · rename_i hpos
      rw [if_pos hpos, Except.ok.inj hD]
      show Except.bind ((t0 :: ts).mapM (fun t => t.transpose (d : Int) 0)) _ = _
      rw [hm]
      rfl
    · rename_i hpos
      rw [if_neg hpos, Except.ok.inj hD]
      show Except.bind ((t0 :: ts).mapM (fun t => t.transpose (d : Int) 0)) _ = _
      rw [hm]
      rfl
  have hall : ((t0 :: ts).map (moved d)).all (fun c => copyable c.shape (c.shape.headD 0 :: (moved d t0).shape.tail)) = true ↔
      ∀ t ∈ ts, OneElsewhere d t t0 := by
    rw [List.all_eq_true]
    constructor
    · intro h t ht
      have hl := hn t (List.mem_cons_of_mem _ ht)
      exact (copyable_moved t t0 d (by omega) (by omega)).1 (h _ (List.mem_map.2 ⟨t, List.mem_cons_of_mem _ ht, rfl⟩))
    · intro h c hc
      obtain ⟨t, ht, rfl⟩ := List.mem_map.1 hc
      have hl := hn t ht
      refine (copyable_moved t t0 d (by omega) (by omega)).2 ?_
      rcases List.mem_cons.1 ht with rfl | ht
      · intro a _; exact .inl rfl
      · exact h t ht
  rw [hrun]
  constructor
  · intro hone
    have hw : maxSize ((t0 :: ts).map (moved d)) = ((t0 :: ts).map fun t => t.shape.getD d 0).foldl max 0 := by
      unfold maxSize
      rw [List.map_map]
      congr 1
      apply List.map_congr_left
      intro t ht
      exact head_moved t d (by rw [hn t ht]; exact hd)
    have hps : padSequence pad ((t0 :: ts).map (moved d)) = .ok (padded pad ((t0 :: ts).map (moved d)) (swap t0.shape d 0).tail) := by
      rw [List.map_cons] at hall ⊢
      unfold padSequence
      simp only
      rw [if_pos (hall.2 hone)]
      rfl
    rw [hps]
    obtain ⟨hm0, hm1, hm2⟩ := DS.Pipe.le_foldl_max ((t0 :: ts).map fun t => t.shape.getD d 0) 0
    have htl : (swap t0.shape d 0).tail.length = n - 1 := by simp [swap_length, h0]
    generalize hP : padded pad ((t0 :: ts).map (moved d)) (swap t0.shape d 0).tail = P
    refine ⟨⟨swap P.shape (d + 1) 1, swap P.names (d + 1) 1, fun ix => P.val (swap ix (d + 1) 1)⟩, maxSize ((t0 :: ts).map (moved d)), ?_, ?_, ?_, ?_, ?_, ?_⟩
    · show Ten.transpose _ _ _ = _
      subst hP
      unfold Ten.transpose Ten.ndim
      rw [show ((d : Int) + 1) = ((d + 1 : Nat) : Int) by omega, show (1 : Int) = ((1 : Nat) : Int) from rfl, normDim_pos (by
        simp only [padded, List.length_cons, htl]; omega), normDim_pos (by
        simp only [padded, List.length_cons, htl]; omega)]
      rfl
    · intro t ht
      rw [hw]
      exact hm1 _ (List.mem_map.2 ⟨t, ht, rfl⟩)
    · rw [hw]
      rcases hm2 with h | h
      · refine ⟨t0, List.mem_cons_self, ?_⟩
        have := hm1 _ (List.mem_map.2 ⟨t0, List.mem_cons_self, rfl⟩)
        omega
      · obtain ⟨t, ht, h⟩ := List.mem_map.1 h
        exact ⟨t, ht, h⟩
    · subst hP
      show swap (((t0 :: ts).map (moved d)).length :: maxSize ((t0 :: ts).map (moved d)) :: (swap t0.shape d 0).tail) (d + 1) 1 = _
      rw [swap_cons _ _ _ (by simp only [List.length_cons, htl]; omega), shape_back _ _ _ (by omega)]
      simp
    · subst hP
      show swap ((((t0 :: ts).map (moved d)).length :: maxSize ((t0 :: ts).map (moved d)) :: (swap t0.shape d 0).tail).map fun _ => none) (d + 1) 1 = _
      rw [List.map_const', swap_replicate]
      simp only [List.length_cons, htl]
      congr 1; omega
    · subst hP
      intro i t ix hi hix
      have ht : t ∈ t0 :: ts := List.mem_of_getElem? hi
      have hl := hn t ht
      have hsw : swap (i :: ix) (d + 1) 1 = i :: swap ix d 0 := swap_cons _ _ _ (by omega)
      have hgi : ((t0 :: ts).map (moved d))[i]? = some (moved d t) := by rw [List.getElem?_map, hi]; rfl
      have hhead : (swap ix d 0).headD 0 = ix.getD d 0 := by
        have := head_moved (α := α) ⟨ix, [], fun _ => pad⟩ d (by show d < ix.length; omega)
        exact this
      have hcp : copySrc (moved d t).shape (swap ix d 0) = swap (onOne t.shape ix) d 0 := by
        unfold copySrc
        have e1 : (moved d t).shape.length = n := by rw [← hl]; exact swap_length _ _ _
        have e2 : (swap ix d 0).length = n := by rw [swap_length, hix]
        rw [e1, e2, Nat.sub_self, List.drop_zero]
        exact zipWith_swap _ _ _ _ (by omega) (by omega)
      have hval : ∀ v : α, (if ix.getD d 0 < t.shape.getD d 0 then t.val (onOne t.shape ix) else pad) = v →
          (match ((t0 :: ts).map (moved d))[(swap (i :: ix) (d + 1) 1).headD 0]? with
            | some c => if (swap (i :: ix) (d + 1) 1).tail.headD 0 < c.shape.headD 0 then c.val (copySrc c.shape (swap (i :: ix) (d + 1) 1).tail) else pad
            | none => pad) = v := by
        intro v hv
        rw [hsw, List.headD_cons, hgi]
        show (if (swap ix d 0).headD 0 < (moved d t).shape.headD 0 then (moved d t).val (copySrc (moved d t).shape (swap ix d 0)) else pad) = v
        rw [hhead, head_moved t d (by omega), hcp]
        show (if _ then t.val (swap (swap (onOne t.shape ix) d 0) d 0) else pad) = v
        rw [swap_swap _ _ _ (by unfold onOne; simp; omega) (by unfold onOne; simp; omega)]
        exact hv
      constructor
      · intro h; exact hval _ (if_pos h)
      · intro h; exact hval _ (if_neg (by omega))
  · rintro ⟨t, ht, hbad⟩
    have : padSequence pad ((t0 :: ts).map (moved d)) = .error .runtimeError := by
      rw [List.map_cons] at hall ⊢
      unfold padSequence
      simp only
      rw [if_neg fun h => hbad (hall.1 h t ht)]
    rw [this]
    rfl

/-- A tensor whose entries name their multi-indices, behind a number. -/
def exR (k : Nat) (shape : List Nat) : Ten (List Nat) := ⟨shape, shape.map fun _ => none, fun ix => k :: ix⟩

example : (2 : Nat) < 3 ∧ ((-1 : Int) = (2 : Nat) ∨ (-1 : Int) = ((2 : Nat) : Int) - (3 : Nat)) ∧
    (∀ t ∈ [exR 1 [2, 4, 3], exR 2 [2, 4, 5]], t.shape.length = 3) := by decide

/-- Tensors that agree off the axis: the whole of every tensor is at its place, and `pad` everywhere else. -/
theorem C222_ragged (t0 : Ten α) (ts : List (Ten α)) (pad : α) (n d : Nat) (dim : Int) (hd : d < n) (hdim : dim = d ∨ dim = (d : Int) - n)
    (hn : ∀ t ∈ t0 :: ts, t.shape.length = n) (hsame : ∀ t ∈ ts, SameElsewhere d t t0) :
    ∃ (out : Ten α) (w : Nat), concatenateRagged (t0 :: ts) pad dim = .ok out ∧
      (∀ t ∈ t0 :: ts, t.shape.getD d 0 ≤ w) ∧ (∃ t ∈ t0 :: ts, t.shape.getD d 0 = w) ∧
      out.shape = (ts.length + 1) :: t0.shape.set d w ∧ out.names = List.replicate (n + 1) none ∧
      ∀ (i : Nat) (t : Ten α) (ix : List Nat), (t0 :: ts)[i]? = some t → Inside ix (t0.shape.set d w) →
        (Inside ix t.shape → out.val (i :: ix) = t.val ix) ∧ (¬ Inside ix t.shape → out.val (i :: ix) = pad) := by
  obtain ⟨out, w, h1, h2, h3, h4, hnm, h5⟩ := (C222_exact_partial t0 ts pad n d dim hd hdim hn).1 fun t ht a ha => .inl (hsame t ht a ha)
  refine ⟨out, w, h1, h2, h3, h4, hnm, ?_⟩
  intro i t ix hi hix
  have hmem : t ∈ t0 :: ts := List.mem_of_getElem? hi
  have hl := hn t hmem
  have hl0 := hn t0 List.mem_cons_self
  have hlen : ix.length = n := by rw [List.Forall₂.length_eq hix, List.length_set, hl0]
  have hs : SameElsewhere d t t0 := by
    rcases List.mem_cons.1 hmem with rfl | h
    · intro _ _; rfl
    · exact hsame t h
  have hin : ∀ (a : Nat) (h : a < n), a ≠ d → ix[a]'(by omega) < t.shape[a]'(by omega) := by
    intro a ha hne
    have h6 := List.Forall₂.get hix (i := a) (by omega) (by simp; omega)
    simp only [List.get_eq_getElem] at h6
    rw [List.getElem_set_ne (fun h => hne h.symm)] at h6
    have h7 := hs a hne
    rw [List.getElem?_eq_getElem (by omega), List.getElem?_eq_getElem (by omega)] at h7
    rw [Option.some.inj h7]; exact h6
  have hiff : Inside ix t.shape ↔ ix.getD d 0 < t.shape.getD d 0 := by
    have e1 : ix.getD d 0 = ix[d]'(by omega) := by simp [List.getD_eq_getElem?_getD, show d < ix.length by omega]
    have e2 : t.shape.getD d 0 = t.shape[d]'(by omega) := by simp [List.getD_eq_getElem?_getD, show d < t.shape.length by omega]
    rw [e1, e2]
    constructor
    · intro h
      exact List.Forall₂.get h (i := d) (by omega) (by omega)
    · intro h
      refine List.forall₂_iff_get.2 ⟨by omega, ?_⟩
      intro a ha hb
      simp only [List.get_eq_getElem]
      by_cases had : a = d
      · subst had; exact h
      · exact hin a (by omega) had
  obtain ⟨h6, h7⟩ := h5 i t ix hi hlen
  constructor
  · intro h
    rw [h6 (hiff.1 h)]
    congr 1
    unfold onOne
    apply List.ext_getElem
    · simp; omega
    · intro a ha hb
      rw [List.getElem_zipWith]
      split
      · rename_i hone
        have := List.Forall₂.get h (i := a) (by omega) (by omega)
        simp only [List.get_eq_getElem] at this
        omega
      · rfl
  · intro h
    exact h7 (by rw [hiff] at h; omega)

example : (∀ t ∈ [exR 2 [2, 5]], t.shape[0]? = (exR 1 [2, 3]).shape[0]?) ∧
    (concatenateRagged [exR 1 [2, 3], exR 2 [2, 5]] [] (-1)).toOption.map (fun o => (o.shape, o.val [0, 1, 2], o.val [0, 1, 3], o.val [1, 1, 4])) =
      some ([2, 2, 5], [1, 1, 2], [], [2, 1, 4]) := by decide +kernel

/-- **C222 is false of the code.** A file of one channel in a batch with a longer file of two channels is not refused: its only channel is delivered twice. In a
batch with a shorter file of two channels it raises. -/
theorem C222_refused_false :
    (∃ out, concatenateRagged [exR 1 [2, 3], exR 2 [1, 2]] [] (-1) = .ok out ∧ out.shape = [2, 2, 3] ∧
      out.val [1, 0, 1] = [2, 0, 1] ∧ out.val [1, 1, 1] = [2, 0, 1]) ∧
    (concatenateRagged [exR 2 [1, 3], exR 1 [2, 2]] [] (-1)).toOption.isNone = true := by
  refine ⟨⟨_, rfl, rfl, ?_, ?_⟩, ?_⟩ <;> decide +kernel

/-- **C222 is false of the code.** An axis that no tensor has is not refused: `dim=-3` with tensors of two axes exchanges batch and length in the result. -/
theorem C222_axis_false : ∃ out, concatenateRagged [exR 1 [2, 3], exR 2 [2, 3]] [] (-3) = .ok out ∧ out.shape = [3, 2, 2] ∧
    out.val [2, 0, 1] = [1, 1, 2] ∧ out.val [2, 1, 1] = [2, 1, 2] := by
  refine ⟨_, rfl, rfl, ?_, ?_⟩ <;> decide +kernel

/-- An axis behind the last, or before the first by more than the number of axes again, raises IndexError; so does no tensor at all for an axis counted from the end (for
one counted from the front it raises RuntimeError). Missing: axes just before the first, see `C222_axis_false`. -/
theorem C222_axis_partial (t0 : Ten α) (ts : List (Ten α)) (pad : α) (dim : Int)
    (h : (t0.shape.length : Int) ≤ dim ∨ dim < -(t0.shape.length : Int) - t0.shape.length) :
    concatenateRagged (t0 :: ts) pad dim = .error .indexError := by
  have hbad : ∀ e : Int, ((t0.shape.length : Int) ≤ e ∨ e < -(t0.shape.length : Int)) →
      (t0 :: ts).mapM (fun t => t.transpose e 0) = .error .indexError := by
    intro e he
    have h1 : t0.transpose e 0 = .error .indexError := by
      unfold Ten.transpose normDim Ten.ndim
      rw [if_neg (by omega), if_neg (by omega)]
      rfl
    rw [List.mapM_cons, h1]
    rfl
  unfold concatenateRagged
  simp only
  split
  · show Except.bind ((t0 :: ts).mapM (fun t => t.transpose dim 0)) _ = _
    rw [hbad dim (by omega)]
    rfl
  · show Except.bind ((t0 :: ts).mapM (fun t => t.transpose ((t0.ndim : Int) + dim) 0)) _ = _
    rw [hbad _ (by unfold Ten.ndim; omega)]
    rfl

example : ((exR 1 [2, 3]).shape.length : Int) ≤ 2 ∨ (2 : Int) < -((exR 1 [2, 3]).shape.length : Int) - (exR 1 [2, 3]).shape.length := by decide

theorem mapM_error_mem {β γ : Type} (f : β → Py γ) (e : PyErr) : ∀ (xs : List β), (∀ x ∈ xs, (∃ y, f x = .ok y) ∨ f x = .error e) → (∃ x ∈ xs, f x = .error e) →
    xs.mapM f = .error e := by
  intro xs
  induction xs with
  | nil => rintro - ⟨x, hx, -⟩; cases hx
  | cons x xs ih =>
    intro h hex
    rw [List.mapM_cons]
    rcases h x List.mem_cons_self with ⟨y, hy⟩ | hy
    · rw [hy]
      obtain ⟨z, hz, hze⟩ := hex
      rcases List.mem_cons.1 hz with rfl | hz
      · rw [hy] at hze; cases hze
      · show Except.bind (xs.mapM f) _ = _
        rw [ih (fun w hw => h w (List.mem_cons_of_mem _ hw)) ⟨z, hz, hze⟩]
        rfl
    · rw [hy]; rfl

/-- **C222, tensors of different numbers of axes** along the last axis of the first (as `custom_collate` calls it): they are always refused, with IndexError if one of them has fewer axes than the first and with RuntimeError otherwise.
Missing: other axes, for which see `C222_ranks_false`. -/
theorem C222_ranks_partial (t0 : Ten α) (ts : List (Ten α)) (pad : α) (h0 : t0.shape ≠ []) (_hpos : ∀ t ∈ ts, t.shape ≠ [])
    (hd : ∃ t ∈ ts, t.shape.length ≠ t0.shape.length) :
    ((∃ t ∈ ts, t.shape.length < t0.shape.length) → concatenateRagged (t0 :: ts) pad (-1) = .error .indexError) ∧
    ((∀ t ∈ ts, t0.shape.length ≤ t.shape.length) → concatenateRagged (t0 :: ts) pad (-1) = .error .runtimeError) := by
  have hl0 : 0 < t0.shape.length := List.length_pos_iff.2 h0
  generalize hD : t0.shape.length - 1 = d
  have hD' : (t0.ndim : Int) + -1 = (d : Int) := by unfold Ten.ndim; omega
  have htr : ∀ t ∈ t0 :: ts, (d < t.shape.length → t.transpose (d : Int) 0 = .ok (moved d t)) ∧
      (t.shape.length ≤ d → t.transpose (d : Int) 0 = .error .indexError) := by
    intro t _
    refine ⟨fun h => transpose_moved t _ d rfl h, ?_⟩
    intro h
    unfold Ten.transpose normDim Ten.ndim
    rw [if_neg (by omega), if_neg (by omega)]
    rfl
  have hrun : concatenateRagged (t0 :: ts) pad (-1) = ((t0 :: ts).mapM fun t : Ten α => t.transpose (d : Int) 0).bind fun mv =>
      (padSequence pad mv).bind fun out => out.transpose ((d : Int) + 1) 1 := by
    unfold concatenateRagged
    simp only
    rw [if_neg (by omega), hD']
    rfl
  constructor
  · rintro ⟨t, ht, hlt⟩
    rw [hrun, mapM_error_mem (fun t : Ten α => t.transpose (d : Int) 0) .indexError (t0 :: ts)]
    · rfl
    · intro u hu
      by_cases h : d < u.shape.length
      · exact .inl ⟨_, (htr u hu).1 h⟩
      · exact .inr ((htr u hu).2 (by omega))
    · exact ⟨t, List.mem_cons_of_mem _ ht, (htr t (List.mem_cons_of_mem _ ht)).2 (by omega)⟩
  · intro hge
    have hm : (t0 :: ts).mapM (fun t => t.transpose (d : Int) 0) = .ok ((t0 :: ts).map (moved d)) := by
      refine mapM_all_ok _ _ _ fun t ht => (htr t ht).1 ?_
      rcases List.mem_cons.1 ht with rfl | ht
      · omega
      · have := hge t ht; omega
    obtain ⟨t, ht, hne⟩ := hd
    have hgt := hge t ht
    rw [hrun, hm]
    show (padSequence pad ((t0 :: ts).map (moved d))).bind _ = _
    have : padSequence pad ((t0 :: ts).map (moved d)) = .error .runtimeError := by
      rw [List.map_cons]
      unfold padSequence
      simp only
      rw [if_neg]
      intro h
      rw [List.all_eq_true] at h
      have h1 := h (moved d t) (List.mem_cons_of_mem _ (List.mem_map.2 ⟨t, ht, rfl⟩))
      unfold copyable at h1
      rw [Bool.and_eq_true, decide_eq_true_eq] at h1
      have h2 := h1.1
      have e1 : (moved d t).shape.length = t.shape.length := swap_length _ _ _
      have e2 : (moved d t0).shape.length = t0.shape.length := swap_length _ _ _
      rw [List.length_cons, List.length_tail, e1, e2] at h2
      omega
    rw [this]
    rfl

example : (exR 1 [2, 3]).shape ≠ [] ∧ (∀ t ∈ [exR 2 [3]], t.shape ≠ []) ∧ (∃ t ∈ [exR 2 [3]], t.shape.length ≠ (exR 1 [2, 3]).shape.length) ∧
    ∃ t ∈ [exR 2 [3]], t.shape.length < (exR 1 [2, 3]).shape.length := by decide

/-- **C222 is false of the code.** Along the first axis, a tensor of one axis next to a tensor of two is accepted if it happens to be as long as the other is wide, and is repeated on every line. -/
theorem C222_ranks_false : ∃ out, concatenateRagged [exR 1 [2, 3], exR 2 [3]] [] 0 = .ok out ∧ out.shape = [2, 3, 3] ∧
    out.val [1, 0, 2] = [2, 2] ∧ out.val [1, 1, 2] = [2, 2] := by
  refine ⟨_, rfl, rfl, ?_, ?_⟩ <;> decide +kernel

/-- No tensors. -/
theorem C222_none (pad : α) (dim : Int) : concatenateRagged ([] : List (Ten α)) pad dim =
    if 0 ≤ dim then .error .runtimeError else .error .indexError := by
  unfold concatenateRagged
  simp only
  split <;> rfl

/-- A list of frames as a tensor with one axis. -/
def ofFrames (pad : α) (r : List α) : Ten α := ⟨[r.length], [none], fun ix => r.getD (ix.headD 0) pad⟩

/-- The model of `concatenate_ragged` on frames (`Model/Dataset`) and the one on tensors agree. -/
theorem C222_frames (pad : α) (r0 : List α) (rs : List (List α)) :
    ∃ (out : Ten α) (rows : List (List α)), concatenateRagged ((r0 :: rs).map (ofFrames pad)) pad (-1) = .ok out ∧ Data.ragged pad (r0 :: rs) = .ok rows ∧
      out.shape = [rows.length, Data.maxLen (r0 :: rs)] ∧
      ∀ (i j : Nat) (row : List α), rows[i]? = some row → j < Data.maxLen (r0 :: rs) → row[j]? = some (out.val [i, j]) := by
  obtain ⟨out, w, h1, h2, h3, h4, -, h5⟩ := C222_ragged (ofFrames pad r0) (rs.map (ofFrames pad)) pad 1 0 (-1) (by omega) (.inr (by omega)) (by
      intro t ht
      rw [← List.map_cons] at ht
      obtain ⟨r, _, rfl⟩ := List.mem_map.1 ht
      rfl) (by
      intro t ht a ha
      obtain ⟨r, _, rfl⟩ := List.mem_map.1 ht
      unfold ofFrames
      cases a with
      | zero => exact absurd rfl ha
      | succ a => rfl)
  rw [← List.map_cons] at h1 h2 h3 h5
  have hw : w = Data.maxLen (r0 :: rs) := by
    obtain ⟨t, ht, h6⟩ := h3
    obtain ⟨r, hr, rfl⟩ := List.mem_map.1 ht
    let : Zero α := ⟨pad⟩
    obtain ⟨s, hs, h7⟩ := Data.maxLen_attained (ss := r0 :: rs) (by simp)
    have h8 := h2 _ (List.mem_map.2 ⟨s, hs, rfl⟩)
    have h9 := Data.le_maxLen hr
    simp only [ofFrames, List.getD_cons_zero] at h6 h8
    omega
  refine ⟨out, _, h1, rfl, ?_, ?_⟩
  · rw [h4, hw]; simp [ofFrames]
  · intro i j row hrow hj
    rw [List.getElem?_map, Option.map_eq_some_iff] at hrow
    obtain ⟨r, hr, rfl⟩ := hrow
    have hle := Data.le_maxLen (List.mem_of_getElem? hr)
    obtain ⟨h6, h7⟩ := h5 i (ofFrames pad r) [j] (by rw [List.getElem?_map, hr]; rfl) (by
      show Inside [j] [w]
      exact .cons (by omega) .nil)
    by_cases hjr : j < r.length
    · rw [h6 (.cons hjr .nil), List.getElem?_append_left hjr]
      simp [ofFrames, List.getD_eq_getElem?_getD, hjr]
    · rw [h7 (by intro h; cases h; omega), List.getElem?_append_right (by omega), List.getElem?_replicate, if_pos (by omega)]

example : (concatenateRagged ([[1, 2, 3], [4]].map (ofFrames 0)) 0 (-1)).toOption.map (fun o => (o.shape, o.val [0, 2], o.val [1, 0], o.val [1, 2])) =
    some ([2, 3], 3, 4, 0) := by decide +kernel

end
end DS.Tn
