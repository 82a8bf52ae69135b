import Verif.Model.Pad
import Verif.Props.TensorSplit
/-! # C49: padding and unpadding -/

namespace DS.Tn
open Meta

variable {α : Type}

theorem others_eq (n a : Nat) (h : a < n) : (List.range n).filter (· ≠ a) = (List.range n).eraseIdx a := by
  have e : List.range n = List.range a ++ a :: List.range' (a + 1) (n - a - 1) := by
    rw [List.range_eq_range', List.range_eq_range', show n = a + (1 + (n - a - 1)) by omega, ← List.range'_append_1, ← List.range'_append_1]
    simp
  rw [List.eraseIdx_eq_take_drop_succ, e, List.filter_append, List.filter_cons]
  have h1 : (List.range a).filter (fun x => decide (x ≠ a)) = List.range a := by
    rw [List.filter_eq_self]; intro x hx; simp at hx ⊢; omega
  have h2 : (List.range' (a + 1) (n - a - 1)).filter (fun x => decide (x ≠ a)) = List.range' (a + 1) (n - a - 1) := by
    rw [List.filter_eq_self]; intro x hx; simp [List.mem_range'] at hx ⊢; omega
  rw [h1, h2]
  simp [List.take_append, List.drop_append]

/-- The axes with the length axis first. -/
def lengthFirstNat (n a : Nat) : List Nat := a :: (List.range n).eraseIdx a

theorem lengthFirst_get (n a : Nat) (h : a < n) (k : Nat) (hk : k < n) : (lengthFirstNat n a)[k]? = some (if k = 0 then a else if k ≤ a then k - 1 else k) := by
  unfold lengthFirstNat
  cases k with
  | zero => rfl
  | succ k =>
    rw [List.getElem?_cons_succ, List.getElem?_eraseIdx]
    by_cases h1 : k < a
    · rw [if_pos h1, if_neg (by omega), if_pos (by omega), List.getElem?_range (by omega)]; rfl
    · rw [if_neg h1, if_neg (by omega), if_neg (by omega), List.getElem?_range hk]

theorem lengthFirst_length (n a : Nat) (h : a < n) : (lengthFirstNat n a).length = n := by
  unfold lengthFirstNat
  rw [List.length_cons, List.length_eraseIdx_of_lt (by simpa using h), List.length_range]
  omega

theorem lengthFirst_nodup (n a : Nat) (h : a < n) : (lengthFirstNat n a).Nodup := by
  unfold lengthFirstNat
  rw [← others_eq n a h, List.nodup_cons]
  exact ⟨by simp, List.nodup_range.filter _⟩

theorem lengthFirst_idxOf (n a : Nat) (h : a < n) (c : Nat) (hc : c < n) : (lengthFirstNat n a).idxOf c = if c = a then 0 else if c < a then c + 1 else c := by
  have key : ∀ k, k < n → (lengthFirstNat n a)[k]? = some c → (lengthFirstNat n a).idxOf c = k := by
    intro k hk hg
    obtain ⟨hk', hg⟩ := List.getElem?_eq_some_iff.1 hg
    rw [← hg]
    exact (lengthFirst_nodup n a h).idxOf_getElem k hk'
  by_cases h1 : c = a
  · rw [if_pos h1]; exact key 0 (by omega) (by rw [lengthFirst_get n a h 0 (by omega), if_pos rfl, h1])
  · rw [if_neg h1]
    by_cases h2 : c < a
    · rw [if_pos h2]
      refine key (c + 1) (by omega) ?_
      rw [lengthFirst_get n a h _ (by omega), if_neg (by omega), if_pos (by omega)]; rfl
    · rw [if_neg h2]
      refine key c hc ?_
      rw [lengthFirst_get n a h _ hc, if_neg (by omega), if_neg (by omega)]

/-- `t'` is `t` with axis `a` moved to the front. -/
def LengthFront (a : Nat) (t t' : Ten α) : Prop :=
  t'.shape = t.shape.getD a 0 :: t.shape.eraseIdx a ∧ ∀ (j : Nat) (r : List Nat), r.length + 1 = t.ndim → t'.val (j :: r) = t.val (r.insertIdx a j)

theorem permute_front (t : Ten α) (n a : Nat) (hn : t.ndim = n) (ha : a < n) : ∃ t', t.permute (lengthFirst n a) = .ok t' ∧ LengthFront a t t' := by
  have hdims : lengthFirst n a = (lengthFirstNat n a).map fun (p : Nat) => (p : Int) := by
    unfold lengthFirst lengthFirstNat
    rw [others_eq n a ha]; rfl
  have hpos : (lengthFirst n a).mapM (normDim t.ndim) = .ok (lengthFirstNat n a) := by
    rw [mapM_normDim, hdims, C40_index_select_batch_partial.positions_nat]
    · rfl
    · intro p hp
      obtain ⟨k, hk⟩ := List.mem_iff_getElem?.1 hp
      have hlt := (List.getElem?_eq_some_iff.1 hk).1
      rw [lengthFirst_length n a ha] at hlt
      rw [lengthFirst_get n a ha k hlt] at hk
      have := Option.some.inj hk
      split at this <;> [omega; (split at this <;> omega)]
  refine ⟨_, by unfold Ten.permute; rw [hpos, Except.bind_ok', if_pos ⟨by rw [lengthFirst_length n a ha, hn], lengthFirst_nodup n a ha⟩], ?_, ?_⟩
  · show (lengthFirstNat n a).map (fun d => t.shape.getD d 0) = _
    unfold lengthFirstNat
    rw [List.map_cons]
    congr 1
    apply List.ext_getElem?
    intro k
    have hlen : t.shape.length = n := hn
    rw [List.getElem?_map, List.getElem?_eraseIdx, List.getElem?_eraseIdx]
    have : ∀ c : Nat, ((List.range n)[c]?).map (fun d => t.shape.getD d 0) = t.shape[c]? := by
      intro c
      by_cases hc : c < n
      · rw [List.getElem?_range hc, Option.map_some, List.getD_eq_getElem?_getD, List.getElem?_eq_getElem (by omega)]; rfl
      · rw [List.getElem?_eq_none (by simp; omega), List.getElem?_eq_none (by omega)]; rfl
    split <;> exact this _
  · intro j r hr
    show t.val ((List.range t.ndim).map fun c => (j :: r).getD ((lengthFirstNat n a).idxOf c) 0) = _
    congr 1
    apply List.ext_getElem?
    intro c
    rw [List.getElem?_map, List.getElem?_insertIdx]
    by_cases hc : c < n
    · rw [List.getElem?_range (by omega), Option.map_some, lengthFirst_idxOf n a ha c hc]
      by_cases h1 : c = a
      · rw [if_pos h1, if_neg (by omega), if_pos h1, if_pos (by omega)]; rfl
      · rw [if_neg h1]
        by_cases h2 : c < a
        · rw [if_pos h2, if_pos h2, List.getD_cons_succ, List.getD_eq_getElem?_getD, List.getElem?_eq_getElem (by omega)]; rfl
        · obtain ⟨c, rfl⟩ : ∃ c', c = c' + 1 := ⟨c - 1, by omega⟩
          rw [if_neg h2, if_neg h2, if_neg h1, List.getD_cons_succ, List.getD_eq_getElem?_getD]
          show _ = r[c]?
          rw [List.getElem?_eq_getElem (by omega)]; rfl
    · rw [List.getElem?_eq_none (by simp; omega), if_neg (by omega), if_neg (by omega), List.getElem?_eq_none (by omega)]; rfl

theorem filter_ne_erase (ns : List (Option String)) (s : String) (a : Nat) (hnd : (ns.filterMap id).Nodup) (h : ns[a]? = some (some s)) :
    ns.filter (fun n => decide (n ≠ some s)) = ns.eraseIdx a := by
  induction ns generalizing a with
  | nil => simp at h
  | cons n ns ih =>
    have hnd' : (ns.filterMap id).Nodup := by
      cases n with
      | none => simpa using hnd
      | some _ => simp at hnd; exact hnd.2
    cases a with
    | zero =>
      simp at h
      subst h
      rw [List.filter_cons, if_neg (by simp), List.eraseIdx_cons_zero, List.filter_eq_self]
      intro m hm
      rw [decide_eq_true_eq]
      rintro rfl
      simp at hnd
      exact hnd.1 hm
    | succ a =>
      have h' : ns[a]? = some (some s) := by simpa using h
      rw [List.filter_cons, if_pos, ih a hnd' h', List.eraseIdx_cons_succ]
      rw [decide_eq_true_eq]
      rintro rfl
      simp at hnd
      exact hnd.1 (List.mem_of_getElem? h')

theorem le_foldr_max (xs : List Nat) (x : Nat) (h : x ∈ xs) : x ≤ xs.foldr max 0 := by
  induction xs with
  | nil => simp at h
  | cons y ys ih =>
    rw [List.foldr_cons]
    rcases List.mem_cons.1 h with rfl | h
    · omega
    · have := ih h; omega

/-- The batch and length axes of a padded tensor. -/
def bAxis (bf : Bool) : Nat := if bf then 0 else 1
def lAxis (bf : Bool) : Nat := if bf then 1 else 0
/-- The multi-index of frame `j` of sequence `i`. -/
def padIx (bf : Bool) (i j : Nat) (r : List Nat) : List Nat := if bf then i :: j :: r else j :: i :: r

/-- What padding gives. -/
theorem pad_spec (zero : α) (ts : List (Ten α)) (hne : ts ≠ []) (names : List (Option String)) (a : Nat) (hok : (names.filterMap id).Nodup ∧ some "" ∉ names)
    (hL : names[a]? = some LENGTH) (hB : BATCH ∉ names) (hrank : ∀ t ∈ ts, t.ndim = names.length) (rest : List Nat) (hrest : ∀ t ∈ ts, t.shape.eraseIdx a = rest)
    (ids : List String) (sos eos : List Bool) (hids : ids.length = ts.length) (hsos : sos.length = ts.length) (heos : eos.length = ts.length) (bf : Bool) :
    ∃ x, padChunks zero ts names ids sos eos bf = .ok x ∧ x.Describes (bAxis bf) (lAxis bf) ∧ x.md = ⟨ids, sos, eos, ts.map fun t => ((t.shape.getD a 0 : Nat) : Int), none⟩ ∧
      x.t.names = (if bf then [BATCH, LENGTH] else [LENGTH, BATCH]) ++ names.eraseIdx a ∧
      (∃ w, x.t.shape = (if bf then [ts.length, w] else [w, ts.length]) ++ rest) ∧
      ∀ (i : Nat) (t : Ten α), ts[i]? = some t → ∀ (j : Nat) (r : List Nat), r.length + 1 = names.length →
        x.t.val (padIx bf i j r) = if j < t.shape.getD a 0 then t.val (r.insertIdx a j) else zero := by
  have ha : a < names.length := (List.getElem?_eq_some_iff.1 hL).1
  have hLi : nameIndex names LENGTH = .ok a := nameIndex_of hok.1 hL
  obtain ⟨ts', e1, hf⟩ : ∃ ts', (if a ≠ 0 then ts.mapM (fun t => t.permute (lengthFirst names.length a)) else .ok ts) = .ok ts' ∧ List.Forall₂ (LengthFront a) ts ts' := by
    by_cases h : a = 0
    · rw [if_neg (by simpa using h)]
      refine ⟨ts, rfl, ?_⟩
      subst h
      clear * - hrank ha
      induction ts with
      | nil => exact .nil
      | cons t ts ih =>
        refine .cons ⟨?_, fun j r _ => by simp⟩ (ih (fun u hu => hrank u (by simp [hu])))
        have := hrank t (by simp)
        unfold Ten.ndim at this
        cases hs : t.shape with
        | nil => rw [hs] at this; simp at this; omega
        | cons n s => simp
    · rw [if_pos (by simpa using h)]
      exact mapM_forall₂ ts (fun t ht => permute_front t names.length a (hrank t ht) ha)
  have hlen := hf.length_eq
  have hsh : ∀ t' ∈ ts', t'.shape.tail = rest ∧ t'.ndim = rest.length + 1 := by
    intro t' ht'
    obtain ⟨i, hi⟩ := List.getElem?_of_mem ht'
    obtain ⟨t, ht, h1, -⟩ := forall₂_get hf i t' hi
    have := hrest t (List.mem_of_getElem? ht)
    unfold Ten.ndim
    rw [h1, this]
    exact ⟨rfl, rfl⟩
  have hrl : rest.length + 1 = names.length := by
    obtain ⟨t, ts, rfl⟩ := List.exists_cons_of_ne_nil hne
    rw [← hrest t (by simp), ← hrank t (by simp)]
    unfold Ten.ndim
    have : a < t.shape.length := by have := hrank t (by simp); unfold Ten.ndim at this; omega
    rw [List.length_eraseIdx_of_lt this]
    omega
  have hlens : ts'.mapM size0 = .ok (ts.map fun t => t.shape.getD a 0) := by
    clear * - hf
    induction hf with
    | nil => rfl
    | @cons t t' ts ts' h _ ih =>
      rw [List.mapM_cons, size0, h.1, Except.bind_ok', ih]; rfl
  obtain ⟨t0', us', hcons⟩ : ∃ t us, ts' = t :: us := by
    apply List.exists_cons_of_ne_nil
    intro e; rw [e] at hlen; exact hne (List.length_eq_zero_iff.1 hlen)
  have hpad : padTen zero bf ts' = .ok
      { shape := if bf then ts'.length :: (ts'.map fun u => u.shape.headD 0).foldr max 0 :: rest else (ts'.map fun u => u.shape.headD 0).foldr max 0 :: ts'.length :: rest
        names := none :: none :: rest.map fun _ => none
        val := fun ix => padTen.entry zero (if bf then ix.headD 0 else ix.tail.headD 0) (if bf then ix.tail.headD 0 else ix.headD 0) (ix.drop 2) ts' } := by
    have h0 := hsh t0' (by rw [hcons]; simp)
    rw [hcons]
    unfold padTen
    have hc : ∀ u ∈ us', u.ndim = t0'.ndim ∧ u.shape.tail = t0'.shape.tail := by
      intro u hu
      have := hsh u (by rw [hcons]; simp [hu])
      rw [this.1, this.2, h0.1, h0.2]
      exact ⟨rfl, rfl⟩
    refine (if_pos hc).trans ?_
    simp only [h0.1]
  have hnames : names.filter (fun n => decide (n ≠ LENGTH)) = names.eraseIdx a := filter_ne_erase names "L" a hok.1 hL
  have hnL : LENGTH ∉ names.eraseIdx a := by rw [← hnames]; simp
  have hnB : BATCH ∉ names.eraseIdx a := fun h => hB ((List.eraseIdx_sublist _ _).subset h)
  have hsub := okNames_sub (List.eraseIdx_sublist names a) hok
  have hok2 : (((if bf then [BATCH, LENGTH] else [LENGTH, BATCH]) ++ names.eraseIdx a).filterMap id).Nodup ∧ some "" ∉ (if bf then [BATCH, LENGTH] else [LENGTH, BATCH]) ++ names.eraseIdx a := by
    have h1 : "B" ∉ (names.eraseIdx a).filterMap id := by
      rw [List.mem_filterMap]; rintro ⟨n, hn, e⟩; exact hnB (by rw [show BATCH = n from e.symm]; exact hn)
    have h2 : "L" ∉ (names.eraseIdx a).filterMap id := by
      rw [List.mem_filterMap]; rintro ⟨n, hn, e⟩; exact hnL (by rw [show LENGTH = n from e.symm]; exact hn)
    cases bf
    · simp only [Bool.false_eq_true, if_false]
      refine ⟨?_, by simpa [LENGTH, BATCH] using hsub.2⟩
      show ("L" :: "B" :: (names.eraseIdx a).filterMap id).Nodup
      rw [List.nodup_cons, List.nodup_cons]
      exact ⟨by simpa using h2, h1, hsub.1⟩
    · simp only [if_true]
      refine ⟨?_, by simpa [LENGTH, BATCH] using hsub.2⟩
      show ("B" :: "L" :: (names.eraseIdx a).filterMap id).Nodup
      rw [List.nodup_cons, List.nodup_cons]
      exact ⟨by simpa using h1, h2, hsub.1⟩
  have hel : (names.eraseIdx a).length = rest.length := by rw [List.length_eraseIdx_of_lt ha]; omega
  have hinit : init ids sos eos ((ts.map fun t => t.shape.getD a 0).map fun (n : Nat) => (n : Int)) none = .ok ⟨ids, sos, eos, ts.map fun t => ((t.shape.getD a 0 : Nat) : Int), none⟩ := by
    unfold init
    rw [if_pos (by simp; omega), List.map_map]; rfl
  refine ⟨⟨{ shape := if bf then ts'.length :: (ts'.map fun u => u.shape.headD 0).foldr max 0 :: rest else (ts'.map fun u => u.shape.headD 0).foldr max 0 :: ts'.length :: rest
             names := (if bf then [BATCH, LENGTH] else [LENGTH, BATCH]) ++ names.eraseIdx a
             val := fun ix => padTen.entry zero (if bf then ix.headD 0 else ix.tail.headD 0) (if bf then ix.tail.headD 0 else ix.headD 0) (ix.drop 2) ts' },
    ⟨ids, sos, eos, ts.map fun t => ((t.shape.getD a 0 : Nat) : Int), none⟩⟩, ?_, ?_, rfl, rfl, ?_, ?_⟩
  · unfold padChunks
    rw [if_neg hB, hLi, Except.bind_ok']
    have e3 : ∀ {β : Type} (k : List (Ten α) → Py β), (if a ≠ 0 then ts.mapM (fun t => t.permute (lengthFirst names.length a)) >>= k else Except.ok ts >>= k) = k ts' := by
      intro β k
      by_cases h : a ≠ 0
      · rw [if_pos h] at e1 ⊢; rw [e1, Except.bind_ok']
      · rw [if_neg h] at e1 ⊢; rw [e1, Except.bind_ok']
    refine (e3 _).trans ?_
    simp only [hlens, Except.bind_ok', hpad, hnames]
    rw [rename_ok _ _ _ hok2, Except.bind_ok', hinit]
    · rfl
    · cases bf <;> simp [Ten.ndim, hel]
  · refine ⟨⟨?_, hok2⟩, ?_, ?_, ?_, ?_, (ts'.map fun u => u.shape.headD 0).foldr max 0, ?_, ?_⟩
    · cases bf <;> simp [hel]
    · cases bf <;> rfl
    · cases bf <;> rfl
    · refine ⟨by simp; omega, by simp; omega, by simp; omega, by simp⟩
    · cases bf <;> simp [bAxis, hids, hlen]
    · cases bf <;> rfl
    · intro n hn
      obtain ⟨t, ht, rfl⟩ := List.mem_map.1 hn
      refine ⟨by omega, ?_⟩
      obtain ⟨i, hi⟩ := List.getElem?_of_mem ht
      have hil : i < ts'.length := by rw [← hlen]; exact (List.getElem?_eq_some_iff.1 hi).1
      obtain ⟨t2, ht2, h1, -⟩ := forall₂_get hf i _ (List.getElem?_eq_getElem hil)
      rw [hi] at ht2
      obtain rfl := Option.some.inj ht2
      have := le_foldr_max (ts'.map fun u => u.shape.headD 0) (t.shape.getD a 0) (List.mem_map.2 ⟨_, List.getElem_mem hil, by rw [h1]; rfl⟩)
      omega
  · rw [hlen]
    cases bf <;> exact ⟨_, rfl⟩
  · intro i t ht j r hr
    have hil : i < ts'.length := by rw [← hlen]; exact (List.getElem?_eq_some_iff.1 ht).1
    obtain ⟨t2, ht2, h1, h2⟩ := forall₂_get hf i _ (List.getElem?_eq_getElem hil)
    rw [ht] at ht2
    obtain rfl := Option.some.inj ht2
    have hent : padTen.entry zero i j r ts' = if j < t.shape.getD a 0 then t.val (r.insertIdx a j) else zero := by
      unfold padTen.entry
      rw [List.getElem?_eq_getElem hil]
      simp only [h1, List.headD_cons]
      split
      · exact h2 j r (by rw [hrank t (List.mem_of_getElem? ht)]; exact hr)
      · rfl
    rw [← hent]
    cases bf <;> rfl

/-- **C49, the part that holds.** Sequences of one rank with a length axis `a` and equal sizes on the other axes: padding succeeds, every frame of the result beyond a sequence's length is zero, the lengths are the
sequences' lengths; unpadding the result gives the sequences back, in order, with the length axis moved to the front, with their ids and, for sequences that have frames, the flags.
Missing: the flags of empty sequences (`C49_pad_empty_false`). -/
theorem C49_pad_unpad_partial (junk : Int) (zero : α) (ts : List (Ten α)) (hne : ts ≠ []) (names : List (Option String)) (a : Nat) (hok : (names.filterMap id).Nodup ∧ some "" ∉ names)
    (hL : names[a]? = some LENGTH) (hB : BATCH ∉ names) (hrank : ∀ t ∈ ts, t.ndim = names.length) (rest : List Nat) (hrest : ∀ t ∈ ts, t.shape.eraseIdx a = rest)
    (ids : List String) (sos eos : List Bool) (hids : ids.length = ts.length) (hsos : sos.length = ts.length) (heos : eos.length = ts.length) (bf : Bool) :
    ∃ x ys, padChunks zero ts names ids sos eos bf = .ok x ∧ x.md.lengths = (ts.map fun t => ((t.shape.getD a 0 : Nat) : Int)) ∧
      (∀ (i : Nat) (t : Ten α), ts[i]? = some t → ∀ (j : Nat) (r : List Nat), t.shape.getD a 0 ≤ j → r.length + 1 = names.length → x.t.val (padIx bf i j r) = zero) ∧
      unpadSequence junk x = .ok ys ∧ ys.length = ts.length ∧
      ∀ (i : Nat) (t : Ten α) (y : STen α), ts[i]? = some t → ys[i]? = some y →
        y.t.names = LENGTH :: names.eraseIdx a ∧ LengthFront a t { y.t with val := fun ix => if ix.headD 0 < t.shape.getD a 0 then y.t.val ix else t.val (ix.tail.insertIdx a (ix.headD 0)) } ∧
        y.md.WF ∧ y.md.ids.length = 1 ∧ ∃ id s e q, ids[i]? = some id ∧ sos[i]? = some s ∧ eos[i]? = some e ∧ y.md.row 0 = some q ∧ q.id = id ∧ q.len = t.shape.getD a 0 ∧ q.chunk = none ∧
          (0 < t.shape.getD a 0 → q.sos = s ∧ q.eos = e) := by
  obtain ⟨x, e, hx, hmd, hnm, ⟨w, hsh⟩, hv⟩ := pad_spec zero ts hne names a hok hL hB hrank rest hrest ids sos eos hids hsos heos bf
  obtain ⟨ys, e2, hlen, hy⟩ := unpad_spec junk x _ _ hx
  refine ⟨x, ys, e, by rw [hmd], ?_, e2, by rw [hlen, hmd]; exact hids, ?_⟩
  · intro i t ht j r hj hr
    rw [hv i t ht j r hr, if_neg (by omega)]
  · intro i t y ht hyi
    have hi : i < ts.length := (List.getElem?_eq_some_iff.1 ht).1
    have hmrow : x.md.row i = some ⟨ids[i], sos[i], eos[i], ((t.shape.getD a 0 : Nat) : Int), none⟩ := by
      rw [hmd]
      unfold row
      simp only [List.getElem?_map, ht, List.getElem?_eq_getElem (by omega : i < ids.length), List.getElem?_eq_getElem (by omega : i < sos.length),
        List.getElem?_eq_getElem (by omega : i < eos.length), Option.map_some]
    obtain ⟨h1, h2, h3, h4, h5, q, hq, g1, g2, g3, g4, g5⟩ := hy i _ y hmrow hyi
    simp only at g1 g2 g3 g4 g5
    refine ⟨?_, ⟨?_, ?_⟩, h4, h5, ids[i], sos[i], eos[i], q, List.getElem?_eq_getElem _, List.getElem?_eq_getElem _, List.getElem?_eq_getElem _, hq, g1, g2, g3, ?_⟩
    · rw [h1, hnm]; cases bf <;> rfl
    · show y.t.shape = _
      rw [h2, hsh, hrest t (List.mem_of_getElem? ht)]
      cases bf <;> simp [bAxis, lAxis]
    · intro j r hr
      show (if j < t.shape.getD a 0 then y.t.val (j :: r) else t.val (r.insertIdx a j)) = t.val (r.insertIdx a j)
      split
      · rename_i hj
        have hp : (padIx bf i j r)[bAxis bf]? = some i := by cases bf <;> rfl
        have he : (padIx bf i j r).eraseIdx (bAxis bf) = j :: r := by cases bf <;> rfl
        have := h3 _ hp
        rw [he] at this
        rw [this, hv i t ht j r (by rw [← hrank t (List.mem_of_getElem? ht)]; exact hr), if_pos hj]
      · rfl
    · intro h0
      rw [g4, g5, show decide ((0 : Int) < ((t.shape.getD a 0 : Nat) : Int)) = true by simpa using h0]
      simp

/-- Sequences over (F, L) of lengths 3 and 1, for examples. -/
def exSeqs : List (Ten (List Nat)) := [exT [2, 3] [none, none], exT [2, 1] [none, none]]

example : exSeqs ≠ [] ∧ [some "F", some "L"][1]? = some LENGTH ∧ BATCH ∉ [some "F", some "L"] ∧ (∀ t ∈ exSeqs, t.shape.eraseIdx 1 = [2]) ∧
    ∃ x ys, padFull [7, 7] exSeqs [some "F", some "L"] ["a", "b"] true = .ok x ∧ x.t.shape = [2, 3, 2] ∧ x.md.lengths = [3, 1] ∧ x.t.val [1, 0, 1] = [1, 0] ∧ x.t.val [1, 1, 1] = [7, 7] ∧
      unpadSequence 0 x = .ok ys ∧ ys.map (fun y => (y.t.names, y.t.shape)) = [([some "L", some "F"], [3, 2]), ([some "L", some "F"], [1, 2])] := by
  refine ⟨by simp [exSeqs], rfl, by decide, by decide +kernel, _, _, rfl, rfl, rfl, rfl, rfl, rfl, by decide +kernel⟩

/-- **C49 is false of the code.** An empty sequence padded as a full sequence (starting and ending) comes back neither starting nor ending. -/
theorem C49_pad_empty_false : ∃ (x : STen (List Nat)) (ys : List (STen (List Nat))), padFull [7, 7] [exT [2] [none], exT [0] [none]] [some "L"] ["a", "b"] true = .ok x ∧
    x.md.sos = [true, true] ∧ x.md.eos = [true, true] ∧ unpadSequence 0 x = .ok ys ∧ ys.map (fun y => (y.md.sos, y.md.eos)) = [([true], [true]), ([false], [false])] :=
  ⟨_, _, rfl, rfl, rfl, rfl, by decide +kernel⟩

/-- **C49 is false of the code**, `pad_stream_tensor`: only the names of the first sequence are looked at. Of two sequences with the same sizes and the axes in different order, the second comes back with its
features as frames: entry (frame 0, feature 1) of the second sequence, which is `[0, 1]` in it, comes back as `[1, 0]`. -/
theorem C49_pad_stream_names_false : ∃ (u v : STen (List Nat)) (x : STen (List Nat)) (ys : List (STen (List Nat))),
    u.t.names = [some "F", some "L"] ∧ v.t.names = [some "L", some "F"] ∧ v.t.val [0, 1] = [0, 1] ∧ padStream [7, 7] [u, v] true = .ok x ∧ unpadSequence 0 x = .ok ys ∧
      (ys[1]?).map (fun y => (y.t.names, y.t.val [0, 1])) = some ([some "L", some "F"], [1, 0]) :=
  ⟨⟨exT [2, 2] [some "F", some "L"], ⟨["a"], [true], [true], [2], none⟩⟩, ⟨exT [2, 2] [some "L", some "F"], ⟨["b"], [true], [true], [2], none⟩⟩, _, _, rfl, rfl, rfl, rfl, rfl, by decide +kernel⟩

/-- **C49, the part that holds**, `pad_full_sequence`: it is `pad_chunks` with every sequence starting and ending, and `pad_chunks` refuses names with a batch axis or without a length axis. Missing: empty lists (`C49_pad_empty_false`). -/
theorem C49_pad_full_partial (zero : α) (ts : List (Ten α)) (names : List (Option String)) (ids : List String) (sos eos : List Bool) (bf : Bool) :
    (padFull zero ts names ids bf = padChunks zero ts names ids (List.replicate ts.length true) (List.replicate ts.length true) bf) ∧
    (BATCH ∈ names → padChunks zero ts names ids sos eos bf = .error .valueError) ∧
    (LENGTH ∉ names → padChunks zero ts names ids sos eos bf = .error .valueError) := by
  refine ⟨?_, ?_, ?_⟩
  · unfold padFull
    rw [List.map_const']
  · intro h; unfold padChunks; rw [if_pos h]
  · intro h
    unfold padChunks
    split
    · rfl
    · unfold nameIndex; rw [if_neg h, Except.bind_error']

/-- C49: a tensor without axes is refused with IndexError. -/
theorem C49_no_axes (zero : α) (ts : List (Ten α)) (names : List (Option String)) (hL : names.head? = some LENGTH) (hB : BATCH ∉ names) (t : Ten α) (ht : t ∈ ts) (h0 : t.shape = [])
    (ids : List String) (sos eos : List Bool) (bf : Bool) : padChunks zero ts names ids sos eos bf = .error .indexError := by
  obtain ⟨rest, rfl⟩ : ∃ rest, names = LENGTH :: rest := by
    cases names with
    | nil => cases hL
    | cons a rest => exact ⟨rest, by simpa using hL⟩
  have hsz : ts.mapM size0 = .error .indexError := by
    clear * - ht h0
    induction ts with
    | nil => cases ht
    | cons u us ih =>
      rw [List.mapM_cons]
      cases hu : u.shape with
      | nil => simp only [size0, hu]; rfl
      | cons n l =>
        have hmem : t ∈ us := by
          rcases List.mem_cons.1 ht with h | h
          · rw [← h, h0] at hu; cases hu
          · exact h
        simp only [size0, hu]
        rw [Except.bind_ok', ih hmem]
        rfl
  have hi : nameIndex (LENGTH :: rest) LENGTH = .ok 0 := by simp [nameIndex, List.findIdx?_cons]
  unfold padChunks
  rw [if_neg hB, hi, Except.bind_ok']
  simp only [ne_eq, not_true_eq_false, if_false]
  rw [Except.bind_ok', hsz]
  rfl

example : padChunks [7, 7] [exT [2] [none], exT [] []] [some "L"] ["a", "b"] [true, true] [true, true] true = .error .indexError :=
  C49_no_axes _ _ _ rfl (by decide) (exT [] []) (by simp) rfl _ _ _ _

/-- **C49, the part that holds**, `pad_stream_tensor`: StreamTensors without batch axis, each with one row of metadata, all with the same names, is `pad_chunks` of their data with their ids and flags. Chunk indices are
not passed on. Missing: sequences whose axes are in different order (`C49_pad_stream_names_false`). -/
theorem C49_pad_stream_partial (zero : α) (xs : List (STen α)) (hne : xs ≠ []) (names : List (Option String)) (hn : ∀ x ∈ xs, x.t.names = names)
    (rs : List Row) (hrs : List.Forall₂ (fun (x : STen α) r => x.md.WF ∧ x.md.rows = [r]) xs rs) (bf : Bool) :
    padStream zero xs bf = padChunks zero (xs.map (·.t.unnamed)) names (rs.map (·.id)) (rs.map (·.sos)) (rs.map (·.eos)) bf := by
  have hw : ∀ m ∈ xs.map (·.md), m.WF := by
    intro m hm
    obtain ⟨x, hx, rfl⟩ := List.mem_map.1 hm
    clear * - hx hrs
    induction hrs with
    | nil => simp at hx
    | cons h _ ih =>
      rcases List.mem_cons.1 hx with rfl | hx
      · exact h.1
      · exact ih hx
  have hflat : (xs.map (·.md)).flatMap Meta.rows = rs := by
    clear * - hrs
    induction hrs with
    | nil => rfl
    | cons h _ ih => rw [List.map_cons, List.flatMap_cons, h.2, ih]; rfl
  obtain ⟨m, e, wm, hr, -⟩ := C16_cat_batch (xs.map (·.md)) (by simpa using hne) hw
  have hcol : m.ids = rs.map (·.id) ∧ m.sos = rs.map (·.sos) ∧ m.eos = rs.map (·.eos) := by
    rw [ids_rows m wm, sos_rows m wm, eos_rows m wm, hr]
    unfold catRows
    split
    · rw [hflat]; exact ⟨rfl, rfl, rfl⟩
    · rw [hflat]
      simp [Row.noChunk, Function.comp_def]
  unfold padStream
  rw [e, Except.bind_ok', hcol.1, hcol.2.1, hcol.2.2]
  obtain ⟨x, xs, rfl⟩ := List.exists_cons_of_ne_nil hne
  simp only []
  rw [hn x (by simp)]

example : ∃ (u v : STen (List Nat)), List.Forall₂ (fun (x : STen (List Nat)) r => x.md.WF ∧ x.md.rows = [r]) [u, v] [⟨"a", true, false, 2, none⟩, ⟨"b", false, true, 1, none⟩] ∧
    ∀ x ∈ [u, v], x.t.names = [some "L"] :=
  ⟨⟨exT [2] [some "L"], ⟨["a"], [true], [false], [2], none⟩⟩, ⟨exT [1] [some "L"], ⟨["b"], [false], [true], [1], none⟩⟩, .cons (by decide) (.cons (by decide) .nil), by decide +kernel⟩

end DS.Tn
