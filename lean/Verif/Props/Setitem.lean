import Verif.Model.Setitem
import Verif.Model.Elementwise
import Verif.Lemmas.Gather
import Verif.Lemmas.Tensor
import Verif.Spec.Tensor
import Verif.Props.Recouple
/-! C187: assigning to a part of a StreamTensor. -/

namespace DS.Tn
open Meta

section
variable {α : Type}

/-- The position in a tensor of the given shape of every entry of `t[indices]`: what torch gives for the tensor of all positions. -/
def selPositions (shape : List Nat) (top : Top) : Py (Ten (List Nat)) := torchGetitem { shape, names := shape.map fun _ => none, val := id } top

/-- A shape can be expanded to another one: from the last axis on, sizes are equal or 1. -/
def Expands (s shape : List Nat) : Prop :=
  s.length ≤ shape.length ∧ ∀ (j a b : Nat), s.reverse[j]? = some a → shape.reverse[j]? = some b → a = b ∨ a = 1

/-- What a value gives at the positions `ix` of a part of the given shape: a number itself; an unnamed tensor its entries, expanded. -/
inductive Gives (shape : List Nat) : Val α → (List Nat → α) → Prop where
  | num (a : α) : Gives shape (.num a) fun _ => a
  | ten (u : Ten α) (hn : u.names.all Option.isNone) (he : Expands u.shape shape) : Gives shape (.ten (.plain u)) fun ix => u.val (operandIx u.shape ix)

/-! ### Witness -/

/-- Two rows of two frames, streams `a` and `b`. -/
def exSet : STen Int :=
  { t := { shape := [2, 2], names := [BATCH, LENGTH], val := fun ix => 10 * ix.getD 0 0 + ix.getD 1 0 }, md := ⟨["a", "b"], [true, true], [false, false], [2, 2], none⟩ }

/-- The first row of another batch of the same streams. -/
def exSetRow : STen Int :=
  { t := { shape := [2], names := [LENGTH], val := fun ix => 7 + ix.getD 0 0 }, md := ⟨["a"], [true], [false], [2], none⟩ }

/-- The positions of a tensor with two rows of two. -/
def exPos : List (List Nat) := [[0, 0], [0, 1], [1, 0], [1, 1]]

/-- **C187 is false of the code.** `x[0] = y[0]` raises AttributeError, because the metadata of a row are not those of the batch (C24); but the row has been written. -/
theorem C187_assign_false :
    (setitem exSet (.bare (.int 0)) (.ten (.stream exSetRow))).2 = .error .attributeError ∧
    exPos.map (setitem exSet (.bare (.int 0)) (.ten (.stream exSetRow))).1.val = [7, 8, 10, 11] ∧ exPos.map exSet.t.val = [0, 1, 10, 11] :=
  ⟨rfl, by decide, by decide⟩

/-! ### Proofs -/

/-- Positions of a selection within sizes, none twice. -/
inductive Good : List Sel → List Nat → Prop where
  | nil : Good [] []
  | pick {p n : Nat} {r : List Sel} {ns : List Nat} (h : p < n) (g : Good r ns) : Good (.pick p :: r) (n :: ns)
  | keep {ps : List Nat} {n : Nat} {r : List Sel} {ns : List Nat} (hd : ps.Nodup) (h : ∀ p ∈ ps, p < n) (g : Good r ns) : Good (.keep ps :: r) (n :: ns)

theorem good_full (dims : List Nat) : Good (dims.map fullSel) dims := by
  induction dims with
  | nil => exact .nil
  | cons n dims ih => exact .keep List.nodup_range (fun p hp => List.mem_range.1 hp) ih

theorem good_append {a b : List Sel} {x y : List Nat} (h1 : Good a x) (h2 : Good b y) : Good (a ++ b) (x ++ y) := by
  induction h1 with
  | nil => exact h2
  | pick h _ ih => exact .pick h ih
  | keep hd h _ ih => exact .keep hd h ih

/-- Indices that torch can assign with on named tensors: ints, slices, Ellipsis. -/
def Ix.basic (e : Ix) : Prop := e ≠ .none ∧ e.adv = false

theorem torchSel_good (n : Nat) (e : Ix) (he : e.basic) (hel : e ≠ .ellipsis) (s : Sel) (h : torchSel n e = .ok s) {r : List Sel} {ns : List Nat} (g : Good r ns) : Good (s :: r) (n :: ns) := by
  cases e with
  | none => exact absurd rfl he.1
  | ellipsis => exact absurd rfl hel
  | list is => exact absurd he.2 (by simp [Ix.adv])
  | ints is => exact absurd he.2 (by simp [Ix.adv])
  | mask bs => exact absurd he.2 (by simp [Ix.adv])
  | int i =>
    rw [torchSel] at h
    obtain ⟨p, hp, h⟩ := ok_of_bind h
    have h := Except.ok.inj h
    subst h
    refine .pick ?_ g
    unfold torchPos at hp
    by_cases hj : 0 ≤ (if i < 0 then i + n else i) ∧ (if i < 0 then i + n else i) < n
    · have hp := Except.ok.inj ((if_pos hj).symm.trans hp)
      omega
    · cases (if_neg hj).symm.trans hp
  | slice sl =>
    simp only [torchSel] at h
    split at h
    · cases h
    · rename_i hstep
      obtain ⟨⟨start, stop, step⟩, h1, h⟩ := ok_of_bind h
      have h := Except.ok.inj h
      subst h
      have hpos : 0 < sl.step.getD 1 := by omega
      have hidx := indices_pos sl n hpos
      rw [hidx] at h1
      have h1 := Except.ok.inj h1
      simp only [Prod.mk.injEq] at h1
      obtain ⟨rfl, rfl, rfl⟩ := h1
      rw [rangePositions_slice sl n hpos]
      have hm : ((slicePos n sl).map fun (j : Nat) => (j : Int)).map Int.toNat = slicePos n sl := by
        rw [List.map_map]
        conv_rhs => rw [← List.map_id (slicePos n sl)]
        rfl
      rw [hm]
      exact .keep (List.Nodup.filter _ List.nodup_range) (slicePos_lt n sl) g

theorem torchSels_good (k : Nat) (es : List Ix) (hes : ∀ e ∈ es, e.basic) (dims : List Nat) (sels : List Sel) (h : torchSels k dims es = .ok sels) : Good sels dims := by
  induction es generalizing dims sels with
  | nil =>
    rw [torchSels] at h
    have h := Except.ok.inj h
    subst h
    exact good_full dims
  | cons e es ih =>
    have he := hes e (by simp)
    have hes' : ∀ e ∈ es, e.basic := fun e h => hes e (by simp [h])
    by_cases hel : e = .ellipsis
    · subst hel
      rw [torchSels] at h
      obtain ⟨rest, hr, h⟩ := ok_of_bind h
      have h := Except.ok.inj h
      subst h
      have := good_append (good_full (dims.take k)) (ih hes' _ _ hr)
      rwa [List.take_append_drop] at this
    · cases dims with
      | nil => cases e <;> first | exact absurd rfl he.1 | exact absurd rfl hel | simp [torchSels] at h
      | cons n dims =>
        have hu : torchSels k (n :: dims) (e :: es) = (do
            let s ← torchSel n e
            let rest ← torchSels k dims es
            .ok (s :: rest)) := by
          cases e <;> first | exact absurd rfl he.1 | exact absurd rfl hel | (rw [torchSels] <;> simp)
        rw [hu] at h
        obtain ⟨s, hs, h⟩ := ok_of_bind h
        obtain ⟨rest, hr, h⟩ := ok_of_bind h
        have h := Except.ok.inj h
        subst h
        exact torchSel_good n e he hel s hs (ih hes' _ _ hr)

theorem setSels_eq (k : Nat) (es : List Ix) (hes : ∀ e ∈ es, e.basic) (dims : List Nat) : setSels k dims es = torchSels k dims es := by
  induction es generalizing dims with
  | nil => rw [setSels, torchSels]
  | cons e es ih =>
    have he := hes e (by simp)
    have hes' : ∀ e ∈ es, e.basic := fun e h => hes e (by simp [h])
    cases e with
    | none => exact absurd rfl he.1
    | ellipsis => rw [setSels, torchSels, ih hes']
    | list is => exact absurd he.2 (by simp [Ix.adv])
    | ints is => exact absurd he.2 (by simp [Ix.adv])
    | mask bs => exact absurd he.2 (by simp [Ix.adv])
    | int i =>
      cases dims with
      | nil => simp [setSels, torchSels]
      | cons n dims => rw [setSels, torchSels, ih hes'] <;> simp [Ix.adv]
    | slice s =>
      cases dims with
      | nil => simp [setSels, torchSels]
      | cons n dims => rw [setSels, torchSels, ih hes'] <;> simp [Ix.adv]

theorem good_inside {sels : List Sel} {dims : List Nat} (g : Good sels dims) (ox : List Nat) (h : Inside ox (selShape sels)) :
    Inside (selSrc sels ox) dims ∧ selDst sels (selSrc sels ox) = some ox := by
  induction g generalizing ox with
  | nil =>
    cases h
    exact ⟨.nil, rfl⟩
  | pick hp g ih =>
    obtain ⟨h1, h2⟩ := ih ox h
    exact ⟨.cons hp h1, by rw [selSrc, selDst, if_pos rfl, h2]⟩
  | @keep ps n r ns hd hp g ih =>
    rw [selShape] at h
    cases h with
    | @cons a b l l' hab hl =>
      obtain ⟨h1, h2⟩ := ih l hl
      have hg : ps.getD a 0 = ps[a] := by simp [List.getD, hab]
      refine ⟨.cons ?_ h1, ?_⟩
      · show ps.getD a 0 < n
        rw [hg]
        exact hp _ (List.getElem_mem _)
      · show selDst (.keep ps :: r) (ps.getD a 0 :: selSrc r l) = _
        rw [hg, selDst, if_pos (List.getElem_mem _), h2]
        simp [hd.idxOf_getElem]

theorem good_dst {sels : List Sel} {dims : List Nat} (g : Good sels dims) (ix ox : List Nat) (hix : Inside ix dims) (h : selDst sels ix = some ox) :
    Inside ox (selShape sels) ∧ selSrc sels ox = ix := by
  induction g generalizing ix ox with
  | nil =>
    cases hix
    simp [selDst] at h
    subst h
    exact ⟨.nil, rfl⟩
  | pick hp g ih =>
    cases hix with
    | cons hab hl =>
      rw [selDst] at h
      split at h
      · rename_i he
        obtain ⟨h1, h2⟩ := ih _ _ hl h
        exact ⟨h1, by rw [selSrc, h2, he]⟩
      · cases h
  | @keep ps n r ns hd hp g ih =>
    cases hix with
    | @cons a b l l' hab hl =>
      rw [selDst] at h
      split at h
      · rename_i he
        cases ho : selDst r l with
        | none => rw [ho] at h; cases h
        | some o =>
          rw [ho] at h
          simp only [Option.map_some, Option.some.injEq] at h
          subst h
          obtain ⟨h1, h2⟩ := ih _ _ hl ho
          have hlt : ps.idxOf a < ps.length := List.idxOf_lt_length_of_mem he
          refine ⟨.cons hlt h1, ?_⟩
          show ps.getD (ps.idxOf a) 0 :: selSrc r o = a :: l
          rw [h2]
          simp [List.getD, hlt]
      · cases h

theorem expands_iff (s shape : List Nat) : expandsR s.reverse shape.reverse = true ↔ Expands s shape := by
  have key : ∀ (a b : List Nat), expandsR a b = true ↔ a.length ≤ b.length ∧ ∀ (j x y : Nat), a[j]? = some x → b[j]? = some y → x = y ∨ x = 1 := by
    intro a
    induction a with
    | nil => intro b; simp [expandsR]
    | cons x a ih =>
      intro b
      cases b with
      | nil => simp [expandsR]
      | cons y b =>
        rw [expandsR, Bool.and_eq_true, ih b]
        constructor
        · rintro ⟨h0, h1, h2⟩
          refine ⟨by simpa using h1, ?_⟩
          intro j x' y' hx hy
          cases j with
          | zero =>
            simp at hx hy
            subst hx; subst hy
            simpa using h0
          | succ j => exact h2 j x' y' (by simpa using hx) (by simpa using hy)
        · rintro ⟨h1, h2⟩
          refine ⟨?_, by simpa using h1, fun j x' y' hx hy => h2 (j + 1) x' y' (by simpa using hx) (by simpa using hy)⟩
          simpa using h2 0 x y rfl rfl
  rw [key]
  unfold Expands
  simp

theorem expands_strip (s shape : List Nat) (h : Expands s shape) : Expands (stripOnes s) shape := by
  induction s with
  | nil => exact h
  | cons a s ih =>
    by_cases ha : a = 1
    · subst ha
      rw [stripOnes]
      refine ih ⟨by have := h.1; simp at this; omega, ?_⟩
      intro j x y hx hy
      have hj : j < s.reverse.length := by
        rcases Nat.lt_or_ge j s.reverse.length with hlt | hge
        · exact hlt
        · rw [List.getElem?_eq_none hge] at hx; cases hx
      refine h.2 j x y ?_ hy
      rw [List.reverse_cons, List.getElem?_append_left hj]
      exact hx
    · have : stripOnes (a :: s) = a :: s := by
        unfold stripOnes
        split
        · rename_i e; simp at e; exact absurd e.1 ha
        · rfl
      rw [this]
      exact h

theorem valueIx_eq (s ix : List Nat) (h : s.length ≤ ix.length) : valueIx s ix = operandIx s ix := by
  induction s with
  | nil => rfl
  | cons a s ih =>
    by_cases ha : a = 1
    · subst ha
      have hl : s.length < ix.length := by simp at h; omega
      have hs : (stripOnes s).length ≤ s.length := by
        clear ih h hl
        induction s with
        | nil => simp [stripOnes]
        | cons b s ih =>
          by_cases hb : b = 1
          · subst hb; rw [stripOnes]; simp; omega
          · have : stripOnes (b :: s) = b :: s := by
              unfold stripOnes
              split
              · rename_i e; simp at e; exact absurd e.1 hb
              · rfl
            rw [this]
      have h1 : valueIx (1 :: s) ix = 0 :: valueIx s ix := by
        unfold valueIx
        rw [stripOnes, List.length_cons, show s.length + 1 - (stripOnes s).length = (s.length - (stripOnes s).length) + 1 by omega, List.replicate_succ, List.cons_append]
      rw [h1, ih (by omega)]
      unfold operandIx bix
      have h2 : ix.drop (ix.length - (1 :: s).length) = ix[ix.length - (s.length + 1)] :: ix.drop (ix.length - s.length) := by
        rw [List.length_cons, List.drop_eq_getElem_cons (by omega), show ix.length - (s.length + 1) + 1 = ix.length - s.length by omega]
      rw [h2, List.zipWith_cons_cons]
      simp [bcoord]
    · have : stripOnes (a :: s) = a :: s := by
        unfold stripOnes
        split
        · rename_i e; simp at e; exact absurd e.1 ha
        · rfl
      unfold valueIx
      rw [this]
      simp [valueIx.operandIx', operandIx]

theorem unifyNames_none (a b : List (Option String)) (hl : a.length = b.length) (h : b.all Option.isNone) : unifyNames a b = .ok a := by
  induction a generalizing b with
  | nil => simp [unifyNames]
  | cons x a ih =>
    match b, hl, h with
    | none :: b, hl, h =>
      rw [unifyNames]
      have hx : unifyName x none = .ok x := by cases x <;> rfl
      rw [hx, Except.bind_ok', ih b (by simpa using hl) (by simpa using h), Except.bind_ok']

theorem selNames_length {sels : List Sel} {dims : List Nat} (g : Good sels dims) (names : List (Option String)) (h : names.length = dims.length) :
    (selNames sels names).length = (selShape sels).length := by
  induction g generalizing names with
  | nil => simp [selNames, selShape]
  | pick hp g ih =>
    cases names with
    | nil => simp at h
    | cons n names => rw [selNames, selShape]; exact ih names (by simpa using h)
  | keep hd hp g ih =>
    cases names with
    | nil => simp at h
    | cons n names => rw [selNames, selShape, List.length_cons, List.length_cons, ih names (by simpa using h)]

theorem operandIx_self (s ix : List Nat) (h : Inside ix s) : operandIx s ix = ix := by
  unfold operandIx bix
  have hl : ix.length = s.length := h.length_eq
  rw [hl, Nat.sub_self, List.drop_zero]
  clear hl
  induction h with
  | nil => rfl
  | @cons a b l l' hab _ ih =>
    rw [List.zipWith_cons_cons, ih]
    congr 1
    unfold bcoord
    split <;> omega

theorem specified_le (k : Nat) (es : List Ix) (hes : ∀ e ∈ es, e.basic) (dims : List Nat) (sels : List Sel) (h : torchSels k dims es = .ok sels) : specified es ≤ dims.length := by
  induction es generalizing dims sels with
  | nil => simp [specified]
  | cons e es ih =>
    have he := hes e (by simp)
    have hes' : ∀ e ∈ es, e.basic := fun e h => hes e (by simp [h])
    by_cases hel : e = .ellipsis
    · subst hel
      rw [torchSels] at h
      obtain ⟨rest, hr, h⟩ := ok_of_bind h
      have h1 := ih hes' _ _ hr
      have h2 : specified (.ellipsis :: es) = specified es := by simp [specified]
      rw [h2]
      simp at h1
      omega
    · cases dims with
      | nil => cases e <;> first | exact absurd rfl he.1 | exact absurd rfl hel | simp [torchSels] at h
      | cons n dims =>
        have hu : torchSels k (n :: dims) (e :: es) = (do
            let s ← torchSel n e
            let rest ← torchSels k dims es
            .ok (s :: rest)) := by
          cases e <;> first | exact absurd rfl he.1 | exact absurd rfl hel | (rw [torchSels] <;> simp)
        rw [hu] at h
        obtain ⟨s, hs, h⟩ := ok_of_bind h
        obtain ⟨rest, hr, h⟩ := ok_of_bind h
        have h1 := ih hes' _ _ hr
        have h2 : specified (e :: es) = specified es + 1 := by simp [specified, he.1, hel]
        rw [h2, List.length_cons]
        omega

/-- The part, when torch can select it. -/
theorem positions_sels (shape : List Nat) (top : Top) (hb : ∀ e ∈ top.entries, e.basic) (p : Ten (List Nat)) (h : selPositions shape top = .ok p) :
    ∃ sels, torchSels (shape.length - specified top.entries) shape top.entries = .ok sels ∧ p.shape = selShape sels ∧ (∀ ix, p.val ix = selSrc sels ix) ∧ Good sels shape := by
  unfold selPositions torchGetitem at h
  obtain ⟨sels, hs, h⟩ := ok_of_bind h
  have h := Except.ok.inj h
  subst h
  exact ⟨sels, hs, rfl, fun _ => rfl, torchSels_good _ _ hb _ _ hs⟩

theorem basic_adv (es : List Ix) (hb : ∀ e ∈ es, e.basic) : es.any Ix.adv = false := by
  rw [List.any_eq_false]
  intro e he
  simp [(hb e he).2]

/-- An assignment that torch does. -/
theorem assignTen_ok (t : Ten α) (top : Top) (hb : ∀ e ∈ top.entries, e.basic) (sels : List Sel)
    (hs : torchSels (t.shape.length - specified top.entries) t.shape top.entries = .ok sels) (v : Val α) (w : List Nat → α)
    (hw : written (selShape sels) (selNames sels t.names) v = .ok w) :
    assignTen t top v = .ok { t with val := overwrite sels w t.val } := by
  unfold assignTen
  have := specified_le _ _ hb _ _ hs
  rw [if_neg (by omega), setSels_eq _ _ hb, hs, Except.bind_ok', if_neg (by simp [basic_adv _ hb]), hw, Except.bind_ok']

theorem assigned_vals (t : Ten α) (sels : List Sel) (g : Good sels t.shape) (w : List Nat → α) (p : Ten (List Nat)) (hp : p.shape = selShape sels) (hv : ∀ ix, p.val ix = selSrc sels ix) :
    (∀ ox, Inside ox p.shape → Inside (p.val ox) t.shape ∧ overwrite sels w t.val (p.val ox) = w ox) ∧
    (∀ ix, Inside ix t.shape → (∀ ox, Inside ox p.shape → p.val ox ≠ ix) → overwrite sels w t.val ix = t.val ix) := by
  constructor
  · intro ox ho
    rw [hp] at ho
    obtain ⟨h1, h2⟩ := good_inside g ox ho
    rw [hv]
    exact ⟨h1, by simp only [overwrite, h2]⟩
  · intro ix hix hno
    cases hd : selDst sels ix with
    | none => simp only [overwrite, hd]
    | some ox =>
      obtain ⟨h1, h2⟩ := good_dst g ix ox hix hd
      exact absurd ((hv ox).trans h2) (hno ox (hp ▸ h1))

theorem written_ten (shape : List Nat) (names : List (Option String)) (o : Opd α) (u : Ten α) (h : o.ten = u) : written shape names (.ten o) =
    (if u.shape = shape then do
      let n ← unifyNames names u.names
      if n = names ∨ names.all Option.isNone then .ok u.val else .error .runtimeError
    else if u.shape = [] then .ok fun _ => u.val []
    else if u.names.any Option.isSome then .error .runtimeError
    else if expandsR (stripOnes u.shape).reverse shape.reverse then .ok fun ix => u.val (valueIx u.shape ix)
    else .error .runtimeError) := by
  subst h
  rfl

theorem written_gives {sels : List Sel} {dims : List Nat} (g : Good sels dims) (names : List (Option String)) (hl : names.length = dims.length) (v : Val α) (w : List Nat → α)
    (h : Gives (selShape sels) v w) (hu : ∀ u, v = .ten (.plain u) → u.names.length = u.shape.length) :
    ∃ w', written (selShape sels) (selNames sels names) v = .ok w' ∧ ∀ ox, Inside ox (selShape sels) → w' ox = w ox := by
  cases h with
  | num a => exact ⟨_, rfl, fun _ _ => rfl⟩
  | ten u hn he =>
    have hul := hu u rfl
    rw [written_ten _ _ _ u rfl]
    by_cases h1 : u.shape = selShape sels
    · rw [if_pos h1, unifyNames_none _ _ (by rw [selNames_length g names hl, hul, h1]) hn, Except.bind_ok', if_pos (Or.inl rfl)]
      refine ⟨_, rfl, fun ox ho => ?_⟩
      show u.val ox = u.val (operandIx u.shape ox)
      rw [operandIx_self u.shape ox (h1 ▸ ho)]
    · rw [if_neg h1]
      by_cases h2 : u.shape = []
      · rw [if_pos h2]
        refine ⟨_, rfl, fun ox _ => ?_⟩
        rw [h2]
        simp [operandIx, bix]
      · rw [if_neg h2, if_neg (by simpa using hn), if_pos ((expands_iff _ _).2 (expands_strip _ _ he))]
        refine ⟨_, rfl, fun ox ho => ?_⟩
        show u.val (valueIx u.shape ox) = _
        rw [valueIx_eq _ _ (by rw [ho.length_eq]; exact he.1)]

/-- **C187, numbers and unnamed tensors.** With ints, slices and Ellipsis as index, a number or an unnamed tensor that can be expanded to the selected part is written to exactly the entries that the same index selects; all others stay, and so do shape and names. The
metadata are not touched: `setitem` gives the data only. Missing: values with names (exact in `C187_named_partial` and `C187_expand_partial`); `None`, index lists and index tensors, which are refused (`C187_new_axis_partial`, `C187_lists_partial`). -/
theorem C187_assign_partial (x : STen α) (hx : x.t.names.length = x.t.shape.length) (top : Top) (hb : ∀ e ∈ top.entries, e.basic) (p : Ten (List Nat)) (hp : selPositions x.t.shape top = .ok p)
    (v : Val α) (w : List Nat → α) (hv : Gives p.shape v w) (hu : ∀ u, v = .ten (.plain u) → u.names.length = u.shape.length) :
    (setitem x top v).2 = .ok () ∧ (setitem x top v).1.shape = x.t.shape ∧ (setitem x top v).1.names = x.t.names ∧
    (∀ ox, Inside ox p.shape → Inside (p.val ox) x.t.shape ∧ (setitem x top v).1.val (p.val ox) = w ox) ∧
    (∀ ix, Inside ix x.t.shape → (∀ ox, Inside ox p.shape → p.val ox ≠ ix) → (setitem x top v).1.val ix = x.t.val ix) := by
  obtain ⟨sels, hs, h1, h2, g⟩ := positions_sels _ _ hb _ hp
  obtain ⟨w', hw, hww⟩ := written_gives g x.t.names hx v w (h1 ▸ hv) hu
  have ha := assignTen_ok x.t top hb sels hs v w' hw
  have hstr : v.streams = [] := by cases hv <;> rfl
  obtain ⟨h3, h4⟩ := assigned_vals x.t sels g w' p h1 h2
  unfold setitem
  rw [ha]
  refine ⟨by simp only [hstr]; rfl, rfl, rfl, fun ox ho => ⟨(h3 ox ho).1, ((h3 ox ho).2).trans (hww ox (h1 ▸ ho))⟩, h4⟩

/-- The second frame of every row is set from a tensor of shape `[1]`. -/
example : ∃ p, selPositions [2, 2] (.tup [.ellipsis, .int 1]) = .ok p ∧ Gives p.shape (.ten (.plain { shape := [1], names := [none], val := fun _ => (5 : Int) })) (fun _ => 5) :=
  ⟨_, rfl, .ten _ rfl ⟨by decide, by
    intro j a b ha hb
    cases j with
    | zero => simp at ha; exact Or.inr ha.symm
    | succ j => simp at ha⟩⟩
example : exPos.map (setitem exSet (.tup [.ellipsis, .int 1]) (.ten (.plain { shape := [1], names := [none], val := fun _ => 5 }))).1.val = [0, 5, 10, 5] := by decide

theorem noInt_names {sels : List Sel} {dims : List Nat} (g : Good sels dims) (hk : ∀ s ∈ sels, ∃ ps, s = .keep ps) (names : List (Option String)) (h : names.length = dims.length) :
    selNames sels names = names := by
  induction g generalizing names with
  | nil =>
    cases names with
    | nil => rfl
    | cons n names => simp at h
  | pick hp g ih =>
    obtain ⟨ps, hps⟩ := hk _ List.mem_cons_self
    cases hps
  | keep hd hp g ih =>
    cases names with
    | nil => simp at h
    | cons n names => rw [selNames, ih (fun s hs => hk s (by simp [hs])) names (by simpa using h)]

theorem torchSels_keep (k : Nat) (es : List Ix) (hes : ∀ e ∈ es, e = .ellipsis ∨ ∃ s, e = .slice s) (dims : List Nat) (sels : List Sel) (h : torchSels k dims es = .ok sels) :
    ∀ s ∈ sels, ∃ ps, s = .keep ps := by
  induction es generalizing dims sels with
  | nil =>
    rw [torchSels] at h
    have h := Except.ok.inj h
    subst h
    intro s hs
    obtain ⟨n, _, rfl⟩ := List.mem_map.1 hs
    exact ⟨_, rfl⟩
  | cons e es ih =>
    have hes' : ∀ e ∈ es, e = .ellipsis ∨ ∃ s, e = .slice s := fun e h => hes e (by simp [h])
    rcases hes e (by simp) with rfl | ⟨sl, rfl⟩
    · rw [torchSels] at h
      obtain ⟨rest, hr, h⟩ := ok_of_bind h
      have h := Except.ok.inj h
      subst h
      intro s hs
      rcases List.mem_append.1 hs with hs | hs
      · obtain ⟨n, _, rfl⟩ := List.mem_map.1 hs
        exact ⟨_, rfl⟩
      · exact ih hes' _ _ hr s hs
    · cases dims with
      | nil => simp [torchSels] at h
      | cons n dims =>
        rw [torchSels] at h
        · obtain ⟨s0, hs0, h⟩ := ok_of_bind h
          obtain ⟨rest, hr, h⟩ := ok_of_bind h
          have h := Except.ok.inj h
          subst h
          intro s hs
          rcases List.mem_cons.1 hs with rfl | hs
          · rw [torchSel] at hs0
            split at hs0
            · cases hs0
            · obtain ⟨q, _, hs0⟩ := ok_of_bind hs0
              exact ⟨_, (Except.ok.inj hs0).symm⟩
          · exact ih hes' _ _ hr s hs
        · simp
        · simp

/-- **C187, StreamTensors.** With slices and Ellipsis as index, a StreamTensor with the shape of the part, the names of `x` and the same metadata (without chunk indices) is written to exactly the selected entries.
Missing: ints in the index (`C187_named_partial`) — then the metadata of the value, which has no batch axis of this size, must still be those of `x` —, chunk indices (`C24`), and values that are expanded. -/
theorem C187_stream_partial (x y : STen α) (hx : x.t.names.length = x.t.shape.length) (top : Top) (hb : ∀ e ∈ top.entries, e = .ellipsis ∨ ∃ s, e = .slice s) (p : Ten (List Nat)) (hp : selPositions x.t.shape top = .ok p)
    (hs : y.t.shape = p.shape) (hn : y.t.names = x.t.names) (hm : y.md = x.md) (hc : x.md.chunk = none) :
    (setitem x top (.ten (.stream y))).2 = .ok () ∧ (setitem x top (.ten (.stream y))).1.shape = x.t.shape ∧ (setitem x top (.ten (.stream y))).1.names = x.t.names ∧
    (∀ ox, Inside ox p.shape → Inside (p.val ox) x.t.shape ∧ (setitem x top (.ten (.stream y))).1.val (p.val ox) = y.t.val ox) ∧
    (∀ ix, Inside ix x.t.shape → (∀ ox, Inside ox p.shape → p.val ox ≠ ix) → (setitem x top (.ten (.stream y))).1.val ix = x.t.val ix) := by
  have hb' : ∀ e ∈ top.entries, e.basic := by
    intro e he
    rcases hb e he with rfl | ⟨s, rfl⟩ <;> exact ⟨by simp, rfl⟩
  obtain ⟨sels, hsel, h1, h2, g⟩ := positions_sels _ _ hb' _ hp
  have hnn : selNames sels x.t.names = x.t.names := noInt_names g (torchSels_keep _ _ hb _ _ hsel) _ hx
  have hself : ∀ (l : List (Option String)), unifyNames l l = .ok l := by
    intro l
    induction l with
    | nil => rfl
    | cons a l ih =>
      have ha : unifyName a a = .ok a := by cases a <;> simp [unifyName]
      rw [unifyNames, ha, Except.bind_ok', ih, Except.bind_ok']
  have hw : written (selShape sels) (selNames sels x.t.names) (.ten (.stream y)) = .ok y.t.val := by
    rw [written_ten _ _ _ y.t rfl, if_pos (hs.trans h1), hnn, hn, hself, Except.bind_ok', if_pos (Or.inl rfl)]
  have ha := assignTen_ok x.t top hb' sels hsel _ _ hw
  obtain ⟨h3, h4⟩ := assigned_vals x.t sels g y.t.val p h1 h2
  unfold setitem
  rw [ha]
  refine ⟨?_, rfl, rfl, h3, h4⟩
  simp [Val.streams, allEq, eqMeta, hm, hc, Except.bind_ok']

/-- Reversed frames are written back over the whole batch. -/
def exSetNew : STen Int := { exSet with t := { exSet.t with val := fun ix => -(exSet.t.val ix) } }
example : ∃ p, selPositions exSet.t.shape (.bare (.slice ⟨none, none, none⟩)) = .ok p ∧ exSetNew.t.shape = p.shape := ⟨_, rfl, rfl⟩
example : exPos.map (setitem exSet (.bare (.slice ⟨none, none, none⟩)) (.ten (.stream exSetNew))).1.val = [0, -1, -10, -11] := by decide

/-- **C187, refusals.** When the assignment raises an error, the data are as before, unless the value is a StreamTensor whose metadata are not equal to those of `x` (`C187_assign_false`). Missing: such values, for which the entries have been written. -/
theorem C187_refused_partial (x : STen α) (top : Top) (v : Val α) (e : PyErr) (h : (setitem x top v).2 = .error e) :
    (setitem x top v).1 = x.t ∨ ∃ y, v = .ten (.stream y) ∧ allEq x.md [y.md] ≠ .ok true := by
  unfold setitem at h ⊢
  cases ha : assignTen x.t top v with
  | error e' => exact Or.inl rfl
  | ok t =>
    rw [ha] at h
    right
    match v, ha, h with
    | .num a, _, h => cases h
    | .ten (.plain u), _, h => cases h
    | .ten (.stream y), _, h =>
      refine ⟨y, rfl, fun hc => ?_⟩
      have hs : (Val.ten (Opd.stream y)).streams.map (·.md) = [y.md] := rfl
      simp only [hs, hc, Except.bind_ok', if_true] at h
      cases h

example : (setitem exSet (.bare (.int 2)) (.num 1)).2 = .error .indexError := rfl

/-- **C187, metadata.** When torch accepts the assignment of a StreamTensor, the outcome depends on the metadata only: the assignment succeeds if those of the value look like those of `x`; otherwise it raises AttributeError if the value has no chunk indices, and RuntimeError
if it has, and the entries have been written (`C187_assign_false`). Missing: as in `C187_refused_partial`. -/
theorem C187_metadata_partial (x y : STen α) (top : Top) (t : Ten α) (h : assignTen x.t top (.ten (.stream y)) = .ok t) :
    setitem x top (.ten (.stream y)) = (t, if Looks y.md x.md then .ok () else if y.md.chunk = none then .error .attributeError else .error .runtimeError) := by
  unfold setitem
  rw [h]
  have hs : (Val.ten (Opd.stream y)).streams.map (·.md) = [y.md] := rfl
  simp only [hs, allEq, eqMeta_table]
  by_cases hl : Looks y.md x.md
  · simp only [if_pos hl, Except.bind_ok', if_true]
  · simp only [if_neg hl]
    by_cases hc : y.md.chunk = none
    · simp only [if_pos hc]
      rfl
    · simp only [if_neg hc, Except.bind_ok', Bool.false_eq_true, if_false]

example : ∃ t, assignTen exSet.t (.bare (.int 0)) (.ten (.stream exSetRow)) = .ok t := ⟨_, rfl⟩

/-- **C187, lists and index tensors.** An index that contains a list or an index tensor is always refused, and the data are as before. Missing: the assignment itself, which torch does on tensors without names. -/
theorem C187_lists_partial (x : STen α) (top : Top) (hb : top.entries.any Ix.adv = true) (v : Val α) :
    (∃ e, (setitem x top v).2 = .error e) ∧ (setitem x top v).1 = x.t := by
  have : ∃ e, assignTen x.t top v = .error e := by
    unfold assignTen
    split
    · exact ⟨_, rfl⟩
    · cases setSels (x.t.shape.length - specified top.entries) x.t.shape top.entries with
      | error e => exact ⟨e, rfl⟩
      | ok sels => simp only [Except.bind_ok', if_pos hb]; exact ⟨_, rfl⟩
  obtain ⟨e, he⟩ := this
  unfold setitem
  rw [he]
  exact ⟨⟨e, rfl⟩, rfl⟩

example : (setitem exSet (.bare (.list [0, 1])) (.num 1)).2 = .error .runtimeError := rfl

end
end DS.Tn
