import Verif.Lemmas.Gather
import Verif.Spec.Length
/-! Helper lemmas for length indexing. -/

namespace DS

theorem foldl_max_spec (xs : List Int) (a : Int) :
    a ≤ xs.foldl max a ∧ (∀ x ∈ xs, x ≤ xs.foldl max a) ∧ (xs.foldl max a = a ∨ xs.foldl max a ∈ xs) := by
  induction xs generalizing a with
  | nil => simp
  | cons x xs ih =>
    obtain ⟨h1, h2, h3⟩ := ih (max a x)
    simp only [List.foldl_cons, List.mem_cons]
    refine ⟨by omega, ?_, ?_⟩
    · rintro y (rfl | hy)
      · omega
      · exact h2 y hy
    · rcases h3 with h3 | h3
      · rw [h3]; rcases Int.le_total a x with h | h
        · right; left; omega
        · left; omega
      · right; right; exact h3

theorem torchMax_iff (xs : List Int) (n : Int) : torchMax xs = .ok n ↔ n ∈ xs ∧ ∀ x ∈ xs, x ≤ n := by
  cases xs with
  | nil => simp [torchMax]
  | cons a xs =>
    simp only [torchMax, Except.ok.injEq]
    obtain ⟨h1, h2, h3⟩ := foldl_max_spec xs a
    constructor
    · rintro rfl
      refine ⟨?_, ?_⟩
      · rcases h3 with h | h
        · rw [h]; simp
        · simp [h]
      · intro x hx
        simp at hx
        rcases hx with rfl | hx
        · exact h1
        · exact h2 x hx
    · rintro ⟨hm, hall⟩
      have ha := hall a (by simp)
      apply Int.le_antisymm
      · rcases h3 with h | h
        · omega
        · exact hall _ (by simp [h])
      · simp at hm
        rcases hm with rfl | hm
        · exact h1
        · exact h2 _ hm

theorem foldl_min_spec (xs : List Int) (a : Int) :
    xs.foldl min a ≤ a ∧ (∀ x ∈ xs, xs.foldl min a ≤ x) ∧ (xs.foldl min a = a ∨ xs.foldl min a ∈ xs) := by
  induction xs generalizing a with
  | nil => simp
  | cons x xs ih =>
    obtain ⟨h1, h2, h3⟩ := ih (min a x)
    simp only [List.foldl_cons, List.mem_cons]
    refine ⟨by omega, ?_, ?_⟩
    · rintro y (rfl | hy)
      · omega
      · exact h2 y hy
    · rcases h3 with h3 | h3
      · rw [h3]; rcases Int.le_total a x with h | h
        · left; omega
        · right; left; omega
      · right; right; exact h3

theorem torchMin_iff (xs : List Int) (n : Int) : torchMin xs = .ok n ↔ n ∈ xs ∧ ∀ x ∈ xs, n ≤ x := by
  cases xs with
  | nil => simp [torchMin]
  | cons a xs =>
    simp only [torchMin, Except.ok.injEq]
    obtain ⟨h1, h2, h3⟩ := foldl_min_spec xs a
    constructor
    · rintro rfl
      refine ⟨?_, ?_⟩
      · rcases h3 with h | h
        · rw [h]; simp
        · simp [h]
      · intro x hx
        simp at hx
        rcases hx with rfl | hx
        · exact h1
        · exact h2 x hx
    · rintro ⟨hm, hall⟩
      have ha := hall a (by simp)
      apply Int.le_antisymm
      · simp at hm
        rcases hm with rfl | hm
        · exact h1
        · exact h2 _ hm
      · rcases h3 with h | h
        · omega
        · exact hall _ (by simp [h])

theorem Meta.Longest.max {m : Meta} {n : Nat} (h : m.Longest n) : m.maxLength = .ok (n : Int) := by
  unfold Meta.maxLength
  rw [torchMax_iff]
  exact ⟨h.1, fun x hx => (h.2 x hx).2⟩

theorem Meta.keepSos_eq (c : Bool) (xs : List Bool) : Meta.keepSos c xs = xs.map (fun b => b && c) := by
  unfold Meta.keepSos
  cases c <;> simp

theorem Meta.row_len_mem {m : Meta} {k : Nat} {r : Row} (h : m.row k = some r) : r.len ∈ m.lengths := by
  unfold row at h
  split at h
  · rename_i i s e l h1 h2 h3 h4
    have hl : l ∈ m.lengths := List.mem_of_getElem? h4
    split at h
    · simp at h; subst h; exact hl
    · simp at h; obtain ⟨x, _, rfl⟩ := h; exact hl
  · simp at h

/-- Rebuilding a metadata object from maps of its columns maps its rows. -/
theorem Meta.init_map (m : Meta) (hm : m.WF) (S : Bool → Bool) (E : Bool → Int → Bool) (L : Int → Int) :
    ∃ m', Meta.init m.ids (m.sos.map S) (List.zipWith E m.eos m.lengths) (m.lengths.map L) m.chunk = .ok m' ∧
      m'.ids = m.ids ∧ m'.lengths = m.lengths.map L ∧
      m.MapsRows (fun r => { r with sos := S r.sos, eos := E r.eos r.len, len := L r.len }) m' := by
  obtain ⟨h1, h2, h3, h4⟩ := hm
  refine ⟨⟨m.ids, m.sos.map S, List.zipWith E m.eos m.lengths, m.lengths.map L, m.chunk⟩, ?_, rfl, rfl, ?_⟩
  · exact init_ok (by simp [h1]) (by simp [h2, h3]) (by simp [h3])
  · refine ⟨⟨by simp [h1], by simp [h2, h3], by simp [h3], h4⟩, rfl, rfl, ?_⟩
    intro k r hr
    unfold row at hr ⊢
    cases e0 : m.ids[k]? with
    | none => simp [e0] at hr
    | some i =>
      cases e1 : m.sos[k]? with
      | none => simp [e0, e1] at hr
      | some s =>
        cases e2 : m.eos[k]? with
        | none => simp [e0, e1, e2] at hr
        | some e =>
          cases e3 : m.lengths[k]? with
          | none => simp [e0, e1, e2, e3] at hr
          | some l =>
            cases hc : m.chunk with
            | none =>
              simp [e0, e1, e2, e3, hc] at hr
              subst hr
              simp [e0, e1, e2, e3, List.getElem?_zipWith]
            | some c =>
              simp [e0, e1, e2, e3, hc] at hr
              obtain ⟨x, hx, rfl⟩ := hr
              simp [e0, e1, e2, e3, List.getElem?_zipWith, hx]

theorem Meta.MapsRows.congr {m m' : Meta} {f g : Row → Row} (h : m.MapsRows f m')
    (hfg : ∀ k r, m.row k = some r → f r = g r) : m.MapsRows g m' :=
  ⟨h.1, h.2.1, h.2.2.1, fun k r hr => by rw [← hfg k r hr]; exact h.2.2.2 k r hr⟩

/-! ### counting kept positions of a slice -/

theorem rangePositions_filter_lt (a b c l : Int) (hc : 0 < c) :
    (rangePositions a b c).filter (fun x => decide (x < l)) = rangePositions a (min b l) c := by
  refine List.Pairwise.eq_of_mem_iff (r := (· < ·)) ?_ (rangePositions_sorted _ _ _ hc) ?_
  · exact (rangePositions_sorted _ _ _ hc).filter _
  · intro x
    rw [List.mem_filter, rangePositions_mem _ _ _ _ hc, rangePositions_mem _ _ _ _ hc]
    simp only [decide_eq_true_eq]
    omega

theorem rangePositions_length (a b c : Int) (hc : 0 < c) :
    (rangePositions a b c).length = ((b - a + c - 1) / c).toNat := by
  simp [rangePositions, if_pos hc]

theorem keptData_slice (n : Nat) (s : Slice) (l : Int) (hs : 0 < s.step.getD 1) :
    keptData (slicePos n s) l =
      max 0 ((min (sliceHi n s) l - sliceLo n s + s.step.getD 1 - 1) / s.step.getD 1) := by
  have h := rangePositions_slice s n hs
  have h2 : keptData (slicePos n s) l =
      (((slicePos n s).map (fun (j : Nat) => (j : Int))).filter (fun x => decide (x < l))).length := by
    rw [List.filter_map]
    simp [keptData, Function.comp_def]
  rw [h2, ← h, rangePositions_filter_lt _ _ _ _ hs, rangePositions_length _ _ _ hs]
  omega

theorem mem_slicePos (n : Nat) (s : Slice) (j : Nat) (hs : s.step.getD 1 = 1) :
    j ∈ slicePos n s ↔ sliceLo n s ≤ j ∧ (j : Int) < sliceHi n s := by
  have hh := sliceHi_range n s
  simp only [slicePos, hs, List.mem_filter, List.mem_range, Bool.and_eq_true, decide_eq_true_eq]
  omega

theorem mem_slicePos' (n : Nat) (s : Slice) (j : Nat) :
    j ∈ slicePos n s ↔ sliceLo n s ≤ j ∧ (j : Int) < sliceHi n s ∧ ((j : Int) - sliceLo n s) % (s.step.getD 1) = 0 := by
  have hh := sliceHi_range n s
  simp only [slicePos, List.mem_filter, List.mem_range, Bool.and_eq_true, decide_eq_true_eq]
  omega

theorem any_decide_iff {α : Type} (xs : List α) (p : α → Prop) [DecidablePred p] :
    (xs.any fun x => decide (p x)) = decide (∃ x ∈ xs, p x) := by
  rw [Bool.eq_iff_iff]; simp

/-! ### coordinate lists -/

theorem sorted_iff (xs : List Int) : Numba.isSortedAscending xs = true ↔ xs.Pairwise (· ≤ ·) := by
  induction xs with
  | nil => simp [Numba.isSortedAscending]
  | cons x xs ih =>
    cases xs with
    | nil => simp [Numba.isSortedAscending]
    | cons y r =>
      simp only [Numba.isSortedAscending]
      split
      · rename_i h
        simp only [Bool.false_eq_true, false_iff]
        intro hp
        rw [List.pairwise_cons] at hp
        have := hp.1 y (by simp)
        omega
      · rename_i h
        rw [ih, List.pairwise_cons (a := x)]
        constructor
        · intro hp
          refine ⟨?_, hp⟩
          intro z hz
          simp at hz
          rw [List.pairwise_cons] at hp
          rcases hz with rfl | hz
          · omega
          · have := hp.1 z hz; omega
        · exact fun h => h.2

theorem minmax_sorted (junk x : Int) (xs : List Int) (h : (x :: xs).Pairwise (· ≤ ·)) :
    Numba.minmax junk (x :: xs) = (x, (x :: xs).getLast (by simp)) := by
  have key : ∀ (xs : List Int) (a b : Int), a ≤ b → (b :: xs).Pairwise (· ≤ ·) →
      xs.foldl Numba.minmaxStep (a, b) = (a, (b :: xs).getLast (by simp)) := by
    intro xs
    induction xs with
    | nil => intros; simp
    | cons y r ih =>
      intro a b hab hp
      rw [List.pairwise_cons] at hp
      have hy := hp.1 y (by simp)
      simp only [List.foldl_cons]
      have : Numba.minmaxStep (a, b) y = (a, y) := by
        unfold Numba.minmaxStep
        split
        · rfl
        · split
          · omega
          · simp at *; omega
      rw [this, ih a y (by omega) hp.2]
      simp [List.getLast_cons]
  exact key xs x x (by omega) h

theorem minmax_sorted' (junk : Int) (xs : List Int) (hne : xs ≠ []) (h : xs.Pairwise (· ≤ ·)) :
    Numba.minmax junk xs = (xs.head hne, xs.getLast hne) := by
  cases xs with
  | nil => exact absurd rfl hne
  | cons a r => rw [minmax_sorted junk a r h]; rfl

theorem head_le_of_pairwise (xs : List Int) (hne : xs ≠ []) (h : xs.Pairwise (· ≤ ·)) :
    ∀ y ∈ xs, xs.head hne ≤ y := by
  intro y hy
  cases xs with
  | nil => exact absurd rfl hne
  | cons a r =>
    rw [List.pairwise_cons] at h
    simp at hy ⊢
    rcases hy with rfl | hy
    · omega
    · exact h.1 _ hy

theorem le_getLast_of_pairwise (xs : List Int) (hne : xs ≠ []) (h : xs.Pairwise (· ≤ ·)) :
    ∀ y ∈ xs, y ≤ xs.getLast hne := by
  induction xs with
  | nil => exact absurd rfl hne
  | cons x r ih =>
    intro y hy
    rw [List.pairwise_cons] at h
    cases r with
    | nil => simp at hy; simp [hy]
    | cons z r =>
      rw [List.getLast_cons (by simp)]
      simp only [List.mem_cons] at hy
      rcases hy with rfl | hy
      · exact h.1 _ (List.getLast_mem _)
      · exact ih (by simp) h.2 y (by simpa using hy)

theorem positions_makePositive (n : Nat) (is : List Int) (ps : List Nat) (h : positions n is = some ps) :
    Numba.makeIndicesPositive is n = ps.map (fun (j : Nat) => (j : Int)) := by
  induction is generalizing ps with
  | nil => simp [positions] at h; subst h; rfl
  | cons i r ih =>
    simp only [positions] at h
    split at h
    · rename_i k ks hk hks
      simp at h; subst h
      have := ih ks hks
      simp only [Numba.makeIndicesPositive, List.map_cons, List.cons.injEq] at this ⊢
      refine ⟨?_, this⟩
      unfold posOf at hk
      split at hk
      · simp at hk; subst hk; rw [if_neg (by omega)]; omega
      · split at hk
        · simp at hk; subst hk; rw [if_pos (by omega)]; omega
        · simp at hk
    · simp at h

theorem updateLengths_eq (ls : List Int) (ps : List Nat) :
    Numba.updateLengthsFromList ls (ps.map (fun (j : Nat) => (j : Int))) = ls.map (keptData ps) := by
  unfold Numba.updateLengthsFromList keptData
  apply List.map_congr_left
  intro l _
  rw [List.filter_map]
  simp [Function.comp_def]

theorem nonzeroFrom_eq (bs : List Bool) (k : Nat) :
    Meta.nonzeroFrom k bs = (truePos bs).map (fun (j : Nat) => ((j + k : Nat) : Int)) := by
  induction bs generalizing k with
  | nil => rfl
  | cons b bs ih =>
    rw [truePos_cons]
    have := ih (k + 1)
    simp only [Meta.nonzeroFrom]
    push_cast at this ⊢
    rw [this]
    have e : (List.map (fun (j : Nat) => (j : Int) + ((k : Int) + 1)) (truePos bs)) =
        List.map (fun (j : Nat) => (j : Int) + (k : Int)) ((truePos bs).map (· + 1)) := by
      rw [List.map_map]
      apply List.map_congr_left
      intro j _
      simp; omega
    cases b
    · simp [e]
    · simp [e]

theorem truePos_sorted (bs : List Bool) : (truePos bs).Pairwise (· < ·) :=
  List.pairwise_lt_range.filter _

end DS
