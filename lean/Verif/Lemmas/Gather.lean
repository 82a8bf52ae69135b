import Verif.Spec.Rows
import Mathlib.Data.List.Sort
/-! Helper lemmas: columns picked at a list of positions. -/

namespace DS

/-- Entries of `xs` at positions `sel`. -/
def gath {α : Type} (xs : List α) (sel : List Nat) : List α := sel.filterMap (xs[·]?)

theorem gath_length {α : Type} (xs : List α) (sel : List Nat) (h : ∀ j ∈ sel, j < xs.length) :
    (gath xs sel).length = sel.length := by
  induction sel with
  | nil => rfl
  | cons j r ih =>
    have hj := h j (by simp)
    have := ih (fun j hj => h j (by simp [hj]))
    simp only [gath, List.filterMap_cons] at *
    rw [List.getElem?_eq_getElem hj]
    simp [this]

theorem gath_get {α : Type} (xs : List α) (sel : List Nat) (h : ∀ j ∈ sel, j < xs.length) (k : Nat) :
    (gath xs sel)[k]? = (sel[k]?).bind (xs[·]?) := by
  induction sel generalizing k with
  | nil => simp [gath]
  | cons j r ih =>
    have hj := h j (by simp)
    have ih := ih (fun j hj => h j (by simp [hj]))
    simp only [gath, List.filterMap_cons] at *
    rw [List.getElem?_eq_getElem hj]
    cases k with
    | zero => simp [List.getElem?_eq_getElem hj]
    | succ k => simpa using ih k

theorem gath_range {α : Type} (xs : List α) : gath xs (List.range xs.length) = xs := by
  apply List.ext_getElem?
  intro k
  rw [gath_get _ _ (by simp)]
  by_cases hk : k < xs.length
  · simp [hk]
  · simp [hk]

theorem Except.bind_ok' {α β : Type} (a : α) (f : α → Py β) : (Except.ok a >>= f) = f a := rfl
theorem Except.bind_error' {α β : Type} (e : PyErr) (f : α → Py β) : ((Except.error e : Py α) >>= f) = .error e := rfl

@[simp] theorem orIndexError_some {α : Type} (a : α) : orIndexError (some a) = .ok a := rfl
@[simp] theorem orIndexError_none {α : Type} : orIndexError (none : Option α) = .error .indexError := rfl
theorem map_ok' {α β : Type} (f : α → β) (a : α) : Except.map f (.ok a : Py α) = .ok (f a) := rfl
theorem map_error' {α β : Type} (f : α → β) (e : PyErr) : Except.map f (.error e : Py α) = .error e := rfl

theorem Meta.init_ok {ids : List String} {sos eos : List Bool} {lengths : List Int} {chunk : Option (List Int)}
    (h1 : sos.length = ids.length) (h2 : eos.length = ids.length) (h3 : lengths.length = ids.length) :
    Meta.init ids sos eos lengths chunk = .ok ⟨ids, sos, eos, lengths, chunk⟩ := by
  simp [Meta.init, h1, h2, h3]

/-- Rows picked column by column. -/
def Meta.pick (m : Meta) (sel : List Nat) : Meta :=
  ⟨gath m.ids sel, gath m.sos sel, gath m.eos sel, gath m.lengths sel, m.chunk.map (gath · sel)⟩

theorem Meta.pick_selects (m : Meta) (hm : m.WF) (sel : List Nat) (h : ∀ j ∈ sel, j < m.ids.length) :
    m.Selects sel (m.pick sel) := by
  obtain ⟨h1, h2, h3, h4⟩ := hm
  have e0 := gath_length m.ids sel h
  have e1 := gath_length m.sos sel (by simpa [h1] using h)
  have e2 := gath_length m.eos sel (by simpa [h2] using h)
  have e3 := gath_length m.lengths sel (by simpa [h3] using h)
  refine ⟨⟨?_, ?_, ?_, ?_⟩, ?_, ?_, ?_⟩
  · simp [pick, e0, e1]
  · simp [pick, e0, e2]
  · simp [pick, e0, e3]
  · intro c hc
    simp only [pick, Option.map_eq_some_iff] at hc
    obtain ⟨c0, hc0, rfl⟩ := hc
    have := h4 c0 hc0
    simp [pick, e0, gath_length c0 sel (by simpa [this] using h)]
  · simp [pick, e0]
  · simp [pick]
  · intro k
    simp only [row, pick]
    rw [gath_get _ _ h, gath_get _ _ (by simpa [h1] using h), gath_get _ _ (by simpa [h2] using h),
      gath_get _ _ (by simpa [h3] using h)]
    cases hk : sel[k]? with
    | none => simp
    | some j =>
      cases hc : m.chunk with
      | none => simp [row, hc]
      | some c =>
        have := h4 c hc
        simp only [Option.map_some, Option.bind_some]
        rw [gath_get _ _ (by simpa [this] using h), hk]
        simp [row, hc]

theorem Meta.init_pick (m : Meta) (hm : m.WF) (sel : List Nat) (h : ∀ j ∈ sel, j < m.ids.length) :
    Meta.init (gath m.ids sel) (gath m.sos sel) (gath m.eos sel) (gath m.lengths sel) (m.chunk.map (gath · sel))
      = .ok (m.pick sel) := by
  obtain ⟨h1, h2, h3, h4⟩ := hm
  rw [Meta.init_ok]
  · rfl
  all_goals rw [gath_length m.ids sel h]
  · exact gath_length m.sos sel (by simpa [h1] using h)
  · exact gath_length m.eos sel (by simpa [h2] using h)
  · exact gath_length m.lengths sel (by simpa [h3] using h)

/-! ### integer lists -/

theorem posOf_lt {n : Nat} {i : Int} {k : Nat} (h : posOf n i = some k) : k < n := by
  unfold posOf at h
  split at h
  · simp at h; omega
  · split at h
    · simp at h; omega
    · simp at h

theorem pyGet_eq {α : Type} (xs : List α) (i : Int) :
    pyGet xs i = orIndexError ((posOf xs.length i).bind (xs[·]?)) := by
  unfold pyGet posOf getNonneg
  by_cases h1 : i < 0
  · by_cases h2 : 0 ≤ i + xs.length
    · simp only [h1, h2, show ¬ (0 ≤ i) by omega, if_true, if_false, false_and, and_self, Option.bind_some]
      cases xs[(i + (xs.length : Int)).toNat]? <;> rfl
    · simp [h1, h2, show ¬ (0 ≤ i) by omega, orIndexError]
  · by_cases h2 : i < xs.length
    · simp only [h1, h2, show (0 ≤ i) by omega, if_true, if_false, and_self, Option.bind_some]
      cases xs[i.toNat]? <;> rfl
    · simp [h1, h2, show (0 ≤ i) by omega, orIndexError]

theorem positions_lt {n : Nat} {is : List Int} {ks : List Nat} (h : positions n is = some ks) :
    ∀ j ∈ ks, j < n := by
  induction is generalizing ks with
  | nil => simp [positions] at h; subst h; simp
  | cons i r ih =>
    simp only [positions] at h
    split at h
    · rename_i k ks' hk hks
      simp at h; subst h
      intro j hj
      simp at hj
      rcases hj with rfl | hj
      · exact posOf_lt hk
      · exact ih hks j hj
    · simp at h

theorem pyGather_eq {α : Type} (xs : List α) (is : List Int) :
    pyGather xs is = (orIndexError (positions xs.length is)).map (gath xs) := by
  induction is with
  | nil => simp [pyGather, positions, gath, orIndexError, Except.map]
  | cons i r ih =>
    simp only [pyGather, positions, ih]
    rw [pyGet_eq]
    cases h : posOf xs.length i with
    | none => simp [Except.bind_error', orIndexError, Except.map]
    | some k =>
      have hk := posOf_lt h
      simp only [List.getElem?_eq_getElem hk, Option.bind_some, orIndexError, Except.bind_ok']
      cases h2 : positions xs.length r with
      | none => simp [Except.bind_error', orIndexError, Except.map]
      | some ks => simp [Except.bind_ok', gath, List.getElem?_eq_getElem hk, orIndexError, Except.map]

/-! ### masks -/

theorem range_succ_filter (n : Nat) (p : Nat → Bool) :
    (List.range (n + 1)).filter p = (if p 0 then [0] else []) ++ ((List.range n).filter (fun j => p (j + 1))).map (· + 1) := by
  rw [List.range_succ_eq_map, List.filter_cons, List.filter_map]
  by_cases h : p 0
  · simp [h, Function.comp_def]
  · simp [h, Function.comp_def]

theorem truePos_cons (b : Bool) (bs : List Bool) :
    truePos (b :: bs) = (if b then [0] else []) ++ (truePos bs).map (· + 1) := by
  unfold truePos
  rw [List.length_cons, range_succ_filter]
  simp

theorem truePos_lt (bs : List Bool) : ∀ j ∈ truePos bs, j < bs.length := by
  intro j hj
  simp [truePos] at hj
  exact hj.1

theorem gath_cons_succ {α : Type} (x : α) (xs : List α) (sel : List Nat) :
    gath (x :: xs) (sel.map (· + 1)) = gath xs sel := by
  simp [gath, List.filterMap_map, Function.comp_def]

theorem gath_append {α : Type} (xs : List α) (s t : List Nat) : gath xs (s ++ t) = gath xs s ++ gath xs t := by
  simp [gath]

theorem torchMask_eq {α : Type} (xs : List α) (bs : List Bool) (h : bs.length = xs.length) :
    torchMask xs bs = .ok (gath xs (truePos bs)) := by
  unfold torchMask
  rw [if_pos h]
  congr 1
  induction xs generalizing bs with
  | nil => cases bs <;> simp_all [truePos, gath]
  | cons x xs ih =>
    cases bs with
    | nil => simp at h
    | cons b bs =>
      rw [truePos_cons, gath_append, gath_cons_succ, ← ih bs (by simpa using h)]
      cases b <;> simp [gath]

theorem idsByMask_eq (xs : List String) (bs : List Bool) (h : bs.length = xs.length) :
    Meta.idsByMask xs bs = .ok (gath xs (truePos bs)) := by
  induction xs generalizing bs with
  | nil => cases bs <;> simp_all [truePos, gath, Meta.idsByMask]
  | cons x xs ih =>
    cases bs with
    | nil => simp at h
    | cons b bs =>
      rw [truePos_cons, gath_append, gath_cons_succ, Meta.idsByMask, ih bs (by simpa using h), Except.bind_ok']
      cases b <;> simp [gath]

theorem idsByMask_ne (xs : List String) (bs : List Bool) :
    (∃ ys, Meta.idsByMask xs bs = .ok ys) ∨ Meta.idsByMask xs bs = .error .indexError := by
  induction xs generalizing bs with
  | nil => left; simp [Meta.idsByMask]
  | cons x xs ih =>
    cases bs with
    | nil => right; simp [Meta.idsByMask]
    | cons b bs =>
      rcases ih bs with ⟨ys, h⟩ | h
      · left; simp [Meta.idsByMask, h, Except.bind_ok']
      · right; simp [Meta.idsByMask, h, Except.bind_error']

/-! ### slices -/

theorem indices_pos (s : Slice) (n : Nat) (h : 0 < s.step.getD 1) :
    s.indices n = .ok (sliceLo n s, sliceHi n s, s.step.getD 1) := by
  unfold Slice.indices
  simp only [sliceLo, sliceHi]
  rw [if_neg (by omega), if_neg (by omega)]
  have hb : ∀ x : Int, adjustBound n 0 n x = boundOf n x := by
    intro x
    unfold adjustBound boundOf
    simp only []
    split <;> split <;> (try split) <;> omega
  have hn : ¬ s.step.getD 1 < 0 := by omega
  simp only [hn, if_false]
  cases s.start <;> cases s.stop <;> simp [hb]

theorem boundOf_range (n : Nat) (x : Int) : 0 ≤ boundOf n x ∧ boundOf n x ≤ n := by
  unfold boundOf; split <;> omega

theorem sliceLo_range (n : Nat) (s : Slice) : 0 ≤ sliceLo n s ∧ sliceLo n s ≤ n := by
  unfold sliceLo; cases s.start <;> simp [boundOf_range]
theorem sliceHi_range (n : Nat) (s : Slice) : 0 ≤ sliceHi n s ∧ sliceHi n s ≤ n := by
  unfold sliceHi; cases s.stop <;> simp [boundOf_range]

theorem rangePositions_mem (a b c x : Int) (hc : 0 < c) :
    x ∈ rangePositions a b c ↔ a ≤ x ∧ x < b ∧ (x - a) % c = 0 := by
  simp only [rangePositions, if_pos hc, List.mem_map, List.mem_range]
  constructor
  · rintro ⟨k, hk, rfl⟩
    have h1 : (0 : Int) ≤ k := by omega
    have h2 : (k : Int) < (b - a + c - 1) / c := by omega
    have h3 : c * (k : Int) ≥ 0 := Int.mul_nonneg (by omega) h1
    have h4 : ((k : Int) + 1) * c ≤ b - a + c - 1 := (Int.le_ediv_iff_mul_le hc).1 (by omega)
    rw [Int.add_mul, Int.mul_comm] at h4
    refine ⟨by omega, by omega, ?_⟩
    rw [show a + c * (k : Int) - a = c * (k : Int) by omega]
    simp
  · rintro ⟨h1, h2, h3⟩
    have hd := Int.emod_add_mul_ediv (x - a) c
    have h0 : 0 ≤ (x - a) / c := Int.ediv_nonneg (by omega) (by omega)
    refine ⟨((x - a) / c).toNat, ?_, ?_⟩
    · have : (x - a) / c + 1 ≤ (b - a + c - 1) / c := by
        rw [Int.le_ediv_iff_mul_le hc, Int.add_mul, Int.mul_comm]
        omega
      omega
    · rw [Int.toNat_of_nonneg h0]; omega

theorem rangePositions_sorted (a b c : Int) (hc : 0 < c) : (rangePositions a b c).Pairwise (· < ·) := by
  simp only [rangePositions, if_pos hc]
  rw [List.pairwise_map]
  refine List.Pairwise.imp ?_ List.pairwise_lt_range
  intro i j hij
  have : c * (i : Int) < c * (j : Int) := Int.mul_lt_mul_of_pos_left (by omega) hc
  omega

theorem rangePositions_slice (s : Slice) (n : Nat) (h : 0 < s.step.getD 1) :
    rangePositions (sliceLo n s) (sliceHi n s) (s.step.getD 1) = (slicePos n s).map (fun (j : Nat) => (j : Int)) := by
  refine List.Pairwise.eq_of_mem_iff (rangePositions_sorted _ _ _ h) (r := (· < ·)) ?_ ?_
  · rw [List.pairwise_map]
    unfold slicePos
    refine List.Pairwise.filter _ (List.Pairwise.imp ?_ List.pairwise_lt_range)
    intro i j hij
    omega
  · intro x
    rw [rangePositions_mem _ _ _ _ h]
    have hl := sliceLo_range n s
    have hh := sliceHi_range n s
    simp only [slicePos, List.mem_map, List.mem_filter, List.mem_range, Bool.and_eq_true, decide_eq_true_eq]
    constructor
    · rintro ⟨h1, h2, h3⟩
      refine ⟨x.toNat, ⟨by omega, ⟨by omega, by omega⟩, ?_⟩, by omega⟩
      rwa [show ((x.toNat : Nat) : Int) = x by omega]
    · rintro ⟨j, ⟨hj, ⟨h1, h2⟩, h3⟩, rfl⟩
      exact ⟨h1, h2, h3⟩

theorem slicePos_lt (n : Nat) (s : Slice) : ∀ j ∈ slicePos n s, j < n := by
  intro j hj
  simp [slicePos] at hj
  exact hj.1

theorem pySlice_eq {α : Type} (xs : List α) (s : Slice) (h : 0 < s.step.getD 1) :
    pySlice xs s = .ok (gath xs (slicePos xs.length s)) := by
  unfold pySlice
  rw [indices_pos s xs.length h, Except.bind_ok']
  simp only [rangePositions_slice s xs.length h, gath, List.filterMap_map]
  congr 1

theorem torchSlice_eq {α : Type} (xs : List α) (s : Slice) (h : 0 < s.step.getD 1) :
    torchSlice xs s = .ok (gath xs (slicePos xs.length s)) := by
  unfold torchSlice
  rw [if_neg (by omega), pySlice_eq xs s h]

theorem pySlice_cases {α : Type} (xs : List α) (s : Slice) :
    (∃ ys, pySlice xs s = .ok ys) ∨ pySlice xs s = .error .valueError := by
  unfold pySlice Slice.indices
  rw [if_neg (by omega)]
  split
  · right; rfl
  · left; exact ⟨_, rfl⟩

end DS
