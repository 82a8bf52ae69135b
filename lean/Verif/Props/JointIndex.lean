import Verif.Props.LengthIndex
/-! # C13: indexing batch and length together -/

namespace DS.Meta

theorem exists_longest (m : Meta) (hne : m.lengths ≠ []) (h0 : ∀ l ∈ m.lengths, 0 ≤ l) : ∃ n : Nat, m.Longest n := by
  have : ∃ x : Int, torchMax m.lengths = .ok x := by
    cases h : m.lengths with
    | nil => exact absurd h hne
    | cons a r => exact ⟨_, rfl⟩
  obtain ⟨x, hx⟩ := this
  rw [torchMax_iff] at hx
  refine ⟨x.toNat, ?_, ?_⟩
  · rw [Int.toNat_of_nonneg (h0 x hx.1)]; exact hx.1
  · intro l hl
    have := hx.2 l hl
    exact ⟨h0 l hl, by omega⟩

theorem row_of_len_mem {m : Meta} (hm : m.WF) {l : Int} (hl : l ∈ m.lengths) : ∃ k r, m.row k = some r ∧ r.len = l := by
  obtain ⟨k, hk, rfl⟩ := List.mem_iff_getElem.1 hl
  obtain ⟨w1, w2, w3, w4⟩ := hm
  have a0 := List.getElem?_eq_getElem (l := m.ids) (i := k) (by omega)
  have a1 := List.getElem?_eq_getElem (l := m.sos) (i := k) (by omega)
  have a2 := List.getElem?_eq_getElem (l := m.eos) (i := k) (by omega)
  have a3 := List.getElem?_eq_getElem (l := m.lengths) (i := k) hk
  refine ⟨k, ?_⟩
  cases hc : m.chunk with
  | none => exact ⟨⟨m.ids[k], m.sos[k], m.eos[k], m.lengths[k], none⟩, by simp [row, a0, a1, a2, a3, hc], rfl⟩
  | some c =>
    have hk4 : k < c.length := by rw [w4 c hc]; omega
    have a4 := List.getElem?_eq_getElem (l := c) (i := k) hk4
    exact ⟨⟨m.ids[k], m.sos[k], m.eos[k], m.lengths[k], some c[k]⟩, by simp [row, a0, a1, a2, a3, hc, a4], rfl⟩

/-- Selected rows have a longest row, no longer than the longest of all. -/
theorem selects_longest {m m' : Meta} {n : Nat} (hn : m.Longest n) {sel : List Nat} (hs : m.Selects sel m')
    (hpos : ∃ k r, m'.row k = some r ∧ 0 < r.len) : ∃ n' : Nat, m'.Longest n' ∧ 0 < n' ∧ n' ≤ n := by
  have hb : ∀ l ∈ m'.lengths, 0 ≤ l ∧ l ≤ n := by
    intro l hl
    obtain ⟨k, r, hr, rfl⟩ := row_of_len_mem hs.1 hl
    rw [hs.2.2.2 k] at hr
    cases he : sel[k]? with
    | none => simp [he] at hr
    | some j => simp [he] at hr; exact row_bounds hn hr
  obtain ⟨k, r, hr, hp⟩ := hpos
  have hmem := row_len_mem hr
  obtain ⟨n', hn'⟩ := exists_longest m' (List.ne_nil_of_mem hmem) (fun l hl => (hb l hl).1)
  have h1 := (hn'.2 _ hmem).2
  have h2 := (hb _ hn'.1).2
  exact ⟨n', hn', by omega, by omega⟩

/-- **C13 is false of the code.** `x[1:, -1]`: the negative index is resolved against the longest *selected* row (2
frames) while the data uses the tensor's length axis (4 frames), so padding is reported as data. -/
theorem C13_joint_false :
    ∃ (m : Meta) (T : Nat), m.WF ∧ m.Longest T ∧ ∃ sel, batchSel m.ids.length (.list [1]) = some (.ok sel) ∧
      ∃ p, posOf T (-1) = some p ∧ ∃ m', m.index2 0 (.list [1]) (.int (-1)) = .ok m' ∧
      ∃ k j r r', sel[k]? = some j ∧ m.row j = some r ∧ m'.row k = some r' ∧ r'.len ≠ keptData [p] r.len := by
  refine ⟨ex3, 4, by decide, by decide, [1], by decide, 3, by decide, _, rfl, 0, 1, _, _, rfl, rfl, rfl, by decide⟩

/-- C13 for unit-step slices with non-negative bounds in order, on a tensor of `T` frames (possibly padded beyond its
longest row), when some selected row has data: rows are selected and each keeps exactly what the positions kept by the
slice say. Missing: negative bounds (`C13_joint_full_partial`), selections of empty rows only. -/
theorem C13_joint_slice_partial (junk : Int) (m : Meta) (hm : m.WF) (n : Nat) (hn : m.Longest n) (T : Nat) (hT : n ≤ T)
    (b : BIx) (sel : List Nat) (hb : batchSel m.ids.length b = some (.ok sel))
    (hpos : ∃ j ∈ sel, ∃ r, m.row j = some r ∧ 0 < r.len) (s : Slice) (hs : s.step.getD 1 = 1)
    (h0 : ∀ x, s.start = some x → 0 ≤ x) (h1 : ∀ x, s.stop = some x → 0 ≤ x) (hle : sliceLo T s ≤ sliceHi T s) :
    ∃ m', m.index2 junk b (.slice s) = .ok m' ∧ m'.ids.length = sel.length ∧
      ∀ k j r, sel[k]? = some j → m.row j = some r → m'.row k = some (keepRow (slicePos T s) r) := by
  obtain ⟨m1, e1, hs1⟩ := C01_index_batch m hm b _ hb
  have hpos' : ∃ k r, m1.row k = some r ∧ 0 < r.len := by
    obtain ⟨j, hj, r, hr, hp⟩ := hpos
    obtain ⟨k, hk⟩ := List.getElem?_of_mem hj
    exact ⟨k, r, by rw [hs1.2.2.2 k, hk]; exact hr, hp⟩
  obtain ⟨n', hn', hp', hle'⟩ := selects_longest hn hs1 hpos'
  have key : ∀ N : Nat, sliceLo N s = min (sliceLo (max N T) s) N ∧ sliceHi N s = min (sliceHi (max N T) s) N := by
    intro N
    unfold sliceLo sliceHi
    constructor
    · cases hx : s.start with
      | none => simp
      | some x => have := h0 x hx; simp only [boundOf]; split <;> omega
    · cases hx : s.stop with
      | none => simp only []; omega
      | some x => have := h1 x hx; simp only [boundOf]; split <;> omega
  have k1 := key n'
  rw [show max n' T = T by omega] at k1
  obtain ⟨m', e2, h2⟩ := C05_length_slice junk m1 hs1.1 n' hn' s hs (by omega)
  refine ⟨m', by unfold index2; rw [e1, Except.bind_ok']; exact e2, by rw [h2.2.1, hs1.2.1], ?_⟩
  intro k j r hk hr
  have hr1 : m1.row k = some r := by rw [hs1.2.2.2 k, hk]; exact hr
  rw [h2.2.2.2 k r hr1]
  have hb1 := row_bounds hn' hr1
  have hlo := sliceLo_range T s
  have hhi := sliceHi_range T s
  congr 1
  unfold keepRow keepsFirst keepsLast
  rw [any_decide_iff, any_decide_iff, keptData_slice _ s _ (by omega), keptData_slice _ s _ (by omega), hs]
  congr 1
  · congr 1
    rw [decide_eq_decide, mem_slicePos n' s _ hs, mem_slicePos T s _ hs]
    omega
  · congr 1
    rw [decide_eq_decide]
    have hm1 := fun j => mem_slicePos n' s j hs
    have hm2 := fun j => mem_slicePos T s j hs
    simp only [hm1, hm2]
    constructor <;> (rintro ⟨j, h⟩; exact ⟨j, by omega⟩)
  · omega

example : ex3.WF ∧ ex3.Longest 4 ∧ batchSel ex3.ids.length (.list [2, 1]) = some (.ok [2, 1]) ∧
    (∃ j ∈ [2, 1], ∃ r, ex3.row j = some r ∧ 0 < r.len) ∧ sliceLo 6 { start := some 1, stop := some 5 } ≤ sliceHi 6 { start := some 1, stop := some 5 } ∧
    ex3.index2 0 (.list [2, 1]) (.slice { start := some 1, stop := some 5 }) =
      .ok ⟨["c", "b"], [false, false], [true, false], [2, 1], some [7, 5]⟩ := by
  refine ⟨by decide, by decide, by decide, ⟨2, by decide, _, rfl, by decide⟩, by decide, by decide⟩

/-- C13 for a non-negative integer within the tensor's length axis. Missing: negative integers
(`C13_joint_negative_partial`, `C13_joint_full_partial`). -/
theorem C13_joint_int_partial (junk : Int) (m : Meta) (hm : m.WF) (b : BIx) (sel : List Nat) (hb : batchSel m.ids.length b = some (.ok sel))
    (p : Nat) :
    ∃ m', m.index2 junk b (.int p) = .ok m' ∧ m'.ids.length = sel.length ∧
      ∀ k j r, sel[k]? = some j → m.row j = some r → m'.row k = some { r with
        sos := r.sos && keepsFirst [p], eos := r.eos && decide (r.len - 1 ≤ p), len := keptData [p] r.len } := by
  obtain ⟨m1, e1, hs1⟩ := C01_index_batch m hm b _ hb
  obtain ⟨m', h1, -, -, h2⟩ := init_map m1 hs1.1 (fun b => b && decide ((p : Int) = 0))
    (fun e l => e && decide (l ≤ (p : Int) + 1)) (fun l => clip 0 1 (l - p))
  refine ⟨m', ?_, by rw [h2.2.1, hs1.2.1], ?_⟩
  · unfold index2
    rw [e1, Except.bind_ok']
    show m1.indexLengthInt p = _
    unfold indexLengthInt
    simp only [if_neg (by omega : ¬ (p : Int) < 0), Except.bind_ok', keepSos_eq, Numba.updateEosFromInteger]
    exact h1
  · intro k j r hk hr
    have hr1 : m1.row k = some r := by rw [hs1.2.2.2 k, hk]; exact hr
    rw [h2.2.2.2 k r hr1]
    congr 1
    simp only [Row.mk.injEq, true_and, and_true]
    refine ⟨?_, ?_, ?_⟩
    · congr 1; unfold keepsFirst; rw [decide_eq_decide]; simp; omega
    · congr 1; rw [decide_eq_decide]; omega
    · unfold keptData clip
      by_cases h : (p : Int) < r.len
      · simp [h]; omega
      · simp [h]; omega

example : ex3.WF ∧ batchSel ex3.ids.length (.mask [false, true, true]) = some (.ok [1, 2]) ∧
    ex3.index2 0 (.mask [false, true, true]) (.int 2) = .ok ⟨["b", "c"], [false, false], [false, true], [0, 1], some [5, 7]⟩ := by
  decide

/-- C13 for a sorted non-empty list of non-negative positions: lengths and sos (for eos see C11). Missing: negative
positions (`C13_joint_full_partial`). -/
theorem C13_joint_list_partial (junk : Int) (m : Meta) (hm : m.WF) (n : Nat) (hn : m.Longest n)
    (b : BIx) (sel : List Nat) (hb : batchSel m.ids.length b = some (.ok sel)) (hsel : sel ≠ [])
    (ps : List Nat) (hne : ps ≠ []) (hs : ps.Pairwise (· ≤ ·)) :
    ∃ m', m.index2 junk b (.list (ps.map fun (j : Nat) => (j : Int))) = .ok m' ∧ m'.ids.length = sel.length ∧
      ∀ k j r, sel[k]? = some j → m.row j = some r → ∃ r', m'.row k = some r' ∧ r'.id = r.id ∧ r'.chunk = r.chunk ∧
        r'.sos = (r.sos && keepsFirst ps) ∧ r'.len = keptData ps r.len := by
  obtain ⟨m1, e1, hs1⟩ := C01_index_batch m hm b _ hb
  have hne1 : m1.lengths ≠ [] := by
    intro h
    have h3 := hs1.1.2.2.1
    rw [h, hs1.2.1] at h3
    exact hsel (List.length_eq_zero_iff.1 h3.symm)
  have : ∃ x : Int, m1.maxLength = .ok x := by
    unfold maxLength
    cases h : m1.lengths with
    | nil => exact absurd h hne1
    | cons a r => exact ⟨_, rfl⟩
  obtain ⟨x, hx⟩ := this
  have hpos : Numba.makeIndicesPositive (ps.map fun (j : Nat) => (j : Int)) x = ps.map fun (j : Nat) => (j : Int) := by
    unfold Numba.makeIndicesPositive
    rw [List.map_map]
    apply List.map_congr_left
    intro j _
    simp
  obtain ⟨m', h1, h2⟩ := list_core junk m1 hs1.1 x hx _ ps hpos hs hne
  refine ⟨m', by unfold index2; rw [e1, Except.bind_ok']; exact h1, by rw [h2.2.1, hs1.2.1], ?_⟩
  intro k j r hk hr
  have hr1 : m1.row k = some r := by rw [hs1.2.2.2 k, hk]; exact hr
  exact ⟨_, h2.2.2.2 k r hr1, rfl, rfl, rfl, rfl⟩

example : ex3.WF ∧ ex3.Longest 4 ∧ batchSel ex3.ids.length (.int (-1)) = some (.ok [2]) ∧ [0, 2, 3].Pairwise (· ≤ ·) ∧
    ex3.index2 0 (.int (-1)) (.list [0, 2, 3]) = .ok ⟨["c"], [false], [true], [2], some [7]⟩ := by decide

/-- C13, negative integers, exactly: `i` is resolved against the longest selected row, of `n'` frames, and each row is
described at position `n' + i`, wherever the data have it. So the rows are described right if the longest selected row
fills the length axis. With `n' + i` before the first frame, every row, also an empty one, is said to have one frame.
Missing: rows are not described at the position that `i` names on the length axis. -/
theorem C13_joint_negative_partial (junk : Int) (m : Meta) (hm : m.WF) (b : BIx) (sel : List Nat)
    (hb : batchSel m.ids.length b = some (.ok sel)) (n' : Nat)
    (hn' : ∃ j ∈ sel, ∃ r, m.row j = some r ∧ r.len = n') (hmax : ∀ j ∈ sel, ∀ r, m.row j = some r → r.len ≤ n')
    (i : Int) (hi : i < 0) :
    ∃ m', m.index2 junk b (.int i) = .ok m' ∧ m'.ids.length = sel.length ∧
      ∀ k j r, sel[k]? = some j → m.row j = some r → m'.row k = some { r with
        sos := r.sos && decide (n' + i = 0), eos := r.eos && decide (r.len - 1 ≤ n' + i)
        len := if n' + i < r.len then 1 else 0 } := by
  obtain ⟨m1, e1, hs1⟩ := C01_index_batch m hm b _ hb
  have hx : m1.maxLength = .ok (n' : Int) := by
    unfold maxLength
    rw [torchMax_iff]
    constructor
    · obtain ⟨j, hj, r, hr, h⟩ := hn'
      obtain ⟨k, hk⟩ := List.getElem?_of_mem hj
      rw [← h]
      exact row_len_mem (k := k) (by rw [hs1.2.2.2 k, hk]; exact hr)
    · intro l hl
      obtain ⟨k, r, hr, rfl⟩ := row_of_len_mem hs1.1 hl
      rw [hs1.2.2.2 k] at hr
      cases he : sel[k]? with
      | none => simp [he] at hr
      | some j =>
        simp [he] at hr
        exact hmax j (List.mem_of_getElem? he) r hr
  obtain ⟨m', h1, -, -, h2⟩ := init_map m1 hs1.1 (fun b => b && decide ((n' : Int) + i = 0))
    (fun e l => e && decide (l ≤ (n' : Int) + i + 1)) (fun l => clip 0 1 (l - (n' + i)))
  refine ⟨m', ?_, by rw [h2.2.1, hs1.2.1], ?_⟩
  · unfold index2
    rw [e1, Except.bind_ok']
    show m1.indexLengthInt i = _
    unfold indexLengthInt
    simp only [if_pos hi, hx, Except.bind_ok', keepSos_eq, Numba.updateEosFromInteger]
    exact h1
  · intro k j r hk hr
    have hr1 : m1.row k = some r := by rw [hs1.2.2.2 k, hk]; exact hr
    rw [h2.2.2.2 k r hr1]
    congr 1
    simp only [Row.mk.injEq, true_and, and_true]
    refine ⟨?_, ?_⟩
    · congr 1; rw [decide_eq_decide]; omega
    · unfold clip
      split <;> omega

example : ex3.WF ∧ batchSel ex3.ids.length (.list [1, 2]) = some (.ok [1, 2]) ∧
    (∃ j ∈ [1, 2], ∃ r, ex3.row j = some r ∧ r.len = (3 : Nat)) ∧
    ex3.index2 0 (.list [1, 2]) (.int (-1)) = .ok ⟨["b", "c"], [false, false], [false, true], [0, 1], some [5, 7]⟩ ∧
    ex3.index2 0 (.list [1, 2]) (.int (-4)) = .ok ⟨["b", "c"], [false, false], [false, false], [1, 1], some [5, 7]⟩ := by
  refine ⟨by decide, by decide, ⟨2, by decide, _, rfl, by decide⟩, by decide, by decide⟩

/-- C13, every spelling, when some selected row fills the length axis of `T` frames: integers, lists of positions in
ascending order and unit-step slices with bounds in order, negative ones included. (For eos under a list see C11.)
Missing: negative spellings when all selected rows are padded. -/
theorem C13_joint_full_partial (junk : Int) (m : Meta) (hm : m.WF) (T : Nat) (hT : ∀ l ∈ m.lengths, 0 ≤ l ∧ l ≤ T)
    (b : BIx) (sel : List Nat) (hb : batchSel m.ids.length b = some (.ok sel))
    (hfull : ∃ j ∈ sel, ∃ r, m.row j = some r ∧ r.len = T) :
    (∀ i p, posOf T i = some p → ∃ m', m.index2 junk b (.int i) = .ok m' ∧ m'.ids.length = sel.length ∧
      ∀ k j r, sel[k]? = some j → m.row j = some r → m'.row k = some { r with
        sos := r.sos && keepsFirst [p], eos := r.eos && decide (r.len - 1 ≤ p), len := keptData [p] r.len }) ∧
    (∀ is ps, is ≠ [] → positions T is = some ps → ps.Pairwise (· ≤ ·) →
      ∃ m', m.index2 junk b (.list is) = .ok m' ∧ m'.ids.length = sel.length ∧
      ∀ k j r, sel[k]? = some j → m.row j = some r → ∃ r', m'.row k = some r' ∧ r'.id = r.id ∧ r'.chunk = r.chunk ∧
        r'.sos = (r.sos && keepsFirst ps) ∧ r'.len = keptData ps r.len) ∧
    (∀ s : Slice, s.step.getD 1 = 1 → sliceLo T s ≤ sliceHi T s →
      ∃ m', m.index2 junk b (.slice s) = .ok m' ∧ m'.ids.length = sel.length ∧
      ∀ k j r, sel[k]? = some j → m.row j = some r → m'.row k = some (keepRow (slicePos T s) r)) := by
  obtain ⟨m1, e1, hs1⟩ := C01_index_batch m hm b _ hb
  have hn1 : m1.Longest T := by
    constructor
    · obtain ⟨j, hj, r, hr, h⟩ := hfull
      obtain ⟨k, hk⟩ := List.getElem?_of_mem hj
      rw [← h]
      exact row_len_mem (k := k) (by rw [hs1.2.2.2 k, hk]; exact hr)
    · intro l hl
      obtain ⟨k, r, hr, rfl⟩ := row_of_len_mem hs1.1 hl
      rw [hs1.2.2.2 k] at hr
      cases he : sel[k]? with
      | none => simp [he] at hr
      | some j =>
        simp [he] at hr
        exact hT _ (row_len_mem hr)
  have hrow : ∀ {k j : Nat} {r : Row}, sel[k]? = some j → m.row j = some r → m1.row k = some r := by
    intro k j r hk hr; rw [hs1.2.2.2 k, hk]; exact hr
  refine ⟨?_, ?_, ?_⟩
  · intro i p hi
    obtain ⟨m', e2, h2⟩ := C09_length_int junk m1 hs1.1 T hn1 i p hi
    refine ⟨m', by unfold index2; rw [e1, Except.bind_ok']; exact e2, by rw [h2.2.1, hs1.2.1], ?_⟩
    intro k j r hk hr
    rw [h2.2.2.2 k r (hrow hk hr)]
    congr 1
    simp only [Row.mk.injEq, true_and, and_true]
    refine ⟨?_, ?_, ?_⟩
    · congr 1; unfold keepsFirst; rw [decide_eq_decide]; simp; omega
    · congr 1; rw [decide_eq_decide]; omega
    · unfold keptData
      by_cases h : (p : Int) < r.len <;> simp [h]
  · intro is ps hne hp hs
    obtain ⟨m', e2, -, hl, h2⟩ := (C10_length_list junk m1 hs1.1 T hn1 is hne ps hp).1 hs
    refine ⟨m', by unfold index2; rw [e1, Except.bind_ok']; exact e2, by rw [hl, hs1.2.1], ?_⟩
    intro k j r hk hr
    obtain ⟨r', a, b, c, d, e, -⟩ := h2 k r (hrow hk hr)
    exact ⟨r', a, b, c, e, d⟩
  · intro s hs hle
    obtain ⟨m', e2, h2⟩ := C05_length_slice junk m1 hs1.1 T hn1 s hs hle
    refine ⟨m', by unfold index2; rw [e1, Except.bind_ok']; exact e2, by rw [h2.2.1, hs1.2.1], ?_⟩
    intro k j r hk hr
    exact h2.2.2.2 k r (hrow hk hr)

example : ex3.WF ∧ (∀ l ∈ ex3.lengths, 0 ≤ l ∧ l ≤ (4 : Nat)) ∧ batchSel ex3.ids.length (.list [0, 1]) = some (.ok [0, 1]) ∧
    (∃ j ∈ [0, 1], ∃ r, ex3.row j = some r ∧ r.len = (4 : Nat)) ∧
    ex3.index2 0 (.list [0, 1]) (.slice { start := some (-3) }) =
      .ok ⟨["a", "b"], [false, false], [false, false], [3, 1], some [0, 5]⟩ := by
  refine ⟨by decide, by decide, by decide, ⟨0, by decide, _, rfl, by decide⟩, by decide⟩

end DS.Meta
