import Verif.Lemmas.Length
import Verif.Props.BatchIndex
/-! # C05-C12, C14, C86: length indexing of metadata -/

namespace DS.Meta

/-- What the property asks of one row when the positions `pos` are kept and `eos` is judged by the last data frame. -/
def keepRow (pos : List Nat) (r : Row) : Row :=
  { r with sos := r.sos && keepsFirst pos, eos := r.eos && keepsLast pos r.len, len := keptData pos r.len }

/-- The same when `eos` is judged by spanning the end of the row. -/
def spanRow (pos : List Nat) (r : Row) : Row :=
  { r with sos := r.sos && keepsFirst pos, eos := r.eos && spansLast pos r.len, len := keptData pos r.len }

theorem indices_longest {m : Meta} {n : Nat} (h : m.Longest n) (s : Slice) (hs : 0 < s.step.getD 1) :
    (do let ml ← m.maxLength; s.indices ml) = .ok (sliceLo n s, sliceHi n s, s.step.getD 1) := by
  rw [h.max, Except.bind_ok', indices_pos s n hs]

theorem slice_unit_eq {m : Meta} {n : Nat} (h : m.Longest n) (s : Slice) (hs : s.step.getD 1 = 1) :
    m.indexLengthSlice s = indexLengthSlice.finish m (sliceLo n s) (sliceHi n s)
      (m.lengths.map fun l => clip 0 (sliceHi n s - sliceLo n s) (l - sliceLo n s)) := by
  unfold indexLengthSlice
  rw [h.max, Except.bind_ok', indices_pos s n (by omega), Except.bind_ok']
  simp [hs]

theorem row_bounds {m : Meta} {n : Nat} (h : m.Longest n) {k : Nat} {r : Row} (hr : m.row k = some r) :
    0 ≤ r.len ∧ r.len ≤ n := h.2 _ (row_len_mem hr)

/-- **C05.** Unit-step length slices whose normalised bounds are in order: each row keeps the count of its data frames
among the kept positions, sos iff frame 0 is kept, eos iff its last data frame is kept. -/
theorem C05_length_slice (junk : Int) (m : Meta) (hm : m.WF) (n : Nat) (hn : m.Longest n) (s : Slice)
    (hs : s.step.getD 1 = 1) (hle : sliceLo n s ≤ sliceHi n s) :
    ∃ m', m.indexLength junk (.slice s) = .ok m' ∧ m.MapsRows (keepRow (slicePos n s)) m' := by
  obtain ⟨m', h1, -, -, h2⟩ := init_map m hm
    (fun b => b && (decide (sliceLo n s = 0) && decide (sliceHi n s > 0)))
    (fun e l => (e && decide (sliceLo n s < l)) && decide (l ≤ sliceHi n s))
    (fun l => clip 0 (sliceHi n s - sliceLo n s) (l - sliceLo n s))
  refine ⟨m', ?_, h2.congr ?_⟩
  · show m.indexLengthSlice s = _
    rw [slice_unit_eq hn s hs, ← h1]
    unfold indexLengthSlice.finish Numba.updateEosFromSlice
    rw [keepSos_eq]
  · intro k r hr
    obtain ⟨hr0, hrn⟩ := row_bounds hn hr
    have hlo := sliceLo_range n s
    have hhi := sliceHi_range n s
    unfold keepRow keepsFirst keepsLast
    rw [any_decide_iff, keptData_slice n s _ (by omega), hs]
    have hmem := fun j => mem_slicePos n s j hs
    simp only [hmem]
    congr 1
    · rw [← Bool.decide_and]
      congr 1
      rw [decide_eq_decide]; omega
    · rw [Bool.and_assoc, ← Bool.decide_and]
      congr 1
      rw [decide_eq_decide]
      simp only [hmem]
      constructor
      · intro h; exact ⟨(r.len - 1).toNat, by omega, by omega⟩
      · rintro ⟨j, h⟩; omega
    · unfold clip; omega

example : ex3.WF ∧ ex3.Longest 4 ∧ sliceLo 4 { start := some (-3), stop := some 3 } ≤ sliceHi 4 { start := some (-3), stop := some 3 } ∧
    ex3.indexLength 0 (.slice { start := some (-3), stop := some 3 }) =
      .ok ⟨["a", "b", "c"], [false, false, false], [false, false, true], [2, 1, 2], some [0, 5, 7]⟩ := by decide

/-- **C06 is false of the code.** An empty slice whose start lies beyond its stop gives negative lengths. -/
theorem C06_negative_length_false :
    ∃ (m : Meta) (n : Nat), m.WF ∧ m.Longest n ∧ ∃ s : Slice, s.step = none ∧ ∃ m', m.indexLength 0 (.slice s) = .ok m' ∧
      ∃ k r, m'.row k = some r ∧ r.len < 0 := by
  refine ⟨ex3, 4, by decide, by decide, { start := some 3, stop := some 1 }, rfl, _, rfl, 0, _, rfl, ?_⟩
  decide

/-- C06, exact description: with normalised start beyond stop every row gets length `stop - start`, which is negative,
whatever data it had. Missing: that lengths are never negative, which fails exactly here. -/
theorem C06_negative_length_partial (junk : Int) (m : Meta) (hm : m.WF) (n : Nat) (hn : m.Longest n) (s : Slice)
    (hs : s.step.getD 1 = 1) :
    ∃ m', m.indexLength junk (.slice s) = .ok m' ∧ ∀ k r, m.row k = some r → ∃ r', m'.row k = some r' ∧
      r'.len = if sliceLo n s ≤ sliceHi n s then keptData (slicePos n s) r.len else sliceHi n s - sliceLo n s := by
  by_cases hle : sliceLo n s ≤ sliceHi n s
  · obtain ⟨m', h1, h2⟩ := C05_length_slice junk m hm n hn s hs hle
    refine ⟨m', h1, fun k r hr => ⟨_, h2.2.2.2 k r hr, ?_⟩⟩
    simp [keepRow, hle]
  · obtain ⟨m', h1, -, -, h2⟩ := init_map m hm
      (fun b => b && (decide (sliceLo n s = 0) && decide (sliceHi n s > 0)))
      (fun e l => (e && decide (sliceLo n s < l)) && decide (l ≤ sliceHi n s))
      (fun l => clip 0 (sliceHi n s - sliceLo n s) (l - sliceLo n s))
    refine ⟨m', ?_, fun k r hr => ⟨_, h2.2.2.2 k r hr, ?_⟩⟩
    · show m.indexLengthSlice s = _
      rw [slice_unit_eq hn s hs, ← h1]
      unfold indexLengthSlice.finish Numba.updateEosFromSlice
      rw [keepSos_eq]
    · simp only [if_neg hle, clip]
      omega

example : ex3.WF ∧ ex3.Longest 4 ∧ ¬ sliceLo 4 { start := some 3, stop := some 1 } ≤ sliceHi 4 { start := some 3, stop := some 1 } := by decide

/-- **C07 is false of the code.** The stop of a strided slice is ignored: `x[..., 0:2:2]` of a row with five frames
keeps frame 0 only but reports length 3. -/
theorem C07_strided_false :
    ∃ (m : Meta) (n : Nat), m.WF ∧ m.Longest n ∧ ∃ s : Slice, 2 ≤ s.step.getD 1 ∧ ∃ m', m.indexLength 0 (.slice s) = .ok m' ∧
      ¬ m.MapsRows (spanRow (slicePos n s)) m' := by
  refine ⟨⟨["a"], [true], [true], [5], none⟩, 5, by decide, by decide,
    { start := some 0, stop := some 2, step := some 2 }, by decide, _, rfl, ?_⟩
  rintro ⟨-, -, -, h⟩
  exact absurd (h 0 _ rfl) (by decide)

theorem ceil_count (N lo l c : Int) (hc : 0 < c) (hlo : lo ≤ N) (hl : l ≤ N) :
    ceilDiv (clip 0 (N - (N - 1 - lo) % c - lo) (l - lo)) c = max 0 ((min N l - lo + c - 1) / c) := by
  have h1 := Int.emod_nonneg (N - 1 - lo) (by omega : c ≠ 0)
  have h2 := Int.emod_lt_of_pos (N - 1 - lo) hc
  have h3 := Int.mul_ediv_add_emod (N - 1 - lo) c
  rw [show min N l = l by omega]
  generalize (N - 1 - lo) % c = r at *
  unfold ceilDiv clip
  by_cases hN : lo = N
  · subst hN
    have hr : r = c - 1 := by
      have : lo - 1 - lo = -1 := by omega
      rw [this] at h3
      have hq : (-1 : Int) / c = -1 := by
        rw [Int.neg_one_ediv]; simp [Int.sign_eq_one_of_pos hc]
      rw [hq] at h3; omega
    subst hr
    rw [show min (max (l - lo) 0) (lo - (c - 1) - lo) = 1 - c by omega]
    have ha : (-(1 - c)) / c = 0 := Int.ediv_eq_zero_of_lt (by omega) (by omega)
    rw [ha]
    have : (l - lo + c - 1) / c ≤ 0 := by
      have : (l - lo + c - 1) / c < 1 := Int.ediv_lt_of_lt_mul hc (by omega)
      omega
    omega
  · have hq0 : 0 ≤ (N - 1 - lo) / c := Int.ediv_nonneg (by omega) (by omega)
    generalize hq : (N - 1 - lo) / c = q at *
    have hq0' : 0 ≤ c * q := Int.mul_nonneg (by omega) hq0
    by_cases hl0 : l ≤ lo
    · rw [show min (max (l - lo) 0) (N - r - lo) = 0 by omega]
      have : (l - lo + c - 1) / c ≤ 0 := by
        have : (l - lo + c - 1) / c < 1 := Int.ediv_lt_of_lt_mul hc (by omega)
        omega
      simp; omega
    · by_cases hbig : c * q + 1 ≤ l - lo
      · rw [show min (max (l - lo) 0) (N - r - lo) = c * q + 1 by omega]
        have e1 : (-(c * q + 1)) / c = -(q + 1) := by
          rw [show -(c * q + 1) = (c - 1) + c * (-(q + 1)) by rw [Int.mul_neg, Int.mul_add]; omega,
            Int.add_mul_ediv_left _ _ (by omega), Int.ediv_eq_zero_of_lt (by omega) (by omega)]; omega
        have e2 : (l - lo + c - 1) / c = q + 1 := by
          rw [show l - lo + c - 1 = (l - lo - 1 - c * q) + c * (q + 1) by rw [Int.mul_add]; omega,
            Int.add_mul_ediv_left _ _ (by omega), Int.ediv_eq_zero_of_lt (by omega) (by omega)]; omega
        rw [e1, e2]; omega
      · rw [show min (max (l - lo) 0) (N - r - lo) = l - lo by omega]
        have := Int.mul_ediv_add_emod (-(l - lo)) c
        have g1 := Int.emod_nonneg (-(l - lo)) (by omega : c ≠ 0)
        have g2 := Int.emod_lt_of_pos (-(l - lo)) hc
        generalize (-(l - lo)) / c = z at *
        have e2 : (l - lo + c - 1) / c = -z := by
          rw [show l - lo + c - 1 = (c - 1 - (-(l - lo)) % c) + c * (-z) by rw [Int.mul_neg]; omega,
            Int.add_mul_ediv_left _ _ (by omega), Int.ediv_eq_zero_of_lt (by omega) (by omega)]; omega
        rw [e2]
        have : 0 ≤ -z := by
          rw [← e2]; exact Int.ediv_nonneg (by omega) (by omega)
        omega

/-- C07, exactly what the code does with every strided slice: rows are described as if the slice had no stop bound.
Missing: the stop bound. -/
theorem C07_no_stop_partial (junk : Int) (m : Meta) (hm : m.WF) (n : Nat) (hn : m.Longest n) (s : Slice)
    (hs : 2 ≤ s.step.getD 1) :
    ∃ m', m.indexLength junk (.slice s) = .ok m' ∧ m.MapsRows (spanRow (slicePos n { s with stop := none })) m' := by
  have hlo := sliceLo_range n s
  generalize hc : s.step.getD 1 = c at hs
  let stop : Int := n - (n - 1 - sliceLo n s) % c
  obtain ⟨m', h1, -, -, h2⟩ := init_map m hm
    (fun b => b && (decide (sliceLo n s = 0) && decide (stop > 0)))
    (fun e l => (e && decide (sliceLo n s < l)) && decide (l ≤ stop))
    (fun l => ceilDiv (clip 0 (stop - sliceLo n s) (l - sliceLo n s)) c)
  refine ⟨m', ?_, h2.congr ?_⟩
  · show m.indexLengthSlice s = _
    unfold indexLengthSlice
    rw [hn.max, Except.bind_ok', indices_pos s n (by omega), Except.bind_ok']
    simp only [hc]
    rw [if_neg (by omega), if_neg (by omega), ← h1]
    unfold indexLengthSlice.finish Numba.updateEosFromSlice
    rw [keepSos_eq]
  · intro k r hr
    obtain ⟨hr0, hrn⟩ := row_bounds hn hr
    unfold spanRow keepsFirst spansLast
    rw [any_decide_iff, any_decide_iff, keptData_slice n { s with stop := none } _ (by simp only [hc]; omega)]
    have e1 : sliceLo n { s with stop := none } = sliceLo n s := rfl
    have e2 : sliceHi n { s with stop := none } = n := rfl
    have hmem : ∀ j : Nat, j ∈ slicePos n { s with stop := none } ↔
        sliceLo n s ≤ j ∧ (j : Int) < n ∧ ((j : Int) - sliceLo n s) % c = 0 := by
      intro j; rw [mem_slicePos', e1, e2]; simp only [hc]
    simp only [hmem, hc, e1, e2]
    have g1 := Int.emod_nonneg ((n : Int) - 1 - sliceLo n s) (by omega : c ≠ 0)
    have g2 := Int.emod_lt_of_pos ((n : Int) - 1 - sliceLo n s) (by omega : 0 < c)
    have g3 := Int.mul_ediv_add_emod ((n : Int) - 1 - sliceLo n s) c
    -- the last kept position
    have glast : sliceLo n s < n → (stop - 1 - sliceLo n s) % c = 0 ∧ sliceLo n s ≤ stop - 1 := by
      intro hlt
      have hq0 : 0 ≤ (n - 1 - sliceLo n s) / c := Int.ediv_nonneg (by omega) (by omega)
      have hq0' : 0 ≤ c * (((n : Int) - 1 - sliceLo n s) / c) := Int.mul_nonneg (by omega) hq0
      have : stop - 1 - sliceLo n s = c * (((n : Int) - 1 - sliceLo n s) / c) := by omega
      refine ⟨by rw [this]; exact Int.mul_emod_right _ _, by omega⟩
    have gmax : ∀ j : Nat, sliceLo n s ≤ j → (j : Int) < n → ((j : Int) - sliceLo n s) % c = 0 → (j : Int) ≤ stop - 1 := by
      intro j a1 a2 a3
      have b3 := Int.mul_ediv_add_emod ((j : Int) - sliceLo n s) c
      by_contra hcon
      have hb : (j : Int) - sliceLo n s > c * (((n : Int) - 1 - sliceLo n s) / c) := by omega
      have hb2 : (j : Int) - sliceLo n s < c * (((n : Int) - 1 - sliceLo n s) / c) + c := by omega
      rw [a3] at b3
      have hx : c * (((j : Int) - sliceLo n s) / c) > c * (((n : Int) - 1 - sliceLo n s) / c) := by omega
      have hx1 := Int.lt_of_mul_lt_mul_left hx (by omega)
      have hx2 : c * (((n : Int) - 1 - sliceLo n s) / c + 1) ≤ c * (((j : Int) - sliceLo n s) / c) :=
        Int.mul_le_mul_of_nonneg_left (by omega) (by omega)
      rw [Int.mul_add] at hx2
      omega
    congr 1
    · rw [← Bool.decide_and]
      congr 1
      rw [decide_eq_decide]
      constructor
      · rintro ⟨a, b⟩
        refine ⟨by omega, ?_, by simp [a]⟩
        by_contra hcon
        have hn0 : n = 0 := by omega
        have : ((n : Int) - 1 - sliceLo n s) = -1 := by omega
        rw [this] at g3
        have hq : (-1 : Int) / c = -1 := by
          rw [Int.neg_one_ediv]; simp [Int.sign_eq_one_of_pos (by omega : 0 < c)]
        rw [hq] at g3
        omega
      · rintro ⟨a, b, -⟩
        have := glast (by omega)
        omega
    · rw [Bool.and_assoc, ← Bool.decide_and, ← Bool.decide_and]
      congr 1
      rw [decide_eq_decide]
      simp only [hmem]
      constructor
      · intro h
        have := glast (by omega)
        refine ⟨⟨(stop - 1).toNat, ?_, by omega⟩, ⟨(sliceLo n s).toNat, ?_, by omega⟩⟩
        · rw [Int.toNat_of_nonneg (by omega)]; exact ⟨by omega, by omega, this.1⟩
        · rw [Int.toNat_of_nonneg (by omega)]; exact ⟨by omega, by omega, by simp⟩
      · rintro ⟨⟨j, ⟨a1, a2, a3⟩, a4⟩, ⟨i, ⟨b1, b2, b3⟩, b4⟩⟩
        have := gmax j a1 a2 a3
        omega
    · exact ceil_count _ _ _ _ (by omega) (by omega) hrn

example : ex3.WF ∧ ex3.Longest 4 ∧
    ex3.indexLength 0 (.slice { start := some 0, stop := some 2, step := some 3 }) =
      .ok ⟨["a", "b", "c"], [true, false, false], [false, false, true], [2, 1, 1], some [0, 5, 7]⟩ := by decide

/-- C07 when the stop bound cuts nothing off (it is absent, or at or beyond the last position that the start and the
step reach): lengths, sos and eos are as the property demands. Missing: any stop that excludes a position (what the
code does then is `C07_no_stop_partial`). -/
theorem C07_strided_partial (junk : Int) (m : Meta) (hm : m.WF) (n : Nat) (hn : m.Longest n) (s : Slice)
    (hs : 2 ≤ s.step.getD 1) (hcut : slicePos n s = slicePos n { s with stop := none }) :
    ∃ m', m.indexLength junk (.slice s) = .ok m' ∧ m.MapsRows (spanRow (slicePos n s)) m' := by
  rw [hcut]
  exact C07_no_stop_partial junk m hm n hn s hs

example : ex3.WF ∧ ex3.Longest 4 ∧ slicePos 4 { start := some 1, stop := some 4, step := some 2 } =
    slicePos 4 { start := some 1, stop := none, step := some 2 } ∧
    ex3.indexLength 0 (.slice { start := some 1, stop := some 4, step := some 2 }) =
      .ok ⟨["a", "b", "c"], [false, false, false], [false, false, true], [2, 1, 1], some [0, 5, 7]⟩ := by decide

/-- **C08.** Negative steps along length raise NotImplementedError and step 0 raises ValueError, for every metadata
object with at least one row. -/
theorem C08_negative_step (junk : Int) (m : Meta) (n : Nat) (hn : m.Longest n) (s : Slice) :
    (s.step.getD 1 < 0 → m.indexLength junk (.slice s) = .error .notImplementedError) ∧
    (s.step.getD 1 = 0 → m.indexLength junk (.slice s) = .error .valueError) := by
  have h0 : ¬ ((n : Int) < 0) := by omega
  constructor
  · intro h
    show m.indexLengthSlice s = _
    unfold indexLengthSlice Slice.indices
    rw [hn.max, Except.bind_ok']
    simp only [if_neg h0, if_neg (by omega : ¬ s.step.getD 1 = 0), Except.bind_ok', if_pos h]
  · intro h
    show m.indexLengthSlice s = _
    unfold indexLengthSlice Slice.indices
    rw [hn.max, Except.bind_ok']
    simp only [if_neg h0, if_pos h, Except.bind_error']

example : ex3.Longest 4 ∧ ex3.indexLength 0 (.slice { step := some (-1) }) = .error .notImplementedError := by decide

/-- **C09.** An in-range integer `i` along length (negative counted from the longest row's end), naming frame `p`. -/
theorem C09_length_int (junk : Int) (m : Meta) (hm : m.WF) (n : Nat) (hn : m.Longest n) (i : Int) (p : Nat)
    (hi : posOf n i = some p) :
    ∃ m', m.indexLength junk (.int i) = .ok m' ∧ m.MapsRows (fun r =>
      { r with
        len := if (p : Int) < r.len then 1 else 0
        sos := r.sos && decide (p = 0)
        eos := r.eos && decide ((p : Int) = r.len - 1 ∨ r.len ≤ p) }) m' := by
  obtain ⟨m', h1, -, -, h2⟩ := init_map m hm (fun b => b && decide ((p : Int) = 0))
    (fun e l => e && decide (l ≤ (p : Int) + 1)) (fun l => clip 0 1 (l - p))
  refine ⟨m', ?_, h2.congr ?_⟩
  · show m.indexLengthInt i = _
    have hi' : i = p ∧ 0 ≤ i ∨ (n : Int) + i = p ∧ i < 0 := by
      unfold posOf at hi
      split at hi
      · simp at hi; omega
      · split at hi
        · simp at hi; omega
        · simp at hi
    unfold indexLengthInt
    rcases hi' with ⟨rfl, h0⟩ | ⟨e, h0⟩
    · simp only [if_neg (by omega : ¬ (p : Int) < 0), Except.bind_ok', keepSos_eq, Numba.updateEosFromInteger]
      exact h1
    · simp only [if_pos h0, hn.max, Except.bind_ok', e, keepSos_eq, Numba.updateEosFromInteger]
      exact h1
  · intro k r hr
    congr 1
    · congr 1; rw [decide_eq_decide]; omega
    · congr 1; rw [decide_eq_decide]; omega
    · unfold clip; split <;> omega

example : ex3.WF ∧ ex3.Longest 4 ∧ posOf 4 (-2) = some 2 ∧ ex3.indexLength 0 (.int (-2)) =
    .ok ⟨["a", "b", "c"], [false, false, false], [false, false, true], [1, 0, 1], some [0, 5, 7]⟩ := by decide

/-- What the code computes for a non-empty non-decreasing list of (already non-negative) positions. -/
theorem list_core (junk : Int) (m : Meta) (hm : m.WF) (n : Int) (hmax : m.maxLength = .ok n) (is : List Int) (ps : List Nat)
    (his : Numba.makeIndicesPositive is n = ps.map (fun (j : Nat) => (j : Int))) (hs : ps.Pairwise (· ≤ ·)) (hne : ps ≠ []) :
    ∃ m', m.indexLengthList junk is = .ok m' ∧ m.MapsRows (fun r =>
      { r with
        len := keptData ps r.len
        sos := r.sos && keepsFirst ps
        eos := r.eos && (ps.any fun j => decide ((j : Int) < r.len)) && (ps.any fun j => decide (r.len ≤ (j : Int))) }) m' := by
  obtain ⟨xs, hxdef⟩ : ∃ xs : List Int, xs = ps.map (fun (j : Nat) => (j : Int)) := ⟨_, rfl⟩
  have hxs : xs.Pairwise (· ≤ ·) := by
    rw [hxdef, List.pairwise_map]
    exact hs.imp (fun h => by omega)
  have hxne : xs ≠ [] := by simpa [hxdef] using hne
  have hmm := minmax_sorted' junk xs hxne hxs
  have hhead := head_le_of_pairwise xs hxne hxs
  have hlast := le_getLast_of_pairwise xs hxne hxs
  obtain ⟨m', h1, -, -, h2⟩ := init_map m hm (fun b => b && decide (xs.head hxne = 0))
    (fun e l => (e && decide (xs.head hxne < l)) && decide (l ≤ xs.getLast hxne)) (keptData ps)
  refine ⟨m', ?_, h2.congr ?_⟩
  · unfold indexLengthList
    rw [hmax, Except.bind_ok', his]
    have : Numba.isSortedAscending xs = true := (sorted_iff xs).2 hxs
    have hu := updateLengths_eq m.lengths ps
    rw [← hxdef] at hu
    simp only [← hxdef, this, hmm, hu, keepSos_eq, Numba.updateEosFromSlice]
    simpa using h1
  · intro k r hr
    have hmem : ∀ j : Nat, (j : Int) ∈ xs ↔ j ∈ ps := by
      intro j; rw [hxdef, List.mem_map]
      constructor
      · rintro ⟨a, ha, hb⟩
        have : a = j := by omega
        rw [← this]; exact ha
      · exact fun h => ⟨j, h, rfl⟩
    have hnat : ∀ x ∈ xs, ∃ j : Nat, j ∈ ps ∧ (j : Int) = x := by
      intro x hx; rw [hxdef, List.mem_map] at hx; exact hx
    have hhm : xs.head hxne ∈ xs := List.head_mem _
    have hlm : xs.getLast hxne ∈ xs := List.getLast_mem _
    congr 1
    · congr 1
      unfold keepsFirst
      rw [decide_eq_decide]
      constructor
      · intro h; rw [← hmem]; rw [h] at hhm; simpa using hhm
      · intro h
        rw [← hmem] at h
        have := hhead _ h
        have : 0 ≤ xs.head hxne := by
          obtain ⟨a, _, ha⟩ := hnat _ hhm; omega
        omega
    · rw [any_decide_iff, any_decide_iff]
      congr 1
      · congr 1
        rw [decide_eq_decide]
        constructor
        · intro h
          obtain ⟨a, ha, ha2⟩ := hnat _ hhm
          exact ⟨a, ha, by rw [ha2]; exact h⟩
        · rintro ⟨j, hj, hj2⟩
          have := hhead j ((hmem j).2 hj); omega
      · rw [decide_eq_decide]
        constructor
        · intro h
          obtain ⟨a, ha, ha2⟩ := hnat _ hlm
          exact ⟨a, ha, by rw [ha2]; exact h⟩
        · rintro ⟨j, hj, hj2⟩
          have := hlast j ((hmem j).2 hj); omega

theorem pos_ne_nil {n : Nat} {is : List Int} {ps : List Nat} (hp : positions n is = some ps) (hne : is ≠ []) : ps ≠ [] := by
  cases is with
  | nil => exact absurd rfl hne
  | cons i r =>
    simp only [positions] at hp
    split at hp
    · simp at hp; simp [← hp]
    · simp at hp

/-- **C10.** A non-empty list of in-range positions along length. If the positions (negative ones counted from the end)
are non-decreasing, each row's length is its number of picked data positions, these are the leading positions of the
result, and sos survives iff frame 0 was picked; otherwise IndexError is raised. -/
theorem C10_length_list (junk : Int) (m : Meta) (hm : m.WF) (n : Nat) (hn : m.Longest n) (is : List Int) (hne : is ≠ [])
    (ps : List Nat) (hp : positions n is = some ps) :
    (ps.Pairwise (· ≤ ·) → ∃ m', m.indexLength junk (.list is) = .ok m' ∧ m'.WF ∧ m'.ids.length = m.ids.length ∧
      ∀ k r, m.row k = some r → ∃ r', m'.row k = some r' ∧ r'.id = r.id ∧ r'.chunk = r.chunk ∧
        r'.len = keptData ps r.len ∧ r'.sos = (r.sos && keepsFirst ps) ∧
        ∀ (t p : Nat), ps[t]? = some p → ((t : Int) < r'.len ↔ (p : Int) < r.len)) ∧
    (¬ ps.Pairwise (· ≤ ·) → m.indexLength junk (.list is) = .error .indexError) := by
  have hmk := positions_makePositive n is ps hp
  constructor
  · intro hs
    obtain ⟨m', h1, h2⟩ := list_core junk m hm n hn.max is ps hmk hs (pos_ne_nil hp hne)
    refine ⟨m', h1, h2.1, h2.2.1, fun k r hr => ⟨_, h2.2.2.2 k r hr, rfl, rfl, rfl, rfl, ?_⟩⟩
    clear h2 h1 hmk hp
    simp only [keptData]
    induction ps with
    | nil => simp
    | cons a ps ih =>
      rw [List.pairwise_cons] at hs
      have ih := ih hs.2
      intro t p ht
      by_cases ha : (a : Int) < r.len
      · simp only [List.filter_cons, ha, decide_true, if_true, List.length_cons]
        cases t with
        | zero => simp at ht; subst ht; simp [ha]
        | succ t =>
          simp at ht
          have := ih t p ht
          push_cast at this ⊢
          omega
      · have hnil : ps.filter (fun (j : Nat) => decide ((j : Int) < r.len)) = [] := by
          rw [List.filter_eq_nil_iff]
          intro j hj
          have := hs.1 j hj
          simp; omega
        simp only [List.filter_cons, ha, decide_false, hnil]
        have : a ≤ p := by
          cases t with
          | zero => simp at ht; omega
          | succ t => simp at ht; exact hs.1 p (List.mem_of_getElem? ht)
        simp; omega
  · intro hs
    show m.indexLengthList junk is = _
    unfold indexLengthList
    rw [hn.max, Except.bind_ok', hmk]
    have : Numba.isSortedAscending (ps.map (fun (j : Nat) => (j : Int))) = false := by
      rw [Bool.eq_false_iff, ne_eq, sorted_iff, List.pairwise_map]
      intro h
      exact hs (h.imp (fun h => by omega))
    simp [this]

example : ex3.WF ∧ ex3.Longest 4 ∧ positions 4 [0, 0, 2, -1] = some [0, 0, 2, 3] ∧
    ex3.indexLength 0 (.list [0, 0, 2, -1]) =
    .ok ⟨["a", "b", "c"], [true, false, false], [false, false, true], [4, 2, 3], some [0, 5, 7]⟩ := by decide
example : positions 4 [-1, 0] = some [3, 0] ∧ ex3.indexLength 0 (.list [-1, 0]) = .error .indexError := by decide

/-- **C11 is false of the code.** Picking all three frames of an ending row of three frames loses its eos flag. -/
theorem C11_list_eos_false :
    ∃ (m : Meta) (n : Nat), m.WF ∧ m.Longest n ∧ ∃ is ps, positions n is = some ps ∧ ∃ m', m.indexLength 0 (.list is) = .ok m' ∧
      ∃ k r r', m.row k = some r ∧ r.eos = true ∧ keepsLast ps r.len = true ∧ m'.row k = some r' ∧ r'.eos = false := by
  refine ⟨⟨["a"], [true], [true], [3], none⟩, 3, by decide, by decide, [0, 1, 2], [0, 1, 2], by decide, _, rfl,
    0, _, _, rfl, rfl, by decide, rfl, by decide⟩

/-- C11, exact description of what the code keeps: eos survives iff some picked position holds data of the row and some
picked position lies in the row's padding. So the last frame of the longest row never keeps its eos. Missing: the eos of rows without padding among the picked positions (`C11_list_eos_false`). -/
theorem C11_list_eos_partial (junk : Int) (m : Meta) (hm : m.WF) (n : Nat) (hn : m.Longest n) (is : List Int) (hne : is ≠ [])
    (ps : List Nat) (hp : positions n is = some ps) (hs : ps.Pairwise (· ≤ ·)) :
    ∃ m', m.indexLength junk (.list is) = .ok m' ∧ ∀ k r, m.row k = some r → ∃ r', m'.row k = some r' ∧
      r'.eos = (r.eos && (ps.any fun j => decide ((j : Int) < r.len)) && (ps.any fun j => decide (r.len ≤ (j : Int)))) := by
  obtain ⟨m', h1, h2⟩ := list_core junk m hm n hn.max is ps (positions_makePositive n is ps hp) hs (pos_ne_nil hp hne)
  exact ⟨m', h1, fun k r hr => ⟨_, h2.2.2.2 k r hr, rfl⟩⟩

example : ex3.WF ∧ ex3.Longest 4 ∧ positions 4 [2, 3] = some [2, 3] ∧ [2, 3].Pairwise (· ≤ ·) := by decide

/-- **C12.** A 1-D bool mask along length with a True entry is the ascending list of its True positions: same metadata,
never an error. Lengths count the True positions that hold data, sos survives iff position 0 is True. -/
theorem C12_length_mask (junk : Int) (m : Meta) (hm : m.WF) (n : Nat) (hn : m.Longest n) (bs : List Bool) (ht : true ∈ bs) :
    m.indexLength junk (.mask bs) = m.indexLength junk (.list ((truePos bs).map fun (j : Nat) => (j : Int))) ∧
    ∃ m', m.indexLength junk (.mask bs) = .ok m' ∧ ∀ k r, m.row k = some r → ∃ r', m'.row k = some r' ∧
      r'.id = r.id ∧ r'.chunk = r.chunk ∧ r'.len = keptData (truePos bs) r.len ∧ r'.sos = (r.sos && (bs[0]? == some true)) := by
  have hnz : nonzeroFrom 0 bs = (truePos bs).map fun (j : Nat) => (j : Int) := by
    have := nonzeroFrom_eq bs 0
    simpa using this
  have hne : truePos bs ≠ [] := by
    obtain ⟨j, hj⟩ := List.getElem?_of_mem ht
    have : j ∈ truePos bs := by
      simp only [truePos, List.mem_filter, List.mem_range, hj]
      refine ⟨?_, by simp⟩
      by_contra hcon
      rw [List.getElem?_eq_none (by omega)] at hj; simp at hj
    exact List.ne_nil_of_mem this
  refine ⟨by show m.indexLengthList _ _ = m.indexLengthList _ _; rw [hnz], ?_⟩
  have hpos : Numba.makeIndicesPositive ((truePos bs).map fun (j : Nat) => (j : Int)) n = (truePos bs).map fun (j : Nat) => (j : Int) := by
    unfold Numba.makeIndicesPositive
    rw [List.map_map]
    apply List.map_congr_left
    intro j _
    simp
  obtain ⟨m', h1, h2⟩ := list_core junk m hm n hn.max _ _ hpos ((truePos_sorted bs).imp (fun h => by omega)) hne
  refine ⟨m', by show m.indexLengthList _ _ = _; rw [hnz]; exact h1, fun k r hr => ⟨_, h2.2.2.2 k r hr, rfl, rfl, rfl, ?_⟩⟩
  simp only [keepsFirst]
  congr 1
  rw [Bool.eq_iff_iff]
  simp only [decide_eq_true_eq, truePos, List.mem_filter, List.mem_range]
  constructor
  · exact fun h => h.2
  · intro h
    refine ⟨?_, h⟩
    cases bs <;> simp_all

example : ex3.WF ∧ ex3.Longest 4 ∧ true ∈ [true, false, true, false] ∧ ex3.indexLength 0 (.mask [true, false, true, false]) =
    .ok ⟨["a", "b", "c"], [true, false, false], [false, false, false], [2, 1, 2], some [0, 5, 7]⟩ := by decide

/-- **C86 is false of the code.** `minmax` of an empty list reads an element that does not exist; if that memory
holds 0, a starting row stays "starting" although nothing of it was kept. -/
theorem C86_empty_selection_false :
    ∃ (m : Meta) (n : Nat), m.WF ∧ m.Longest n ∧ ∃ junk m', m.indexLength junk (.list []) = .ok m' ∧ ∃ k r,
      m'.row k = some r ∧ r.sos = true := by
  refine ⟨ex3, 4, by decide, by decide, 0, _, rfl, 0, _, rfl, by decide⟩

/-- C86: the lengths are 0, ids and chunk indices are kept and eos is False whatever is read; sos is False unless the
unchecked read happens to give 0. Missing: sos is False in that case. -/
theorem C86_empty_selection_partial (junk : Int) (m : Meta) (hm : m.WF) (n : Nat) (hn : m.Longest n) (idx : LIx)
    (hidx : idx = .list [] ∨ ∃ bs, idx = .mask bs ∧ true ∉ bs) :
    ∃ m', m.indexLength junk idx = .ok m' ∧
      m.MapsRows (fun r => { r with len := 0, eos := false, sos := r.sos && decide (junk = 0) }) m' := by
  have key : ∃ m', m.indexLengthList junk [] = .ok m' ∧
      m.MapsRows (fun r => { r with len := 0, eos := false, sos := r.sos && decide (junk = 0) }) m' := by
    obtain ⟨m', h1, -, -, h2⟩ := init_map m hm (fun b => b && decide (junk = 0))
      (fun e l => (e && decide (junk < l)) && decide (l ≤ junk)) (fun _ => 0)
    refine ⟨m', ?_, h2.congr ?_⟩
    · unfold indexLengthList
      rw [hn.max, Except.bind_ok', ← h1]
      simp [Numba.makeIndicesPositive, Numba.isSortedAscending, Numba.minmax, Numba.updateLengthsFromList, keepSos_eq,
        Numba.updateEosFromSlice]
    · intro k r _
      congr 1
      rw [Bool.and_assoc, ← Bool.decide_and]
      simp
  rcases hidx with rfl | ⟨bs, rfl, hb⟩
  · exact key
  · have : nonzeroFrom 0 bs = [] := by
      have := nonzeroFrom_eq bs 0
      rw [show ((0 : Nat) : Int) = 0 from rfl] at this
      rw [this]; simp only [List.map_eq_nil_iff, truePos, List.filter_eq_nil_iff]
      intro j _ h
      simp at h
      exact hb (List.mem_of_getElem? h)
    show ∃ m', m.indexLengthList junk (nonzeroFrom 0 bs) = _ ∧ _
    rw [this]; exact key

example : ex3.WF ∧ ex3.Longest 4 ∧ true ∉ [false, false] ∧ ex3.indexLength 7 (.mask [false, false]) =
    .ok ⟨["a", "b", "c"], [false, false, false], [false, false, false], [0, 0, 0], some [0, 5, 7]⟩ := by decide

/-- **C14.** Successive unit-step slices with non-negative bounds compose, with equal metadata as result. -/
theorem C14_slices_compose (junk : Int) (m : Meta) (hm : m.WF) (n : Nat) (hn : m.Longest n) (a b c d : Nat)
    (hab : a ≤ b) (hcd : c ≤ d) (hin : a + c ≤ b) :
    (do let m' ← m.indexLength junk (.slice { start := some a, stop := some b }); m'.indexLength junk (.slice { start := some c, stop := some d }))
      = m.indexLength junk (.slice { start := some ((a + c : Nat) : Int), stop := some ((min b (a + d) : Nat) : Int) }) := by
  have hb : ∀ (N x : Nat), boundOf N x = min (x : Int) N := by
    intro N x; unfold boundOf; split <;> omega
  have hlo : ∀ (N x : Nat) (y : Option Int), sliceLo N { start := some (x : Int), stop := y } = min (x : Int) N := by
    intro N x y; simp [sliceLo, hb]
  have hhi : ∀ (N x : Nat) (y : Option Int), sliceHi N { start := y, stop := some (x : Int) } = min (x : Int) N := by
    intro N x y; simp [sliceHi, hb]
  show (do let m' ← m.indexLengthSlice _; m'.indexLengthSlice _) = m.indexLengthSlice _
  rw [slice_unit_eq hn _ rfl, slice_unit_eq hn _ rfl]
  simp only [hlo, hhi]
  let f : Int → Int := fun l => clip 0 (min (b : Int) n - min (a : Int) n) (l - min (a : Int) n)
  let m1 : Meta := ⟨m.ids, m.sos.map (fun x => x && (decide (min (a : Int) n = 0) && decide (min (b : Int) n > 0))),
    List.zipWith (fun e l => (e && decide (min (a : Int) n < l)) && decide (l ≤ min (b : Int) n)) m.eos m.lengths,
    m.lengths.map f, m.chunk⟩
  have e1 : indexLengthSlice.finish m (min (a : Int) n) (min (b : Int) n) (m.lengths.map f) = .ok m1 := by
    unfold indexLengthSlice.finish Numba.updateEosFromSlice
    rw [keepSos_eq]
    exact init_ok (by simp [hm.1]) (by simp [hm.2.1, hm.2.2.1]) (by simp [hm.2.2.1])
  have hn1 : m1.Longest (min n b - a) := by
    refine ⟨?_, ?_⟩
    · refine List.mem_map.2 ⟨n, hn.1, ?_⟩
      simp only [f, clip]; omega
    · intro l hl
      obtain ⟨l0, h0, rfl⟩ := List.mem_map.1 hl
      have := hn.2 l0 h0
      simp only [f, clip]; omega
  rw [e1, Except.bind_ok', slice_unit_eq hn1 _ rfl]
  simp only [hlo, hhi]
  unfold indexLengthSlice.finish Numba.updateEosFromSlice
  simp only [keepSos_eq]
  simp only [m1, f]
  congr 1
  · rw [List.map_map]
    apply List.map_congr_left
    intro x _
    simp only [Function.comp_apply, Bool.and_assoc]
    congr 1
    simp only [← Bool.decide_and]
    rw [decide_eq_decide]; omega
  · rw [List.zipWith_map_right]
    have : ∀ (es : List Bool) (ls : List Int), (∀ l ∈ ls, 0 ≤ l ∧ l ≤ n) → List.zipWith (fun e l =>
        e && decide (min (c : Int) ((min n b - a : Nat) : Int) < clip 0 (min (b : Int) n - min (a : Int) n) (l - min (a : Int) n)) &&
          decide (clip 0 (min (b : Int) n - min (a : Int) n) (l - min (a : Int) n) ≤ min (d : Int) ((min n b - a : Nat) : Int)))
        (List.zipWith (fun e l => e && decide (min (a : Int) n < l) && decide (l ≤ min (b : Int) n)) es ls) ls =
        List.zipWith (fun e l => e && decide (min ((a + c : Nat) : Int) n < l) && decide (l ≤ min ((min b (a + d) : Nat) : Int) n)) es ls := by
      intro es
      induction es with
      | nil => intros; simp
      | cons e es ih =>
        intro ls hls
        cases ls with
        | nil => simp
        | cons l ls =>
          simp only [List.zipWith_cons_cons]
          congr 1
          · simp only [Bool.and_assoc]
            congr 1
            simp only [← Bool.decide_and]
            rw [decide_eq_decide]
            have := hls l (by simp)
            unfold clip
            omega
          · exact ih ls (fun x hx => hls x (by simp [hx]))
    exact this m.eos m.lengths hn.2
  · rw [List.map_map]
    apply List.map_congr_left
    intro l hl
    have := hn.2 l hl
    simp only [Function.comp_apply, clip]
    omega

example : ex3.WF ∧ ex3.Longest 4 ∧ 1 ≤ 4 ∧ 1 ≤ 2 ∧ 1 + 1 ≤ 4 ∧
    (do let m' ← ex3.indexLength 0 (.slice { start := some 1, stop := some 4 }); m'.indexLength 0 (.slice { start := some 1, stop := some 2 }))
    = .ok ⟨["a", "b", "c"], [false, false, false], [false, false, true], [1, 0, 1], some [0, 5, 7]⟩ := by decide

end DS.Meta
