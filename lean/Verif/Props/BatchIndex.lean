import Verif.Lemmas.Gather
/-! # C01, C02, C03, C85: batch indexing of metadata -/

namespace DS.Meta

/-- **C01.** For every well-formed metadata object and every batch index of a supported kind, indexing raises exactly the
required exception or returns exactly the selected rows, all columns together, in selection order. -/
theorem C01_index_batch (m : Meta) (hm : m.WF) (b : BIx) (spec : Py (List Nat)) (hb : batchSel m.ids.length b = some spec) :
    m.Meets spec (m.indexBatch b) := by
  obtain ⟨h1, h2, h3, h4⟩ := hm
  have hm : m.WF := ⟨h1, h2, h3, h4⟩
  have hgather : ∀ is, m.Meets (orIndexError (positions m.ids.length is)) (indexBatch.gather m is) := by
    intro is
    unfold indexBatch.gather
    simp only [pyGather_eq, h1, h2, h3]
    cases hp : positions m.ids.length is with
    | none => simp [Except.bind_error', Meets, orIndexError, Except.map]
    | some ks =>
      have hlt := positions_lt hp
      refine ⟨m.pick ks, ?_, pick_selects m hm ks hlt⟩
      simp only [orIndexError_some, map_ok', Except.bind_ok']
      have : onChunk (fun x => Except.map (gath x) (orIndexError (positions x.length is))) m.chunk
          = .ok (m.chunk.map (gath · ks)) := by
        cases hc : m.chunk with
        | none => rfl
        | some c => simp [onChunk, h4 c hc, hp, Except.bind_ok', orIndexError, Except.map]
      rw [this, Except.bind_ok', init_pick m hm ks hlt]
  cases b with
  | none =>
    simp only [batchSel, Option.some.injEq] at hb; subst hb
    refine ⟨m, rfl, ?_⟩
    have := pick_selects m hm (List.range m.ids.length) (by simp)
    have e : m.pick (List.range m.ids.length) = m := by
      unfold pick
      have a := gath_range m.ids
      have b := gath_range m.sos
      have c := gath_range m.eos
      have d := gath_range m.lengths
      rw [h1] at b; rw [h2] at c; rw [h3] at d
      rw [a, b, c, d]
      cases hc : m.chunk with
      | none => cases m; simp_all
      | some c => 
        have := gath_range c
        rw [h4 c hc] at this
        simp [this]
        cases m; simp_all
    rwa [e] at this
  | int i =>
    simp only [batchSel, Option.some.injEq] at hb; subst hb
    have := hgather [i]
    unfold indexBatch
    unfold indexBatch.gather at this
    cases hp : posOf m.ids.length i with
    | none =>
      simp [pyGet_eq, hp, Except.bind_error', orIndexError, Except.map, Meets]
    | some k =>
      simp only [positions, hp, orIndexError] at this
      obtain ⟨m', hm', hs⟩ := this
      refine ⟨m', ?_, hs⟩
      rw [← hm']
      have hk := posOf_lt hp
      simp only [pyGet_eq, hp]
      simp [pyGather_eq, positions, hp, List.getElem?_eq_getElem hk, gath, Except.bind_ok', orIndexError, Except.map]
  | list is => simp only [batchSel, Option.some.injEq] at hb; subst hb; exact hgather is
  | ints is => simp only [batchSel, Option.some.injEq] at hb; subst hb; exact hgather is
  | multi => simp only [batchSel, Option.some.injEq] at hb; subst hb; rfl
  | mask bs =>
    simp only [batchSel, Option.some.injEq] at hb; subst hb
    by_cases hl : bs.length = m.ids.length
    · simp only [if_pos hl]
      have hlt : ∀ j ∈ truePos bs, j < m.ids.length := by
        intro j hj; rw [← hl]; exact truePos_lt bs j hj
      refine ⟨m.pick (truePos bs), ?_, pick_selects m hm _ hlt⟩
      unfold indexBatch
      have : onChunk (torchMask · bs) m.chunk = .ok (m.chunk.map (gath · (truePos bs))) := by
        cases hc : m.chunk with
        | none => rfl
        | some c => simp [onChunk, torchMask_eq c bs (by rw [h4 c hc, hl]), Except.bind_ok']
      simp only [idsByMask_eq _ _ hl, torchMask_eq m.sos bs (by omega), torchMask_eq m.eos bs (by omega),
        torchMask_eq m.lengths bs (by omega), this, Except.bind_ok']
      exact init_pick m hm _ hlt
    · simp only [if_neg hl, Meets]
      unfold indexBatch
      rcases idsByMask_ne m.ids bs with ⟨ys, h⟩ | h
      · simp only [h, Except.bind_ok']
        have : torchMask m.sos bs = .error .indexError := by simp [torchMask, h1, hl]
        simp [this, Except.bind_error']
      · simp [h, Except.bind_error']
  | slice s =>
    simp only [batchSel, Option.some.injEq] at hb; subst hb
    by_cases hstep : s.step.getD 1 ≤ 0
    · simp only [if_pos hstep, Meets]
      unfold indexBatch
      have ht : torchSlice m.sos s = .error .valueError := by simp [torchSlice, hstep]
      rcases pySlice_cases m.ids s with ⟨ys, h⟩ | h
      · simp [h, ht, Except.bind_ok', Except.bind_error']
      · simp [h, Except.bind_error']
    · simp only [if_neg hstep]
      have hpos : 0 < s.step.getD 1 := by omega
      refine ⟨m.pick (slicePos m.ids.length s), ?_, pick_selects m hm _ (slicePos_lt _ s)⟩
      unfold indexBatch
      have : onChunk (torchSlice · s) m.chunk = .ok (m.chunk.map (gath · (slicePos m.ids.length s))) := by
        cases hc : m.chunk with
        | none => rfl
        | some c => simp [onChunk, torchSlice_eq c s hpos, h4 c hc, Except.bind_ok']
      simp only [this, pySlice_eq _ _ hpos, torchSlice_eq m.sos _ hpos, torchSlice_eq m.eos _ hpos, torchSlice_eq m.lengths _ hpos, h1, h2, h3, Except.bind_ok']
      exact init_pick m hm _ (slicePos_lt _ s)
  | bools => simp [batchSel] at hb
  | tuple => simp [batchSel] at hb
  | scalar => simp [batchSel] at hb

/-- A ragged three-row batch used to show that hypotheses are satisfiable. -/
def ex3 : Meta := ⟨["a", "b", "c"], [true, false, false], [false, false, true], [4, 2, 3], some [0, 5, 7]⟩

example : ex3.WF ∧ batchSel ex3.ids.length (.slice { start := some (-2), step := some 1 }) = some (.ok [1, 2]) ∧
    ex3.indexBatch (.slice { start := some (-2) }) = .ok ⟨["b", "c"], [false, false], [false, true], [2, 3], some [5, 7]⟩ := by
  decide

example : ex3.indexBatch (.list [-1, 0]) = .ok ⟨["c", "a"], [false, true], [true, false], [3, 4], some [7, 0]⟩ := by decide

/-- **C02 is false of the code.** A list of bools of the batch size either raises or, when it is all `True`, silently
returns wrong ids: every id of the result is the *second* id of the batch. -/
theorem C02_bool_list_false :
    ∃ m : Meta, m.WF ∧ ∃ bs : List Bool, bs.length = m.ids.length ∧
      ∃ m', m.indexBatch (.bools bs) = .ok m' ∧ ¬ m.Selects (truePos bs) m' := by
  refine ⟨ex3, by decide, [true, true, true], rfl, _, rfl, ?_⟩
  rintro ⟨_, _, _, h⟩
  exact absurd (h 0) (by decide)

/-- C02, the error branch: with at least one `False` the constructor's length check fails (ValueError), or the id lookup
(IndexError); such an index never succeeds. Missing: lists with a `False`, which are refused instead of selecting. -/
theorem C02_bool_list_partial (m : Meta) (hm : m.WF) (bs : List Bool) (hl : bs.length = m.ids.length)
    (hf : false ∈ bs) : m.indexBatch (.bools bs) = .error .valueError ∨ m.indexBatch (.bools bs) = .error .indexError := by
  obtain ⟨h1, h2, h3, h4⟩ := hm
  unfold indexBatch
  simp only [pyGather_eq]
  cases hp : positions m.ids.length (bs.map fun b => if b then 1 else 0) with
  | none => right; simp [Except.bind_error', orIndexError, Except.map]
  | some ks =>
    left
    simp only [orIndexError, Except.map]
    have hks : ks.length = bs.length := by
      have := gath_length m.ids ks (positions_lt hp)
      clear this
      have : ∀ (is : List Int) ks, positions m.ids.length is = some ks → ks.length = is.length := by
        intro is
        induction is with
        | nil => intro ks h; simp [positions] at h; simp [← h]
        | cons i r ih =>
          intro ks h
          simp only [positions] at h
          split at h
          · rename_i k ks' _ h'
            simp at h; subst h; simp [ih _ h']
          · simp at h
      simpa using this _ _ hp
    have hc : ∃ c, onChunk (torchMask · bs) m.chunk = .ok c := by
      cases hc : m.chunk with
      | none => exact ⟨none, rfl⟩
      | some c => exact ⟨some (gath c (truePos bs)), by simp only [onChunk, torchMask_eq c bs (by rw [h4 c hc, hl]), Except.bind_ok']⟩
    obtain ⟨c, hc⟩ := hc
    simp only [torchMask_eq m.sos bs (by omega), torchMask_eq m.eos bs (by omega), torchMask_eq m.lengths bs (by omega),
      hc, Except.bind_ok']
    unfold init
    rw [if_neg]
    rintro ⟨ha, -⟩
    rw [gath_length _ _ (positions_lt hp), hks, gath_length _ _ (by rw [h3, ← hl]; exact truePos_lt bs)] at ha
    have hlt : (truePos bs).length < bs.length := by
      clear * - hf
      induction bs with
      | nil => simp at hf
      | cons b bs ih =>
        rw [truePos_cons]
        have hle : (truePos bs).length ≤ bs.length := by
          unfold truePos
          exact (List.length_filter_le _ _).trans (by simp)
        cases b with
        | false => simp; omega
        | true =>
          have := ih (by simpa using hf)
          simp; omega
    omega

example : ex3.WF ∧ false ∈ [true, false, true] ∧ ex3.indexBatch (.bools [true, false, true]) = .error .valueError := by decide

/-- **C03.** `drop_empty` keeps exactly the rows with positive length, in order. -/
theorem C03_drop_empty (m : Meta) (hm : m.WF) :
    ∃ m', m.dropEmpty = .ok m' ∧
      m.Selects ((List.range m.ids.length).filter fun j => decide (∃ r, m.row j = some r ∧ 0 < r.len)) m' := by
  have h := C01_index_batch m hm (.mask (m.lengths.map fun l => decide (0 < l))) _ rfl
  have hl : (m.lengths.map fun l => decide (0 < l)).length = m.ids.length := by simp [hm.2.2.1]
  simp only [if_pos hl, Meets] at h
  obtain ⟨m', h1, h2⟩ := h
  refine ⟨m', h1, ?_⟩
  have : (truePos (m.lengths.map fun l => decide (0 < l))) =
      ((List.range m.ids.length).filter fun j => decide (∃ r, m.row j = some r ∧ 0 < r.len)) := by
    unfold truePos
    rw [hl]
    apply List.filter_congr
    intro j hj
    rw [List.mem_range] at hj
    obtain ⟨w1, w2, w3, w4⟩ := hm
    have a0 := List.getElem?_eq_getElem hj
    have a1 := List.getElem?_eq_getElem (l := m.sos) (i := j) (by omega)
    have a2 := List.getElem?_eq_getElem (l := m.eos) (i := j) (by omega)
    have a3 := List.getElem?_eq_getElem (l := m.lengths) (i := j) (by omega)
    cases hc : m.chunk with
    | none => simp [row, a0, a1, a2, a3, hc]
    | some c =>
      have a4 := List.getElem?_eq_getElem (l := c) (i := j) (by rw [w4 c hc]; exact hj)
      simp [row, a0, a1, a2, a3, hc, a4]
  rwa [← this]

example : (⟨["a", "b"], [true, true], [true, false], [0, 2], none⟩ : Meta).dropEmpty =
    .ok ⟨["b"], [true], [false], [2], none⟩ := by decide

/-- **C85 is false of the code.** A tuple of in-range positions never selects rows: it raises, except for the empty
tuple on an empty batch. -/
theorem C85_tuple_false (m : Meta) (hm : m.WF) (is : List Int) (h : is ≠ [] ∨ m.ids ≠ []) :
    ∃ e, m.indexBatch (.tuple is) = .error e := by
  unfold indexBatch
  simp only [pyGather_eq]
  cases hp : positions m.ids.length is with
  | none => exact ⟨_, rfl⟩
  | some ks =>
    simp only [Except.bind_ok', orIndexError, Except.map]
    match is with
    | [] =>
      have hids : m.ids ≠ [] := by simpa using h
      simp only [positions, Option.some.injEq] at hp; subst hp
      simp only [tupleIndex, Except.bind_ok']
      have : ∃ c, onChunk (fun x : List Int => tupleIndex x []) m.chunk = .ok c := by
        cases m.chunk <;> exact ⟨_, rfl⟩
      obtain ⟨c, hc⟩ := this
      simp only [tupleIndex] at hc
      rw [hc, Except.bind_ok']
      refine ⟨.valueError, ?_⟩
      unfold init
      rw [if_neg]
      rintro ⟨ha, -⟩
      rw [hm.2.2.1] at ha
      simp [gath] at ha
      exact hids (List.length_eq_zero_iff.1 ha.symm)
    | [i] =>
      simp only [tupleIndex, pyGet_eq]
      rw [hm.1]
      simp only [positions] at hp
      cases hq : posOf m.ids.length i with
      | none => simp [hq] at hp
      | some k =>
        have hk := posOf_lt hq
        have := List.getElem?_eq_getElem (l := m.sos) (i := k) (by rw [hm.1]; exact hk)
        simp only [Option.bind_some, this]
        exact ⟨.typeError, rfl⟩
    | i :: j :: r => exact ⟨.indexError, rfl⟩

/-- **C85, the part that holds.** The empty tuple on an empty batch selects no rows. Missing: everything else, by `C85_tuple_false`. -/
theorem C85_tuple_partial (m : Meta) (hm : m.WF) (h : m.ids = []) : m.indexBatch (.tuple []) = .ok m := by
  obtain ⟨ids, sos, eos, lengths, chunk⟩ := m
  obtain ⟨h1, h2, h3, h4⟩ := hm
  simp only at h
  subst h
  have e1 : sos = [] := by simpa using h1
  have e2 : eos = [] := by simpa using h2
  have e3 : lengths = [] := by simpa using h3
  subst e1 e2 e3
  cases chunk with
  | none => rfl
  | some c =>
    have : c = [] := by simpa using h4
    subst this
    rfl

example : (⟨[], [], [], [], none⟩ : Meta).WF := by decide

example : ex3.WF ∧ ex3.indexBatch (.tuple [0, 1]) = .error .indexError ∧
    (∃ m', ex3.indexBatch (.list [0, 1]) = .ok m') := by
  refine ⟨by decide, by decide, _, rfl⟩

end DS.Meta
