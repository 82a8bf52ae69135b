import Verif.Props.CatOps
import Verif.Props.LengthIndex
/-! # C04, C39, C40: narrow, index_select, drop_empty -/

namespace DS.Tn
open Meta

variable {α : Type}

/-- Selecting all rows gives the object itself. -/
theorem selects_range {m m' : Meta} (hm : m.WF) (h : m.Selects (List.range m.ids.length) m') : m' = m := by
  obtain ⟨hw, hl, hc, hr⟩ := h
  refine ext_rows hw hm ?_ hc
  apply List.ext_getElem?
  intro k
  rw [rows_get _ hw, rows_get _ hm, hr]
  by_cases hk : k < m.ids.length
  · rw [List.getElem?_range hk]; rfl
  · rw [List.getElem?_eq_none (by simp; omega), row_none _ _ (by omega)]; rfl

theorem slicePos_full (n : Nat) : slicePos n {} = List.range n := by
  rw [slicePos_unit n {} rfl]
  simp [sliceLo, sliceHi, List.range_eq_range']

theorem indexBatch_full (m : Meta) (hm : m.WF) : m.indexBatch (.slice {}) = .ok m := by
  obtain ⟨m', e, hs⟩ := C01_index_batch m hm (.slice {}) (.ok (slicePos m.ids.length {})) rfl
  rw [slicePos_full] at hs
  rw [e, selects_range hm hs]

/-- Names at an axis that is neither batch nor length. -/
theorem other_name {x : STen α} {b l : Nat} (hx : x.Describes b l) {a : Nat} (ha : a < x.t.ndim) (hb : a ≠ b) (hl : a ≠ l) :
    ∃ n, x.t.names[a]? = some n ∧ n ≠ BATCH ∧ n ≠ LENGTH := by
  have hll : x.t.names.length = x.t.ndim := hx.wf.1
  have hget : x.t.names[a]? = some (x.t.names[a]'(by omega)) := List.getElem?_eq_getElem _
  have hn : ∀ (s : String) (c : Nat), x.t.names[c]? = some (some s) → a ≠ c → x.t.names[a]? ≠ some (some s) := by
    intro s c hc hne h
    have h1 := nameIndex_of hx.wf.2.1 hc
    have h2 := nameIndex_of hx.wf.2.1 h
    rw [h1] at h2
    exact hne (Except.ok.inj h2).symm
  refine ⟨_, hget, ?_, ?_⟩
  · intro h; rw [h] at hget; exact hn "B" b hx.batch hb hget
  · intro h; rw [h] at hget; exact hn "L" l hx.length hl hget

theorem Describes.ne {x : STen α} {b l : Nat} (hx : x.Describes b l) : b ≠ l := by
  intro e
  have h1 := hx.batch
  rw [e, hx.length] at h1
  exact absurd h1 (by decide)

theorem Describes.lt {x : STen α} {b l : Nat} (hx : x.Describes b l) : b < x.t.ndim ∧ l < x.t.ndim :=
  ⟨(List.getElem?_eq_some_iff.1 hx.rows).1, (List.getElem?_eq_some_iff.1 hx.fits.choose_spec.1).1⟩

/-- torch's narrow for a start in range: entries from `s` on. -/
theorem ten_narrow (t : Ten α) (d : Int) (a : Nat) (hd : posOf t.ndim d = some a) (start : Int) (n s w : Nat) (hw : t.shape[a]? = some w)
    (hs : (start = s ∨ (start < 0 ∧ start + w = s))) (hfit : s + n ≤ w) :
    t.narrow d start n = .ok { t with shape := t.shape.set a n, val := fun ix => t.val (ix.modify a (· + s)) } := by
  unfold Ten.narrow
  have hg : t.shape.getD a 0 = w := by rw [List.getD_eq_getElem?_getD, hw, Option.getD_some]
  simp only [normDim_ok hd, Except.bind_ok', hg]
  have e : (if start < 0 then start + (w : Int) else start) = s := by split <;> omega
  rw [if_neg (by omega), if_neg (by omega), e, if_neg (by omega)]
  simp

theorem modify_set (ix : List Nat) (a j s : Nat) : (ix.set a j).modify a (· + s) = ix.set a (s + j) := by
  apply List.ext_getElem?
  intro k
  rw [List.getElem?_modify, List.getElem?_set, List.getElem?_set]
  by_cases e : a = k
  · subst e
    by_cases h : a < ix.length
    · simp [h]; omega
    · simp [h]
  · simp [e]

theorem boundOf_case (m : Nat) (x : Int) : boundOf m x = if x < 0 then max 0 (x + m) else min x m := rfl

/-- **C39 is false of the code.** Narrowing the batch to its last `n` rows with a negative start (`x.narrow(batch, -n, n)`) returns `n` rows of data with no metadata rows
at all: the metadata are sliced by `[-n:0]`. -/
theorem C39_narrow_negative_false (junk : Int) (x : STen α) (b l : Nat) (hx : x.Describes b l) (d : Int) (hd : posOf x.t.ndim d = some b)
    (n : Nat) (hn : n ≤ x.md.ids.length) (h0 : 0 < n) :
    ∃ y, narrow junk x d (-n) n = .ok y ∧ y.t.shape[b]? = some n ∧ y.md.ids = [] := by
  have hl : x.t.names.length = x.t.ndim := hx.wf.1
  obtain ⟨m', e, hs⟩ := C01_index_batch x.md hx.mdwf (.slice { start := some (-n : Int), stop := some (-n + n : Int) }) (.ok (slicePos x.md.ids.length { start := some (-n : Int), stop := some (-n + n : Int) })) rfl
  have hnil : slicePos x.md.ids.length { start := some (-n : Int), stop := some (-n + n : Int) } = [] := by
    rw [slicePos_unit _ _ rfl]
    have : sliceHi x.md.ids.length { start := some (-n : Int), stop := some (-n + n : Int) } = 0 := by
      simp only [sliceHi, boundOf]; split <;> omega
    rw [this]; simp
  rw [hnil] at hs
  refine ⟨⟨{ x.t with shape := x.t.shape.set b n, val := fun ix => x.t.val (ix.modify b (· + (x.md.ids.length - n))) }, m'⟩, ?_, ?_,
    List.length_eq_zero_iff.1 hs.2.1⟩
  · unfold narrow
    rw [ten_narrow x.t d b hd (-n) n (x.md.ids.length - n) x.md.ids.length hx.rows (by omega) (by omega), Except.bind_ok',
      pyGet_names (by rw [hl]; exact hd) _ hx.batch, Except.bind_ok', if_pos rfl, e]
    rfl
  · show (x.t.shape.set b n)[b]? = _
    rw [List.getElem?_set_self (Describes.lt hx).1]

example : ∃ y, narrow 0 ⟨exT [2, 4, 3] [some "B", some "F", some "L"], exM2⟩ 0 (-1) 1 = .ok y ∧ y.t.shape = [1, 4, 3] ∧ y.md.ids = [] := ⟨_, rfl, rfl, rfl⟩

/-- **C39, batch, the part that holds.** A non-negative start, or a negative start whose end is before the end of the batch: exactly the kept rows, with
their metadata. `s` is the first kept row. Missing: a negative start with the range reaching the end (`C39_narrow_negative_false`). -/
theorem C39_narrow_batch_partial (junk : Int) (x : STen α) (b l : Nat) (hx : x.Describes b l) (d : Int) (hd : posOf x.t.ndim d = some b)
    (start : Int) (n s : Nat) (hs : start = s ∨ (start < 0 ∧ start + x.md.ids.length = s)) (hfit : s + n ≤ x.md.ids.length)
    (hcase : 0 ≤ start ∨ start + n < 0) :
    ∃ y, narrow junk x d start n = .ok y ∧ x.md.Selects (List.range' s n) y.md ∧ y.t.names = x.t.names ∧ y.t.shape = x.t.shape.set b n ∧
      ∀ (ix : List Nat) (i : Nat), y.t.val (ix.set b i) = x.t.val (ix.set b (s + i)) := by
  have hl : x.t.names.length = x.t.ndim := hx.wf.1
  obtain ⟨m', e, hsel⟩ := C01_index_batch x.md hx.mdwf (.slice { start := some start, stop := some (start + n) })
    (.ok (slicePos x.md.ids.length { start := some start, stop := some (start + n) })) rfl
  have hp : slicePos x.md.ids.length { start := some start, stop := some (start + n) } = List.range' s n := by
    rw [slicePos_unit _ _ rfl]
    have h1 : sliceLo x.md.ids.length { start := some start, stop := some (start + n) } = s := by
      simp only [sliceLo, boundOf]; split <;> omega
    have h2 : sliceHi x.md.ids.length { start := some start, stop := some (start + n) } = (s + n : Nat) := by
      simp only [sliceHi, boundOf]; split <;> omega
    rw [h1, h2]
    congr 1
    omega
  rw [hp] at hsel
  refine ⟨⟨{ x.t with shape := x.t.shape.set b n, val := fun ix => x.t.val (ix.modify b (· + s)) }, m'⟩, ?_, hsel, rfl, rfl, ?_⟩
  · unfold narrow
    rw [ten_narrow x.t d b hd start n s x.md.ids.length hx.rows hs hfit, Except.bind_ok',
      pyGet_names (by rw [hl]; exact hd) _ hx.batch, Except.bind_ok', if_pos rfl, e]
    rfl
  · intro ix i
    show x.t.val _ = _
    rw [modify_set]

/-- **C39, length, the part that holds.** A non-negative start, or a negative start whose end is before the end of an axis without padding beyond the longest
sequence (`n = w`): every row's valid frames are the kept ones among its valid frames; ids and chunk indices stay; a row with data keeps sos iff its first frame is kept and eos iff its last frame
is. `s` is the first kept frame, `w` the size of the axis, `n` the longest sequence. Missing: other negative starts
(`C39_narrow_length_negative_partial`). -/
theorem C39_narrow_length_partial (junk : Int) (x : STen α) (b l : Nat) (hx : x.Describes b l) (d : Int) (hd : posOf x.t.ndim d = some l)
    (w n : Nat) (hw : x.t.shape[l]? = some w) (hn : x.md.Longest n)
    (start : Int) (k s : Nat) (hs : start = s ∨ (start < 0 ∧ start + w = s)) (hfit : s + k ≤ w) (hcase : 0 ≤ start ∨ (start + k < 0 ∧ n = w)) :
    ∃ y, narrow junk x d start k = .ok y ∧ y.t.names = x.t.names ∧ y.t.shape = x.t.shape.set l k ∧ y.md.WF ∧ y.md.ids.length = x.md.ids.length ∧
      (∀ i r, x.md.row i = some r → ∃ q, y.md.row i = some q ∧ q.id = r.id ∧ q.chunk = r.chunk ∧
        (0 < r.len → q.sos = (r.sos && decide (0 ∈ List.range' s k)) ∧ q.eos = (r.eos && decide ((r.len - 1).toNat ∈ List.range' s k)))) ∧
      ∀ (ix : List Nat) (i : Nat), i < x.md.ids.length → y.line b l ix i = ((x.line b l ix i).drop s).take k := by
  have hl : x.t.names.length = x.t.ndim := hx.wf.1
  obtain ⟨w', hw', hfits⟩ := hx.fits
  have : w' = w := by rw [hw] at hw'; exact (Option.some.inj hw').symm
  subst this
  have hnw : n ≤ w' := by have := hfits n hn.1; omega
  have h1 : sliceLo n { start := some start, stop := some (start + k) } = min (s : Int) n := by
    simp only [sliceLo, boundOf]; split <;> omega
  have h2 : sliceHi n { start := some start, stop := some (start + k) } = min ((s + k : Nat) : Int) n := by
    simp only [sliceHi, boundOf]; split <;> omega
  obtain ⟨m', e, hmap⟩ := C05_length_slice junk x.md hx.mdwf n hn { start := some start, stop := some (start + k) } rfl (by rw [h1, h2]; omega)
  have hm : ∀ j, j ∈ slicePos n { start := some start, stop := some (start + k) } ↔ (s ≤ j ∧ j < s + k ∧ j < n) := by
    intro j
    rw [mem_slicePos _ _ _ rfl, h1, h2]; omega
  refine ⟨⟨{ x.t with shape := x.t.shape.set l k, val := fun ix => x.t.val (ix.modify l (· + s)) }, m'⟩, ?_, rfl, rfl, hmap.1, hmap.2.1, ?_, ?_⟩
  · unfold narrow
    rw [ten_narrow x.t d l hd start k s w' hw hs hfit, Except.bind_ok',
      pyGet_names (by rw [hl]; exact hd) _ hx.length, Except.bind_ok', if_neg (by decide), if_pos rfl]
    unfold index2
    rw [indexBatch_full _ hx.mdwf, Except.bind_ok', e]
    rfl
  · intro i r hr
    refine ⟨_, hmap.2.2.2 i r hr, rfl, rfl, ?_⟩
    intro hpos
    have hb := row_bounds hn hr
    simp only [keepRow, keepsFirst, keepsLast]
    constructor
    · congr 1
      rw [decide_eq_decide, hm, List.mem_range'_1]
      omega
    · congr 1
      rw [any_decide_iff, decide_eq_decide, List.mem_range'_1]
      constructor
      · rintro ⟨j, hj, hj2⟩
        rw [hm] at hj
        omega
      · intro h
        exact ⟨(r.len - 1).toNat, by rw [hm]; omega, by omega⟩
  · intro ix i hi
    obtain ⟨r, hr, -⟩ := row_some x.md hx.mdwf i hi
    have hb := row_bounds hn hr
    have hlen : (m'.lenAt i).toNat = min k (r.len.toNat - s) := by
      unfold lenAt
      rw [hmap.2.2.2 i r hr]
      simp only [keepRow, Option.map_some, Option.getD_some]
      rw [keptData_slice n { start := some start, stop := some (start + k) } _ Int.one_pos, h1, h2]
      show (max 0 ((min (min ((s + k : Nat) : Int) n) r.len - min (s : Int) n + 1 - 1) / 1)).toNat = _
      rw [Int.ediv_one]
      omega
    unfold STen.line
    have hlx : x.md.lenAt i = r.len := by unfold lenAt; rw [hr]; rfl
    rw [hlen, hlx]
    apply List.ext_getElem?
    intro j
    rw [List.getElem?_map]
    by_cases hj : j < min k (r.len.toNat - s)
    · rw [List.getElem?_range hj, List.getElem?_take_of_lt (by omega), List.getElem?_drop, List.getElem?_map, List.getElem?_range (by omega)]
      simp only [Option.map_some]
      rw [modify_set]
    · rw [List.getElem?_eq_none (by rw [List.length_range]; omega), List.getElem?_eq_none (by simp; omega)]
      rfl

/-- **C39, length, negative starts, exactly.** `w` is the size of the axis, `n` the longest sequence. The range is looked
for `n` frames from the end instead of `w`; if it ends at the last frame, `[start:0]` is taken, and the lengths are not
positive. Missing: for such starts the lengths are right only if the range ends before the axis does and `n = w`. -/
theorem C39_narrow_length_negative_partial (junk : Int) (x : STen α) (b l : Nat) (hx : x.Describes b l) (d : Int) (hd : posOf x.t.ndim d = some l)
    (w n : Nat) (hw : x.t.shape[l]? = some w) (hn : x.md.Longest n)
    (start : Int) (k s : Nat) (h0 : start < 0) (hs : start + w = s) (hfit : s + k ≤ w) :
    ∃ y, narrow junk x d start k = .ok y ∧ y.t.names = x.t.names ∧ y.t.shape = x.t.shape.set l k ∧
      (∀ (ix : List Nat) (i : Nat), y.t.val (ix.set l i) = x.t.val (ix.set l (s + i))) ∧
      ∀ i r, x.md.row i = some r → ∃ q, y.md.row i = some q ∧
        (start + k = 0 → q.len = - max 0 (n + start)) ∧
        (start + k < 0 → q.len = max 0 (min (max 0 (n + start + k)) r.len - max 0 (n + start))) := by
  have hl : x.t.names.length = x.t.ndim := hx.wf.1
  obtain ⟨m', e, hmap⟩ := C06_negative_length_partial junk x.md hx.mdwf n hn { start := some start, stop := some (start + k) } rfl
  have h1 : sliceLo n { start := some start, stop := some (start + k) } = max 0 (start + n) := by
    simp only [sliceLo, boundOf]; rw [if_pos h0]
  have h2 : sliceHi n { start := some start, stop := some (start + k) } = if start + k < 0 then max 0 (start + k + n) else 0 := by
    simp only [sliceHi, boundOf]; split <;> omega
  refine ⟨⟨{ x.t with shape := x.t.shape.set l k, val := fun ix => x.t.val (ix.modify l (· + s)) }, m'⟩, ?_, rfl, rfl, ?_, ?_⟩
  · unfold narrow
    rw [ten_narrow x.t d l hd start k s w hw (.inr ⟨h0, hs⟩) hfit, Except.bind_ok',
      pyGet_names (by rw [hl]; exact hd) _ hx.length, Except.bind_ok', if_neg (by decide), if_pos rfl]
    unfold index2
    rw [indexBatch_full _ hx.mdwf, Except.bind_ok', e]
    rfl
  · intro ix i
    show x.t.val _ = _
    rw [modify_set]
  · intro i r hr
    have hb := row_bounds hn hr
    obtain ⟨q, hq, hlen⟩ := hmap i r hr
    have hk := keptData_slice n { start := some start, stop := some (start + k) } r.len Int.one_pos
    simp only [Option.getD_none, Int.ediv_one] at hk
    refine ⟨q, hq, ?_, ?_⟩
    · intro h
      rw [if_neg (by omega)] at h2
      rw [h1, h2] at hk hlen
      split at hlen <;> omega
    · intro h
      rw [if_pos h] at h2
      rw [h1, h2] at hk hlen
      split at hlen <;> omega

example : ∃ x : STen (List Nat), x.Describes 0 2 ∧ posOf x.t.ndim (-1) = some 2 ∧ x.t.shape[2]? = some 3 ∧ x.md.Longest 3 ∧
    ∃ y, narrow 0 x (-1) (-2) 2 = .ok y ∧ y.md.lengths = [-1, -1] ∧ y.t.shape = [2, 4, 2] :=
  ⟨_, exBFL_describes, rfl, rfl, by decide, _, rfl, by decide, rfl⟩

/-- **C39**, any other axis: the metadata stay. Missing: negative spellings of batch and length (`C39_narrow_negative_false`). -/
theorem C39_narrow_other_partial (junk : Int) (x : STen α) (b l : Nat) (hx : x.Describes b l) (d : Int) (a : Nat) (hd : posOf x.t.ndim d = some a)
    (hb : a ≠ b) (hl : a ≠ l) (start n : Int) : narrow junk x d start n = (x.t.narrow d start n).map fun t => ⟨t, x.md⟩ := by
  have hll : x.t.names.length = x.t.ndim := hx.wf.1
  obtain ⟨nm, h1, h2, h3⟩ := other_name hx (posOf_lt hd) hb hl
  unfold narrow
  cases x.t.narrow d start n with
  | error e => rfl
  | ok t =>
    rw [Except.bind_ok', pyGet_names (by rw [hll]; exact hd) _ h1, Except.bind_ok', if_neg h2, if_neg h3]
    rfl

example : ∃ x : STen (List Nat), x.Describes 0 2 ∧ posOf x.t.ndim (-1) = some 2 ∧ x.t.shape[2]? = some 3 ∧ x.md.Longest 3 ∧
    ∃ y, narrow 0 x (-1) 1 2 = .ok y ∧ y.md.lengths = [2, 1] ∧ y.line 0 2 [0, 1, 0] 1 = [[1, 1, 1]] :=
  ⟨_, exBFL_describes, rfl, rfl, by decide, _, rfl, rfl, rfl⟩

/-! ## C40 -/

theorem ten_indexSelect (t : Ten α) (d : Int) (a : Nat) (hd : posOf t.ndim d = some a) (w : Nat) (hw : t.shape[a]? = some w) (ps : List Nat) (hp : ∀ p ∈ ps, p < w) :
    t.indexSelect d (ps.map fun (p : Nat) => (p : Int)) = .ok { t with shape := t.shape.set a ps.length, val := fun ix => t.val (ix.modify a fun k => ps.getD k 0) } := by
  have hg : t.shape.getD a 0 = w := by rw [List.getD_eq_getElem?_getD, hw, Option.getD_some]
  unfold Ten.indexSelect
  rw [normDim_ok hd, Except.bind_ok', if_pos]
  · congr 2
    · simp
    · funext ix
      congr 2
      funext k
      simp only [List.getD_eq_getElem?_getD, List.getElem?_map]
      cases ps[k]? <;> simp
  · simp only [List.all_map, List.all_eq_true, Function.comp_apply, decide_eq_true_eq]
    intro p hp'
    have := hp p hp'
    rw [hg]
    omega

/-- The same through the name-less copy. -/
theorem ten_indexSelect' (t : Ten α) (d : Int) (a : Nat) (hd : posOf t.ndim d = some a) (w : Nat) (hw : t.shape[a]? = some w) (ps : List Nat) (hp : ∀ p ∈ ps, p < w) :
    ∃ u, t.unnamed.indexSelect d (ps.map fun (p : Nat) => (p : Int)) = .ok u ∧ u.shape = t.shape.set a ps.length ∧ u.val = fun ix => t.val (ix.modify a fun k => ps.getD k 0) :=
  ⟨_, ten_indexSelect t.unnamed d a hd w hw ps hp, rfl, rfl⟩

/-- C40: positions outside the axis (also negative ones, which `torch.index_select` does not count from the end) are refused with an IndexError, whatever the axis and its spelling. Missing: negative spellings of the axes batch and length for indices in range (`C40_index_select_negative_false`). -/
theorem C40_out_of_range_partial (junk : Int) (x : STen α) (d : Int) (a : Nat) (hd : posOf x.t.ndim d = some a) (w : Nat) (hw : x.t.shape[a]? = some w)
    (ps : List Int) (hp : ∃ p ∈ ps, p < 0 ∨ (w : Int) ≤ p) : indexSelect junk x d (.vec ps) = .error .indexError := by
  unfold indexSelect Ten.indexSelect
  have hn : normDim x.t.unnamed.ndim d = .ok a := normDim_ok hd
  rw [hn, Except.bind_ok', if_neg, Except.bind_error']
  intro hall
  obtain ⟨p, h1, h2⟩ := hp
  have h3 := List.all_eq_true.1 hall p h1
  have h4 : x.t.unnamed.shape.getD a 0 = w := by
    rw [List.getD, show x.t.unnamed.shape = x.t.shape from rfl, hw]
    rfl
  rw [decide_eq_true_iff, h4] at h3
  omega

example : indexSelect 0 ⟨exT [2, 4, 3] [some "B", some "F", some "L"], exM2⟩ (-3) (.vec [1, -1]) = .error .indexError :=
  C40_out_of_range_partial 0 _ (-3) 0 (by decide) 2 rfl [1, -1] ⟨-1, by simp, .inl (by decide)⟩


/-- **C40 is false of the code.** For every negative spelling of the axis the metadata are those of the whole tensor, also on batch and
length: the axis is compared with the non-negative positions of batch and length. -/
theorem C40_index_select_negative_false (junk : Int) (x : STen α) (b l : Nat) (hx : x.Describes b l) (d : Int) (a : Nat) (hneg : d < 0) (hd : posOf x.t.ndim d = some a)
    (w : Nat) (hw : x.t.shape[a]? = some w) (ps : List Nat) (hp : ∀ p ∈ ps, p < w) :
    ∃ y, indexSelect junk x d (.vec (ps.map fun (p : Nat) => (p : Int))) = .ok y ∧ y.md = x.md ∧ y.t.shape = x.t.shape.set a ps.length := by
  have hb := nameIndex_of hx.wf.2.1 hx.batch
  have hl := nameIndex_of hx.wf.2.1 hx.length
  change nameIndex _ BATCH = _ at hb
  change nameIndex _ LENGTH = _ at hl
  obtain ⟨u, hu, hsh, -⟩ := ten_indexSelect' x.t d a hd w hw ps hp
  refine ⟨⟨{ u with names := x.t.names }, x.md⟩, ?_, rfl, hsh⟩
  unfold indexSelect
  simp only [IdxT.list, hu, Except.bind_ok', hb, hl]
  rw [if_neg (by omega), if_neg (by omega), rename_ok]
  · rfl
  · show _ = u.shape.length
    rw [hsh, List.length_set]; exact hx.wf.1
  · exact hx.wf.2

example : ∃ y, indexSelect 0 ⟨exT [2, 4, 3] [some "B", some "F", some "L"], exM2⟩ (-3) (.vec [1]) = .ok y ∧ y.md.ids = ["a", "b"] ∧ y.t.shape = [1, 4, 3] :=
  ⟨_, rfl, rfl, rfl⟩

/-- **C40, batch, the part that holds.** The non-negative spelling of the batch axis with a 1-D index: the selected rows with their metadata. Missing: negative spellings
(`C40_index_select_negative_false`) and 0-d indices (`C40_index_select_zero_partial`). -/
theorem C40_index_select_batch_partial (junk : Int) (x : STen α) (b l : Nat) (hx : x.Describes b l) (ps : List Nat) (hp : ∀ p ∈ ps, p < x.md.ids.length) :
    ∃ y, indexSelect junk x b (.vec (ps.map fun (p : Nat) => (p : Int))) = .ok y ∧ x.md.Selects ps y.md ∧ y.t.names = x.t.names ∧
      y.t.shape = x.t.shape.set b ps.length ∧
      ∀ (ix : List Nat) (k p : Nat), ps[k]? = some p → y.t.val (ix.set b k) = x.t.val (ix.set b p) := by
  have hb := nameIndex_of hx.wf.2.1 hx.batch
  change nameIndex _ BATCH = _ at hb
  have hpos : positions x.md.ids.length (ps.map fun (p : Nat) => (p : Int)) = some ps := positions_nat _ ps hp
  obtain ⟨m', e, hsel⟩ := C01_index_batch x.md hx.mdwf (.ints (ps.map fun (p : Nat) => (p : Int))) (.ok ps) (by simp only [batchSel, hpos]; rfl)
  obtain ⟨u, hu, hsh, hv⟩ := ten_indexSelect' x.t b b (posOf_nat _ _ (Describes.lt hx).1) _ hx.rows ps hp
  refine ⟨⟨{ u with names := x.t.names }, m'⟩, ?_, hsel, rfl, hsh, ?_⟩
  · unfold indexSelect
    simp only [IdxT.list, hu, Except.bind_ok', hb, IdxT.bix, e, if_true]
    rw [rename_ok]
    · rfl
    · show _ = u.shape.length
      rw [hsh, List.length_set]; exact hx.wf.1
    · exact hx.wf.2
  · intro ix k p hk
    show u.val _ = _
    rw [hv]
    exact congrArg x.t.val (modify_get ix b k p ps hk)
where
  /-- positions that are natural numbers -/
  positions_nat (n : Nat) (ps : List Nat) (hp : ∀ p ∈ ps, p < n) : positions n (ps.map fun (p : Nat) => (p : Int)) = some ps := by
    induction ps with
    | nil => rfl
    | cons p ps ih =>
      have h1 := posOf_nat n p (hp p (by simp))
      have h2 := ih (fun q hq => hp q (by simp [hq]))
      simp only [List.map_cons, positions, h1, h2]
  /-- the coordinate that is read -/
  modify_get (ix : List Nat) (a k p : Nat) (ps : List Nat) (hk : ps[k]? = some p) : (ix.set a k).modify a (fun k => ps.getD k 0) = ix.set a p := by
    apply List.ext_getElem?
    intro j
    rw [List.getElem?_modify, List.getElem?_set, List.getElem?_set]
    by_cases e : a = j
    · subst e
      by_cases h : a < ix.length
      · simp [h, List.getD_eq_getElem?_getD, hk]
      · simp [h]
    · simp [e]

/-- **C40**, 0-d indices: torch accepts them, the override raises TypeError on batch and IndexError on length. Missing: a result; the call is refused. -/
theorem C40_index_select_zero_partial (junk : Int) (x : STen α) (b l : Nat) (hx : x.Describes b l) :
    (∀ p, p < x.md.ids.length → indexSelect junk x b (.zero p) = .error .typeError) ∧
    (∀ w p, x.t.shape[l]? = some w → p < w → indexSelect junk x l (.zero p) = .error .indexError) := by
  have hb := nameIndex_of hx.wf.2.1 hx.batch
  have hl := nameIndex_of hx.wf.2.1 hx.length
  change nameIndex _ BATCH = _ at hb
  change nameIndex _ LENGTH = _ at hl
  have hne := Describes.ne hx
  constructor
  · intro p hp
    obtain ⟨u, hu, -⟩ := ten_indexSelect' x.t b b (posOf_nat _ _ (Describes.lt hx).1) _ hx.rows [p] (by simpa using hp)
    simp only [List.map_cons, List.map_nil] at hu
    unfold indexSelect
    simp only [IdxT.list, hu, Except.bind_ok', hb, if_true]
    rfl
  · intro w p hw hp
    obtain ⟨u, hu, -⟩ := ten_indexSelect' x.t l l (posOf_nat _ _ (Describes.lt hx).2) _ hw [p] (by simpa using hp)
    simp only [List.map_cons, List.map_nil] at hu
    unfold indexSelect
    simp only [IdxT.list, hu, Except.bind_ok', hb, hl, if_true]
    rw [if_neg (by omega)]

/-- **C40, length, the part that holds.** The non-negative spelling of the length axis with a non-empty 1-D index: if its positions are in ascending order, every row's valid frames
are the picked ones among its valid frames, ids and chunk indices stay, sos survives iff frame 0 was picked, and eos survives iff a valid frame and a frame of the padding were picked (C11); otherwise IndexError. (For
the empty index see C86.) Missing: negative spellings, 0-d indices, eos when the last valid frame is picked without padding. -/
theorem C40_index_select_length_partial (junk : Int) (x : STen α) (b l : Nat) (hx : x.Describes b l) (w n : Nat) (hw : x.t.shape[l]? = some w) (hn : x.md.Longest n)
    (ps : List Nat) (hne : ps ≠ []) (hp : ∀ p ∈ ps, p < w) :
    (ps.Pairwise (· ≤ ·) → ∃ y, indexSelect junk x l (.vec (ps.map fun (p : Nat) => (p : Int))) = .ok y ∧ y.t.names = x.t.names ∧ y.t.shape = x.t.shape.set l ps.length ∧
      y.md.WF ∧ y.md.ids.length = x.md.ids.length ∧
      (∀ i r, x.md.row i = some r → ∃ q, y.md.row i = some q ∧ q.id = r.id ∧ q.chunk = r.chunk ∧ q.sos = (r.sos && decide (0 ∈ ps)) ∧
        q.eos = (r.eos && (ps.any fun j => decide ((j : Int) < r.len)) && (ps.any fun j => decide (r.len ≤ (j : Int))))) ∧
      ∀ (ix : List Nat) (i : Nat), i < x.md.ids.length → y.line b l ix i = ps.filterMap fun p => (x.line b l ix i)[p]?) ∧
    (¬ ps.Pairwise (· ≤ ·) → indexSelect junk x l (.vec (ps.map fun (p : Nat) => (p : Int))) = .error .indexError) := by
  have hb := nameIndex_of hx.wf.2.1 hx.batch
  have hl := nameIndex_of hx.wf.2.1 hx.length
  change nameIndex _ BATCH = _ at hb
  change nameIndex _ LENGTH = _ at hl
  have hbl := Describes.ne hx
  obtain ⟨u, hu, hsh, hv⟩ := ten_indexSelect' x.t l l (posOf_nat _ _ (Describes.lt hx).2) _ hw ps hp
  have hmk : Numba.makeIndicesPositive (ps.map fun (p : Nat) => (p : Int)) n = ps.map fun (p : Nat) => (p : Int) := by
    unfold Numba.makeIndicesPositive
    rw [List.map_map]
    apply List.map_congr_left
    intro p _
    simp only [Function.comp_apply]
    rw [if_neg (by omega)]
  have hstep : indexSelect junk x l (.vec (ps.map fun (p : Nat) => (p : Int))) = (x.md.indexLengthList junk (ps.map fun (p : Nat) => (p : Int))).map
      fun m => ⟨{ u with names := x.t.names }, m⟩ := by
    unfold indexSelect
    simp only [IdxT.list, hu, Except.bind_ok', hb, hl, if_true]
    rw [if_neg (by omega)]
    unfold index2
    rw [indexBatch_full _ hx.mdwf, Except.bind_ok']
    simp only [indexLength]
    rw [rename_ok]
    · cases x.md.indexLengthList junk (ps.map fun (p : Nat) => (p : Int)) <;> rfl
    · show _ = u.shape.length
      rw [hsh, List.length_set]; exact hx.wf.1
    · exact hx.wf.2
  rw [hstep]
  constructor
  · intro hs
    obtain ⟨m', e, hmap⟩ := list_core junk x.md hx.mdwf n hn.max _ ps hmk hs hne
    rw [e]
    refine ⟨⟨{ u with names := x.t.names }, m'⟩, rfl, rfl, hsh, hmap.1, hmap.2.1, ?_, ?_⟩
    · intro i r hr
      exact ⟨_, hmap.2.2.2 i r hr, rfl, rfl, rfl, rfl⟩
    · intro ix i hi
      obtain ⟨r, hr, -⟩ := row_some x.md hx.mdwf i hi
      have hbd := row_bounds hn hr
      have hlen : (m'.lenAt i).toNat = (ps.filter fun (j : Nat) => decide ((j : Int) < r.len)).length := by
        unfold lenAt
        rw [hmap.2.2.2 i r hr]
        simp [keptData]
      have hlx : x.md.lenAt i = r.len := by unfold lenAt; rw [hr]; rfl
      have hgen : ∀ (qs : List Nat), qs.Pairwise (· ≤ ·) → (List.range (qs.filter fun (j : Nat) => decide ((j : Int) < r.len)).length).map (fun j => x.t.val ((ix.set b i).set l (qs.getD j 0))) =
          qs.filterMap fun p => ((List.range r.len.toNat).map fun j => x.t.val ((ix.set b i).set l j))[p]? := by
        intro qs hq
        induction qs with
        | nil => rfl
        | cons q qs ih =>
          rw [List.pairwise_cons] at hq
          by_cases h : (q : Int) < r.len
          · rw [List.filter_cons, if_pos (by simpa using h), List.length_cons, List.range_succ_eq_map, List.map_cons, List.map_map, List.filterMap_cons,
              List.getElem?_map, List.getElem?_range (by omega)]
            simp only [Option.map_some]
            rw [← ih hq.2]
            rfl
          · have hnone : ∀ p ∈ q :: qs, ¬ (p : Int) < r.len := by
              intro p hp
              rcases List.mem_cons.1 hp with rfl | hp
              · exact h
              · have := hq.1 p hp; omega
            have h1 : ((q :: qs).filter fun (j : Nat) => decide ((j : Int) < r.len)) = [] := by
              rw [List.filter_eq_nil_iff]; simpa using hnone
            rw [h1]
            symm
            simp only [List.length_nil, List.range_zero, List.map_nil]
            rw [List.filterMap_eq_nil_iff]
            intro p hp
            have := hnone p hp
            rw [List.getElem?_eq_none (by simp; omega)]
      unfold STen.line
      rw [hlen, hlx, ← hgen ps hs]
      apply List.map_congr_left
      intro j hj
      show u.val _ = _
      rw [hv]
      rw [List.mem_range] at hj
      have hlt : j < ps.length := Nat.lt_of_lt_of_le hj (List.length_filter_le _ _)
      exact congrArg x.t.val (C40_index_select_batch_partial.modify_get _ l j (ps.getD j 0) ps (by
        rw [List.getD_eq_getElem?_getD, List.getElem?_eq_getElem hlt]; rfl))
  · intro hs
    have : x.md.indexLengthList junk (ps.map fun (p : Nat) => (p : Int)) = .error .indexError := by
      unfold indexLengthList
      rw [hn.max, Except.bind_ok', hmk]
      simp only []
      rw [if_pos]
      have : ¬ Numba.isSortedAscending (ps.map fun (p : Nat) => (p : Int)) = true := by
        rw [sorted_iff]
        intro h
        apply hs
        rw [List.pairwise_map] at h
        exact h.imp (fun h => by omega)
      simpa using this
    rw [this]
    rfl

example : ∃ x : STen (List Nat), x.Describes 0 2 ∧ x.t.shape[2]? = some 3 ∧ x.md.Longest 3 ∧
    ∃ y, indexSelect 0 x 2 (.vec [0, 2]) = .ok y ∧ y.md.lengths = [2, 1] ∧ y.line 0 2 [0, 1, 0] 1 = [[1, 1, 0]] :=
  ⟨_, exBFL_describes, rfl, by decide, _, rfl, rfl, rfl⟩
example : ∃ x : STen (List Nat), x.Describes 0 2 ∧ ∃ y, indexSelect 0 x 0 (.vec [1, 1, 0]) = .ok y ∧ y.md.ids = ["b", "b", "a"] ∧ y.t.val [2, 3, 1] = [0, 3, 1] :=
  ⟨_, exBFL_describes, _, rfl, rfl, rfl⟩

/-- **C40**, any other axis: the metadata stay. Missing: negative spellings of batch and length (`C40_index_select_negative_false`). -/
theorem C40_index_select_other_partial (junk : Int) (x : STen α) (b l : Nat) (hx : x.Describes b l) (d : Int) (a : Nat) (hd : posOf x.t.ndim d = some a)
    (hb : a ≠ b) (hl : a ≠ l) (w : Nat) (hw : x.t.shape[a]? = some w) (ps : List Nat) (hp : ∀ p ∈ ps, p < w) :
    ∃ y, indexSelect junk x d (.vec (ps.map fun (p : Nat) => (p : Int))) = .ok y ∧ y.md = x.md ∧ y.t.names = x.t.names ∧ y.t.shape = x.t.shape.set a ps.length ∧
      ∀ (ix : List Nat) (k p : Nat), ps[k]? = some p → y.t.val (ix.set a k) = x.t.val (ix.set a p) := by
  have hb' := nameIndex_of hx.wf.2.1 hx.batch
  have hl' := nameIndex_of hx.wf.2.1 hx.length
  change nameIndex _ BATCH = _ at hb'
  change nameIndex _ LENGTH = _ at hl'
  obtain ⟨u, hu, hsh, hv⟩ := ten_indexSelect' x.t d a hd w hw ps hp
  have hd' := posOf_iff.1 hd
  refine ⟨⟨{ u with names := x.t.names }, x.md⟩, ?_, rfl, rfl, hsh, ?_⟩
  · unfold indexSelect
    simp only [IdxT.list, hu, Except.bind_ok', hb', hl']
    rw [if_neg (by omega), if_neg (by omega), rename_ok]
    · rfl
    · show _ = u.shape.length
      rw [hsh, List.length_set]; exact hx.wf.1
    · exact hx.wf.2
  · intro ix k p hk
    show u.val _ = _
    rw [hv]
    exact congrArg x.t.val (C40_index_select_batch_partial.modify_get ix a k p ps hk)

/-! ## C04 -/

/-- The positions of the rows that hold data. -/
def contentRows (ls : List Int) : List Nat := (List.range ls.length).filter fun k => decide (ls[k]? ≠ some 0)

theorem nonzero_eq (ls : List Int) : nonzeroFrom 0 (ls.map fun l => decide (l ≠ 0)) = (contentRows ls).map fun (k : Nat) => (k : Int) := by
  have h := nonzeroFrom_eq (ls.map fun l => decide (l ≠ 0)) 0
  have h2 : truePos (ls.map fun l => decide (l ≠ 0)) = contentRows ls := by
    unfold truePos contentRows
    rw [List.length_map]
    apply List.filter_congr
    intro k hk
    rw [List.mem_range] at hk
    rw [List.getElem?_map, List.getElem?_eq_getElem hk]
    by_cases e : ls[k] = 0 <;> simp [e]
  rw [h2] at h
  simpa using h

/-- **C04 is false of the code.** If exactly one of two or more sequences holds data, `drop_empty` raises TypeError: `nonzero().squeeze()` is
0-d. -/
theorem C04_drop_empty_one_false (junk : Int) (x : STen α) (b l : Nat) (hx : x.Describes b l) (h2 : 2 ≤ x.md.ids.length) (p : Nat) (hp : contentRows x.md.lengths = [p]) :
    dropEmpty junk x = .error .typeError := by
  obtain ⟨w, hw, hf⟩ := hx.fits
  have hlen := hx.mdwf.2.2.1
  have hmem : p ∈ contentRows x.md.lengths := by rw [hp]; simp
  unfold contentRows at hmem
  rw [List.mem_filter, List.mem_range, decide_eq_true_eq] at hmem
  obtain ⟨q, hq, hqp⟩ : ∃ q, q < x.md.lengths.length ∧ q ≠ p := by
    by_cases h : p = 0
    · exact ⟨1, by omega, by omega⟩
    · exact ⟨0, by omega, by omega⟩
  have hq0 : x.md.lengths[q]? = some 0 := by
    by_contra hne
    have : q ∈ contentRows x.md.lengths := by
      unfold contentRows
      rw [List.mem_filter, List.mem_range, decide_eq_true_eq]
      exact ⟨hq, hne⟩
    rw [hp] at this
    exact hqp (by simpa using this)
  have hmin : x.md.minLength = .ok 0 := (torchMin_iff _ _).2 ⟨List.mem_of_getElem? hq0, fun n hn => (hf n hn).1⟩
  obtain ⟨mx, hmx⟩ : ∃ mx, x.md.maxLength = .ok mx := by
    unfold maxLength
    cases e : x.md.lengths with
    | nil => rw [e] at hq; simp at hq
    | cons a as => exact ⟨_, rfl⟩
  have hpv := List.getElem?_eq_getElem hmem.1
  have hmxne : mx ≠ 0 := by
    have h1 := (torchMax_iff _ _).1 hmx
    have h3 := h1.2 _ (List.getElem_mem hmem.1)
    have h4 := (hf _ (List.getElem_mem hmem.1)).1
    intro e
    have : x.md.lengths[p] = 0 := by omega
    rw [this] at hpv
    exact hmem.2 hpv
  have hb := nameIndex_of hx.wf.2.1 hx.batch
  change nameIndex _ BATCH = _ at hb
  have hidx : dropEmpty.nonzeroIdx x.md.lengths = .zero p := by
    unfold dropEmpty.nonzeroIdx
    rw [nonzero_eq, hp]
    rfl
  unfold dropEmpty
  simp only [hmin, hmx, Except.bind_ok', if_neg (by omega : ¬ (0 : Int) > 0), if_neg hmxne, hb, hidx]
  rw [if_neg (by unfold size; omega), (C40_index_select_zero_partial junk x b l hx).1 p (by omega)]
  rfl

example : contentRows [0, 3, 0] = [1] ∧ dropEmpty 0 ⟨exT [3, 3] [some "B", some "L"], ⟨["a", "b", "c"], [true, true, true], [true, true, true], [0, 3, 0], none⟩⟩ = .error .typeError := by
  exact ⟨by decide, rfl⟩

/-- **C04, the part that holds.** For a batch with rows: `None` exactly if every sequence is empty; otherwise, unless exactly one of several sequences holds data, a StreamTensor with
exactly the sequences that hold data, in order, with their metadata and data. Missing: exactly one non-empty sequence among several. -/
theorem C04_drop_empty_partial (junk : Int) (x : STen α) (b l : Nat) (hx : x.Describes b l) (h0 : x.md.ids ≠ [])
    (hone : x.md.ids.length = 1 ∨ (contentRows x.md.lengths).length ≠ 1) :
    (contentRows x.md.lengths = [] → dropEmpty junk x = .ok none) ∧
    (contentRows x.md.lengths ≠ [] → ∃ y, dropEmpty junk x = .ok (some y) ∧ x.md.Selects (contentRows x.md.lengths) y.md ∧ y.t.names = x.t.names ∧
      y.t.shape = x.t.shape.set b (contentRows x.md.lengths).length ∧
      ∀ (ix : List Nat) (k p : Nat), (contentRows x.md.lengths)[k]? = some p → y.t.val (ix.set b k) = x.t.val (ix.set b p)) := by
  obtain ⟨w, hw, hf⟩ := hx.fits
  have hlen := hx.mdwf.2.2.1
  have hlne : x.md.lengths ≠ [] := by
    intro e; rw [e] at hlen; exact h0 (List.length_eq_zero_iff.1 hlen.symm)
  obtain ⟨mn, hmn⟩ : ∃ mn, x.md.minLength = .ok mn := by
    unfold minLength
    cases e : x.md.lengths with
    | nil => exact absurd e hlne
    | cons a as => exact ⟨_, rfl⟩
  obtain ⟨mx, hmx⟩ : ∃ mx, x.md.maxLength = .ok mx := by
    unfold maxLength
    cases e : x.md.lengths with
    | nil => exact absurd e hlne
    | cons a as => exact ⟨_, rfl⟩
  have h1 := (torchMin_iff _ _).1 hmn
  have h2 := (torchMax_iff _ _).1 hmx
  have hmn0 := (hf _ h1.1).1
  have hmx0 := (hf _ h2.1).1
  have hmem : ∀ k, k ∈ contentRows x.md.lengths ↔ ∃ n, x.md.lengths[k]? = some n ∧ 0 < n := by
    intro k
    unfold contentRows
    rw [List.mem_filter, List.mem_range, decide_eq_true_eq]
    constructor
    · rintro ⟨hk, hne⟩
      have hv := List.getElem?_eq_getElem hk
      refine ⟨_, hv, ?_⟩
      have := (hf _ (List.getElem_mem hk)).1
      rw [hv] at hne
      have : x.md.lengths[k] ≠ 0 := fun h => hne (by rw [h])
      omega
    · rintro ⟨n, hn, hpos⟩
      refine ⟨(List.getElem?_eq_some_iff.1 hn).1, ?_⟩
      rw [hn]; intro e; have := Option.some.inj e; omega
  have hnil : contentRows x.md.lengths = [] ↔ mx = 0 := by
    constructor
    · intro h
      obtain ⟨k, hk⟩ := List.mem_iff_getElem?.1 h2.1
      by_contra hne
      have : k ∈ contentRows x.md.lengths := (hmem k).2 ⟨mx, hk, by omega⟩
      rw [h] at this; simp at this
    · intro h
      rw [List.eq_nil_iff_forall_not_mem]
      intro k hk
      obtain ⟨n, hn, hpos⟩ := (hmem k).1 hk
      have := h2.2 n (List.mem_of_getElem? hn)
      omega
  have hall : (∀ n ∈ x.md.lengths, 0 < n) → contentRows x.md.lengths = List.range x.md.ids.length := by
    intro h
    unfold contentRows
    rw [hlen, List.filter_eq_self]
    intro k hk
    rw [List.mem_range, ← hlen] at hk
    rw [decide_eq_true_eq, List.getElem?_eq_getElem hk]
    intro e
    have := h _ (List.getElem_mem hk)
    have := Option.some.inj e
    omega
  have hself : (∀ n ∈ x.md.lengths, 0 < n) → ∃ y, (Except.ok (some x) : Py (Option (STen α))) = .ok (some y) ∧ x.md.Selects (contentRows x.md.lengths) y.md ∧ y.t.names = x.t.names ∧
      y.t.shape = x.t.shape.set b (contentRows x.md.lengths).length ∧
      ∀ (ix : List Nat) (k p : Nat), (contentRows x.md.lengths)[k]? = some p → y.t.val (ix.set b k) = x.t.val (ix.set b p) := by
    intro h
    rw [hall h]
    refine ⟨x, rfl, ⟨hx.mdwf, by simp, rfl, ?_⟩, rfl, ?_, ?_⟩
    · intro k
      by_cases hk : k < x.md.ids.length
      · rw [List.getElem?_range hk]; rfl
      · rw [List.getElem?_eq_none (by simp; omega), row_none _ _ (by omega)]; rfl
    · apply List.ext_getElem?
      intro k
      rw [List.getElem?_set]
      by_cases e : b = k
      · subst e
        have : b < x.t.shape.length := (Describes.lt hx).1
        rw [if_pos rfl, if_pos this, hx.rows]; simp
      · rw [if_neg e]
    · intro ix k p hk
      obtain ⟨hlt, hk⟩ := List.getElem?_eq_some_iff.1 hk
      simp at hk; rw [hk]
  unfold dropEmpty
  simp only [hmn, hmx, Except.bind_ok']
  constructor
  · intro h
    have h3 := hnil.1 h
    have h4 := h1.2 mx h2.1
    rw [if_neg (by omega), if_pos h3]
  · intro h
    have hmxne : mx ≠ 0 := fun e => h (hnil.2 e)
    by_cases hpos : mn > 0
    · rw [if_pos hpos]
      exact hself (fun n hn => by have := h1.2 n hn; omega)
    · rw [if_neg hpos, if_neg hmxne]
      by_cases hsz : x.md.size = 1 ∧ mx > 0
      · rw [if_pos hsz]
        have hsz1 : x.md.lengths.length = 1 := by rw [hlen]; exact hsz.1
        refine hself (fun n hn => ?_)
        obtain ⟨a, ha⟩ := List.length_eq_one_iff.1 hsz1
        have e1 : mx = a := by have := h2.1; rw [ha] at this; simpa using this
        have e2 : n = a := by rw [ha] at hn; simpa using hn
        omega
      · rw [if_neg hsz]
        have hc : (contentRows x.md.lengths).length ≠ 1 := by
          rcases hone with h | h
          · exact absurd ⟨h, by omega⟩ hsz
          · exact h
        have hb := nameIndex_of hx.wf.2.1 hx.batch
        change nameIndex _ BATCH = _ at hb
        have hidx : dropEmpty.nonzeroIdx x.md.lengths = .vec ((contentRows x.md.lengths).map fun (k : Nat) => (k : Int)) := by
          unfold dropEmpty.nonzeroIdx
          rw [nonzero_eq]
          generalize contentRows x.md.lengths = cs at hc
          match cs, hc with
          | [], _ => rfl
          | [c], hc => exact absurd rfl hc
          | c :: d :: r, _ => rfl
        obtain ⟨y, e, hy⟩ := C40_index_select_batch_partial junk x b l hx (contentRows x.md.lengths) (by
          intro p hp
          obtain ⟨n, hn, -⟩ := (hmem p).1 hp
          have := (List.getElem?_eq_some_iff.1 hn).1
          omega)
        refine ⟨y, ?_, hy⟩
        rw [hb, Except.bind_ok', hidx, e]
        rfl

example : ∃ y, contentRows [0, 3, 0, 1] = [1, 3] ∧ dropEmpty 0 ⟨exT [4, 3] [some "B", some "L"], ⟨["a", "b", "c", "d"], [true, true, true, true], [true, true, true, false], [0, 3, 0, 1], none⟩⟩ = .ok (some y) ∧
    y.md = ⟨["b", "d"], [true, true], [true, false], [3, 1], none⟩ ∧ y.t.val [1, 2] = [3, 2] := ⟨_, by decide, rfl, by decide, rfl⟩

end DS.Tn
