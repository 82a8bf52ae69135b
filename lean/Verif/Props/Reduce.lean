import Verif.Model.Reduce
import Verif.Props.Getitem
import Verif.Props.MaskIndex
/-! # C130–C132: functions without an override -/

namespace DS.Tn
open Meta

variable {α : Type}

/-- The axis that axis `k` becomes when axis `a` is removed. -/
def without (a k : Nat) : Nat := if a < k then k - 1 else k

theorem lineOf_eq (t : Ten α) {a n : Nat} (hn : t.shape[a]? = some n) (ix : List Nat) : lineOf t a ix = (List.range n).map fun j => t.val (ix.set a j) := by
  unfold lineOf
  rw [List.getD_eq_getElem?_getD, hn]
  rfl

theorem insertIdx_set {ix : List Nat} {a : Nat} (h : a ≤ ix.length) (j : Nat) : (ix.insertIdx a 0).set a j = ix.insertIdx a j := by
  induction a generalizing ix with
  | zero => simp
  | succ a ih =>
    cases ix with
    | nil => simp at h
    | cons i ix =>
      rw [List.insertIdx_succ_cons, List.insertIdx_succ_cons, List.set_cons_succ, ih (by simpa using h)]

/-- **C130, the part that holds.** A reduction along an axis other than batch and length, in either spelling of the axis: the metadata stay and describe the result, whose entries are computed from the lines along the axis; with `keepdim` the axes stay, otherwise the
axis disappears with its name. Missing: batch and length. -/
theorem C130_reduce_partial (f : List α → α) (x : STen α) (b l : Nat) (hx : x.Describes b l) (dim : Int) (a n : Nat) (ha : posOf x.t.ndim dim = some a) (hb : a ≠ b) (hl : a ≠ l) (hn : x.t.shape[a]? = some n) :
    (∃ y, reduceStream f x dim true = .ok y ∧ y.md = x.md ∧ y.Describes b l ∧ y.t.names = x.t.names ∧ y.t.shape = x.t.shape.set a 1 ∧
      ∀ ix, y.t.val ix = f ((List.range n).map fun j => x.t.val (ix.set a j))) ∧
    (∃ y, reduceStream f x dim false = .ok y ∧ y.md = x.md ∧ y.Describes (without a b) (without a l) ∧ y.t.names = x.t.names.eraseIdx a ∧ y.t.shape = x.t.shape.eraseIdx a ∧
      ∀ ix, a ≤ ix.length → y.t.val ix = f ((List.range n).map fun j => x.t.val (ix.insertIdx a j))) := by
  unfold reduceStream defaultValid reduceTen
  simp only [normDim_ok ha, Except.bind_ok', List.map_nil, allEq, if_true]
  obtain ⟨w, hw, hf⟩ := hx.fits
  constructor
  · refine ⟨_, rfl, rfl, ⟨⟨?_, hx.wf.2⟩, hx.batch, hx.length, hx.mdwf, ?_, w, ?_, hf⟩, rfl, rfl, ?_⟩
    · simpa using hx.wf.1
    · show (x.t.shape.set a 1)[b]? = _
      rw [List.getElem?_set_ne hb, hx.rows]
    · show (x.t.shape.set a 1)[l]? = _
      rw [List.getElem?_set_ne hl, hw]
    · intro ix
      show f (lineOf x.t a ix) = _
      rw [lineOf_eq x.t hn]
  · refine ⟨_, rfl, rfl, ⟨⟨?_, ?_⟩, ?_, ?_, hx.mdwf, ?_, w, ?_, hf⟩, rfl, rfl, ?_⟩
    · show (x.t.names.eraseIdx a).length = (x.t.shape.eraseIdx a).length
      rw [List.length_eraseIdx, List.length_eraseIdx, hx.wf.1]
    · exact okNames_sub (List.eraseIdx_sublist _ _) hx.wf.2
    · show (x.t.names.eraseIdx a)[without a b]? = _
      rw [without, getElem?_eraseIdx_shift _ _ _ hb, hx.batch]
    · show (x.t.names.eraseIdx a)[without a l]? = _
      rw [without, getElem?_eraseIdx_shift _ _ _ hl, hx.length]
    · show (x.t.shape.eraseIdx a)[without a b]? = _
      rw [without, getElem?_eraseIdx_shift _ _ _ hb, hx.rows]
    · show (x.t.shape.eraseIdx a)[without a l]? = _
      rw [without, getElem?_eraseIdx_shift _ _ _ hl, hw]
    · intro ix hix
      show f (lineOf x.t a (ix.insertIdx a 0)) = _
      rw [lineOf_eq x.t hn]
      congr 1
      apply List.map_congr_left
      intro j _
      rw [insertIdx_set hix]

example : ∃ x : STen (List Nat), x.Describes 0 2 ∧ posOf x.t.ndim (-2) = some 1 ∧ x.t.shape[1]? = some 4 := ⟨_, exBFL_describes, rfl, rfl⟩

theorem name_unique {names : List (Option String)} (hnd : (names.filterMap id).Nodup) {s : String} {a k : Nat} (ha : names[a]? = some (some s)) (hk : names[k]? = some (some s)) : a = k := by
  have h1 := nameIndex_of hnd ha
  rw [nameIndex_of hnd hk] at h1
  exact (Except.ok.inj h1).symm

theorem erased_name {names : List (Option String)} (hnd : (names.filterMap id).Nodup) {s : String} {a : Nat} (ha : names[a]? = some (some s)) (k : Nat) : (names.eraseIdx a)[k]? ≠ some (some s) := by
  rw [List.getElem?_eraseIdx]
  intro h
  split at h
  · have := name_unique hnd ha h; omega
  · have := name_unique hnd ha h; omega

/-- **C130 is false of the code.** A reduction over batch or over length of any described stream (with more than one sequence, resp. a sequence of more than one frame, when `keepdim` is set) gives a StreamTensor with the old metadata, which do not describe it: there is one row of data for
several of metadata, or no batch axis, or a sequence is longer than the length axis, or there is no length axis. -/
theorem C130_reduce_false (f : List α → α) (x : STen α) (b l : Nat) (hx : x.Describes b l) (hrows : 2 ≤ x.md.ids.length) (hlong : ∃ n ∈ x.md.lengths, 2 ≤ n) (a : Nat) (ha : a = b ∨ a = l) (keepdim : Bool) :
    ∃ y, reduceStream f x a keepdim = .ok y ∧ y.md = x.md ∧ ∀ b' l', ¬y.Describes b' l' := by
  have hnd := hx.wf.2.1
  have hbl : b < x.t.ndim := by
    have := (List.getElem?_eq_some_iff.1 hx.batch).1
    have h2 := hx.wf.1
    unfold Ten.ndim; omega
  have hll : l < x.t.ndim := by
    have := (List.getElem?_eq_some_iff.1 hx.length).1
    have h2 := hx.wf.1
    unfold Ten.ndim; omega
  have hal : a < x.t.ndim := by rcases ha with rfl | rfl <;> assumption
  unfold reduceStream defaultValid reduceTen
  simp only [normDim_ok (posOf_nat _ _ hal), Except.bind_ok', List.map_nil, allEq]
  cases keepdim with
  | true =>
    refine ⟨_, rfl, rfl, ?_⟩
    intro b' l' hy
    have e1 : b' = b := name_unique hnd hy.batch hx.batch
    have e2 : l' = l := name_unique hnd hy.length hx.length
    subst e1 e2
    rcases ha with rfl | rfl
    · have := hy.rows
      change (x.t.shape.set a 1)[a]? = some x.md.ids.length at this
      rw [List.getElem?_set_self hal] at this
      have := Option.some.inj this
      omega
    · obtain ⟨w, hw, hf⟩ := hy.fits
      change (x.t.shape.set a 1)[a]? = some w at hw
      rw [List.getElem?_set_self hal] at hw
      have hw := Option.some.inj hw
      obtain ⟨n, hn, h2⟩ := hlong
      have := (hf n hn).2
      omega
  | false =>
    refine ⟨_, rfl, rfl, ?_⟩
    intro b' l' hy
    rcases ha with rfl | rfl
    · exact erased_name hnd hx.batch _ hy.batch
    · exact erased_name hnd hx.length _ hy.length

example : ∃ x : STen (List Nat), x.Describes 0 2 ∧ 2 ≤ x.md.ids.length ∧ ∃ n ∈ x.md.lengths, 2 ≤ n := ⟨_, exBFL_describes, by decide, 3, by decide, by decide⟩

/-- **C131 is false of the code.** Of a function without an override that returns several tensors, such as `x.chunk(2, dim)`, `torch.sort(x, dim)`, `torch.max(x, dim)`, every result is a StreamTensor without metadata: reading `meta` raises AttributeError. -/
theorem C131_tuple_false (x : STen α) (xs : List (STen α)) (res : Py (List (Ten α))) (ys : List (RawTen α)) (h : defaultValidMany (x :: xs) res = .ok ys) :
    ∀ y ∈ ys, y.meta = .error .attributeError := by
  unfold defaultValidMany at h
  obtain ⟨outs, -, h⟩ := ok_of_bind h
  obtain ⟨same, -, h⟩ := ok_of_bind h
  split at h
  · intro y hy
    rw [← Except.ok.inj h] at hy
    obtain ⟨t, -, rfl⟩ := List.mem_map.1 hy
    rfl
  · simp at h

/-- **C131 is false of the code** in a second way: the tensor properties of torch that are not redefined (`x.data`, `x.mT`, …) give StreamTensors without metadata. -/
theorem C131_property_false (t : Ten α) : ∃ y, validNew (.ok t) = .ok y ∧ y.t = t ∧ y.meta = .error .attributeError := ⟨⟨t, none⟩, rfl, rfl, rfl⟩

/-- A concrete case: halving the length axis of a `(B, F, L)` stream. -/
example : ∃ x : STen (List Nat), x.Describes 0 2 ∧ ∃ ys, chunkStream x 2 2 = .ok ys ∧ ys.map (fun y => (y.t.names, y.t.shape, y.t.val [1, 0, 0])) =
    [([some "B", some "F", some "L"], [2, 4, 2], [1, 0, 0]), ([some "B", some "F", some "L"], [2, 4, 1], [1, 0, 2])] ∧ ∀ y ∈ ys, y.meta = .error .attributeError :=
  ⟨_, exBFL_describes, _, rfl, rfl, C131_tuple_false ⟨exT [2, 4, 3] [some "B", some "F", some "L"], exM2⟩ [] (chunkTen (exT [2, 4, 3] [some "B", some "F", some "L"]) 2 2) _ rfl⟩

/-- C131, several results, exactly: the data are torch's, and the arguments' metadata are compared all the same. If all pass for the first's (`Looks`), every result is a
StreamTensor without metadata; otherwise the first argument that does not pass decides: AttributeError without chunk indices, RuntimeError with. Missing: metadata. -/
theorem C131_many_partial (x : STen α) (xs : List (STen α)) (outs : List (Ten α)) :
    ((∀ y ∈ xs, Looks y.md x.md) → defaultValidMany (x :: xs) (.ok outs) = .ok (outs.map fun t => ⟨t, none⟩)) ∧
    (∀ pre y post, xs = pre ++ y :: post → (∀ z ∈ pre, Looks z.md x.md) → ¬ Looks y.md x.md →
      defaultValidMany (x :: xs) (.ok outs) = .error (if y.md.chunk = none then .attributeError else .runtimeError)) := by
  constructor
  · intro h
    have hall := allEq_looks x.md (xs.map (·.md)) (by simpa using h)
    unfold defaultValidMany
    simp only [hall, Except.bind_ok']
    rfl
  · rintro pre y post rfl hpre hy
    have hall := allEq_first x.md (pre.map (·.md)) y.md (post.map (·.md)) (by simpa using hpre) hy
    have e : (pre ++ y :: post).map (·.md) = pre.map (·.md) ++ y.md :: post.map (·.md) := by simp
    unfold defaultValidMany
    simp only [e, hall, Except.bind_ok']
    split <;> rfl

example : Looks exM2d exM2 ∧ ¬ Looks exM2' exM2 ∧
    defaultValidMany [⟨exBL, exM2⟩, ⟨exBL, exM2'⟩] (.ok [exBL, exBL]) = .error .attributeError := ⟨by decide, by decide, rfl⟩

/-- C131, `x.chunk(n, dim)`: at most `n` results, each of the least size `c` with which `n` pieces suffice (the last may be smaller), with the names of `x` and without metadata; position `p` of the axis
is position `p % c` of piece `p / c`. Missing: metadata. -/
theorem C131_chunk_partial (x : STen α) (n : Nat) (hn : 0 < n) (dim : Int) (a s : Nat) (ha : posOf x.t.ndim dim = some a) (hs : x.t.shape[a]? = some s) (h0 : 0 < s) :
    ∃ ys c, chunkStream x n dim = .ok ys ∧ s ≤ n * c ∧ n * (c - 1) < s ∧ ys.length ≤ n ∧
      (∀ (k : Nat) (y : RawTen α), ys[k]? = some y → y.t.names = x.t.names ∧ y.md = none ∧ k * c < s ∧ y.t.shape = x.t.shape.set a (min c (s - k * c))) ∧
      ∀ p < s, ∃ y : RawTen α, ys[p / c]? = some y ∧ ∀ ix : List Nat, y.t.val (ix.set a (p % c)) = x.t.val (ix.set a p) := by
  have hg : x.t.shape.getD a 0 = s := by rw [List.getD_eq_getElem?_getD, hs, Option.getD_some]
  obtain ⟨c, hc⟩ : ∃ c, c = (s + n - 1) / n := ⟨_, rfl⟩
  have hd := Nat.div_add_mod (s + n - 1) n
  have hm := Nat.mod_lt (s + n - 1) hn
  rw [← hc] at hd
  have hc0 : 0 < c := by
    rcases Nat.eq_zero_or_pos c with h | h
    · subst h; simp at hd; omega
    · exact h
  have hle : s ≤ n * c := by omega
  have hlt : n * (c - 1) < s := by
    have : n * c = n * (c - 1) + n := by
      obtain ⟨k, rfl⟩ : ∃ k, c = k + 1 := ⟨c - 1, by omega⟩
      simp [Nat.mul_succ]
    omega
  have hd2 := Nat.div_add_mod (s + c - 1) c
  have hm2 := Nat.mod_lt (s + c - 1) hc0
  obtain ⟨q, hq⟩ : ∃ q, q = (s + c - 1) / c := ⟨_, rfl⟩
  rw [← hq] at hd2
  have hqn : q ≤ n := by
    by_contra hcon
    have h1 : c * (n + 1) ≤ c * q := Nat.mul_le_mul_left c (by omega)
    rw [Nat.mul_succ, Nat.mul_comm c n] at h1
    omega
  have hkq : ∀ k, k < q ↔ k * c < s := by
    intro k
    constructor
    · intro h
      have h1 : c * (k + 1) ≤ c * q := Nat.mul_le_mul_left c (by omega)
      rw [Nat.mul_succ, Nat.mul_comm c k] at h1
      omega
    · intro h
      by_contra hcon
      have h1 : c * q ≤ c * k := Nat.mul_le_mul_left c (by omega)
      rw [Nat.mul_comm c k] at h1
      omega
  refine ⟨(List.range q).map fun k => ⟨{ x.t with shape := x.t.shape.set a (min c (s - k * c)), val := fun ix => x.t.val (ix.modify a (· + k * c)) }, none⟩, c, ?_, hle, hlt,
    by simpa using hqn, ?_, ?_⟩
  · unfold chunkStream chunkTen
    rw [normDim_ok ha, Except.bind_ok']
    simp only [hg, ← hc, ← hq]
    rw [(C131_many_partial x [] _).1 (by simp), List.map_map]
    rfl
  · intro k y hy
    rw [List.getElem?_map] at hy
    by_cases hk : k < q
    · rw [List.getElem?_range hk] at hy
      simp only [Option.map_some, Option.some.injEq] at hy
      subst hy
      exact ⟨rfl, rfl, (hkq k).1 hk, rfl⟩
    · rw [List.getElem?_eq_none (by simpa using hk)] at hy
      simp at hy
  · intro p hp
    have hdp := Nat.div_add_mod p c
    have hk : p / c < q := by
      rw [hkq, Nat.mul_comm]
      omega
    refine ⟨_, by rw [List.getElem?_map, List.getElem?_range hk]; rfl, ?_⟩
    intro ix
    show x.t.val _ = _
    congr 1
    rw [modify_set]
    congr 1
    rw [Nat.mul_comm]
    omega

example : ∃ x : STen (List Nat), x.Describes 0 2 ∧ posOf x.t.ndim 1 = some 1 ∧ x.t.shape[1]? = some 4 ∧ ∃ ys, chunkStream x 3 1 = .ok ys ∧ ys.map (fun y => y.t.shape) = [[2, 2, 3], [2, 2, 3]] :=
  ⟨_, exBFL_describes, rfl, rfl, _, rfl, rfl⟩

/-- **C131, the part that holds.** A function without an override that returns one tensor, called on StreamTensors with equal metadata without chunk indices, returns a StreamTensor with that metadata. Missing: functions that return several tensors, and the tensor properties of torch. -/
theorem C131_tensor_partial (x : STen α) (xs : List (STen α)) (hc : x.md.chunk = none) (h : ∀ y ∈ xs, y.md = x.md) (t : Ten α) : defaultValid (x :: xs) (.ok t) = .ok ⟨t, x.md⟩ := by
  unfold defaultValid
  have := allEq_self hc (xs.map (·.md)) (by simpa using h)
  simp only [Except.bind_ok', this, if_true]

example : ∃ x : STen (List Nat), x.Describes 0 2 ∧ x.md.chunk = none := ⟨_, exBFL_describes, rfl⟩

/-! ## Padding -/

/-- Two streams with the same metadata, names and sizes that agree on the frames that hold data. -/
structure AgreeValid (x y : STen α) (b l : Nat) : Prop where
  md : y.md = x.md
  names : y.t.names = x.t.names
  shape : y.t.shape = x.t.shape
  val : ∀ (ix : List Nat) (i j : Nat), ix.length = x.t.ndim → ix[b]? = some i → ix[l]? = some j → (j : Int) < x.md.lenAt i → y.t.val ix = x.t.val ix

theorem set_get_ne {ix : List Nat} {a k : Nat} (h : a ≠ k) (j : Nat) : (ix.set a j)[k]? = ix[k]? := List.getElem?_set_ne h

theorem insert_get_ne {ix : List Nat} {a k : Nat} (h : a ≠ k) (ha : a ≤ ix.length) (j : Nat) : (ix.insertIdx a j)[k]? = ix[without a k]? := by
  unfold without
  by_cases hk : a < k
  · rw [if_pos hk, List.getElem?_insertIdx_of_gt hk]
  · rw [if_neg hk, List.getElem?_insertIdx_of_lt (by omega)]

/-- **C132, the part that holds.** Reductions and other functions (such as `softmax`) along an axis other than batch and length: on the frames that hold data the result depends only on such frames. Missing: functions along length. -/
theorem C132_padding_partial (f : List α → α) (g : List α → Nat → α) (x y : STen α) (b l : Nat) (hx : x.Describes b l) (hxy : AgreeValid x y b l) (dim : Int) (a n : Nat) (ha : posOf x.t.ndim dim = some a)
    (hb : a ≠ b) (hl : a ≠ l) (hn : x.t.shape[a]? = some n) :
    (∃ x' y', reduceStream f x dim true = .ok x' ∧ reduceStream f y dim true = .ok y' ∧ AgreeValid x' y' b l) ∧
    (∃ x' y', reduceStream f x dim false = .ok x' ∧ reduceStream f y dim false = .ok y' ∧ AgreeValid x' y' (without a b) (without a l)) ∧
    (∃ x' y', alongStream g x dim = .ok x' ∧ alongStream g y dim = .ok y' ∧ AgreeValid x' y' b l) := by
  have ha' : posOf y.t.ndim dim = some a := by unfold Ten.ndim; rw [hxy.shape]; exact ha
  have hn' : y.t.shape[a]? = some n := by rw [hxy.shape]; exact hn
  have hline : ∀ (ix : List Nat) (i j : Nat), ix.length = x.t.ndim → ix[b]? = some i → ix[l]? = some j → (j : Int) < x.md.lenAt i → lineOf y.t a ix = lineOf x.t a ix := by
    intro ix i j h0 h1 h2 h3
    rw [lineOf_eq _ hn, lineOf_eq _ hn']
    apply List.map_congr_left
    intro k _
    exact hxy.val _ i j (by rw [List.length_set, h0]) (by rw [set_get_ne hb]; exact h1) (by rw [set_get_ne hl]; exact h2) h3
  refine ⟨?_, ?_, ?_⟩
  · unfold reduceStream defaultValid reduceTen
    simp only [normDim_ok ha, normDim_ok ha', Except.bind_ok', List.map_nil, allEq, if_true]
    refine ⟨_, _, rfl, rfl, hxy.md, hxy.names, by simp only [hxy.shape], ?_⟩
    intro ix i j h0 h1 h2 h3
    show f (lineOf y.t a ix) = f (lineOf x.t a ix)
    rw [hline ix i j (by simpa [Ten.ndim] using h0) h1 h2 h3]
  · unfold reduceStream defaultValid reduceTen
    simp only [normDim_ok ha, normDim_ok ha', Except.bind_ok', List.map_nil, allEq, if_true]
    refine ⟨_, _, rfl, rfl, hxy.md, by simp only [hxy.names], by simp only [hxy.shape], ?_⟩
    intro ix i j h0 h1 h2 h3
    have han : a < x.t.shape.length := (List.getElem?_eq_some_iff.1 hn).1
    have h0 : ix.length = x.t.shape.length - 1 := by
      have : ix.length = (x.t.shape.eraseIdx a).length := h0
      rw [this, List.length_eraseIdx_of_lt han]
    have hal : a ≤ ix.length := by omega
    show f (lineOf y.t a (ix.insertIdx a 0)) = f (lineOf x.t a (ix.insertIdx a 0))
    rw [hline (ix.insertIdx a 0) i j (by rw [List.length_insertIdx_of_le_length hal]; unfold Ten.ndim; omega) (by rw [insert_get_ne hb hal]; exact h1) (by rw [insert_get_ne hl hal]; exact h2) h3]
  · unfold alongStream defaultValid alongTen
    simp only [normDim_ok ha, normDim_ok ha', Except.bind_ok', List.map_nil, allEq, if_true]
    refine ⟨_, _, rfl, rfl, hxy.md, hxy.names, hxy.shape, ?_⟩
    intro ix i j h0 h1 h2 h3
    show g (lineOf y.t a ix) _ = g (lineOf x.t a ix) _
    rw [hline ix i j h0 h1 h2 h3]

/-- Running sums. -/
def exCum (xs : List Nat) (k : Nat) : Nat := (xs.take (k + 1)).sum
/-- What every entry contributes to the sum of the line (an integer stand-in for `softmax`). -/
def exShare (xs : List Nat) (k : Nat) : Nat := 100 * xs.getD k 0 / xs.sum

/-- A batch of two sequences of 3 and 1 frames; the padding holds `p`. -/
def exPadded (p : Nat) : STen Nat := ⟨⟨[2, 4, 3], [some "B", some "F", some "L"], fun ix => if ix.getD 0 0 = 1 ∧ 1 ≤ ix.getD 2 0 then p else 1⟩, ⟨["a", "b"], [true, true], [false, true], [3, 1], none⟩⟩

/-- **C132 is false of the code.** Along length, the padding counts: of two streams that differ only in the padding of the second sequence, the sum (mean, maximum, …) over length and the shares (`softmax`) along length of the second sequence differ. -/
theorem C132_padding_false : (exPadded 0).Describes 0 2 ∧ AgreeValid (exPadded 0) (exPadded 5) 0 2 ∧
    (∃ x' y', reduceStream List.sum (exPadded 0) 2 false = .ok x' ∧ reduceStream List.sum (exPadded 5) 2 false = .ok y' ∧ x'.t.val [1, 0] = 1 ∧ y'.t.val [1, 0] = 11) ∧
    (∃ x' y', alongStream exShare (exPadded 0) 2 = .ok x' ∧ alongStream exShare (exPadded 5) 2 = .ok y' ∧ ¬AgreeValid x' y' 0 2) := by
  refine ⟨⟨by decide, rfl, rfl, by decide, rfl, 3, rfl, by decide⟩, ⟨rfl, rfl, rfl, ?_⟩, ⟨_, _, rfl, rfl, rfl, rfl⟩, ⟨_, _, rfl, rfl, fun h => ?_⟩⟩
  · intro ix i j _ h1 h2 h3
    show (if ix.getD 0 0 = 1 ∧ 1 ≤ ix.getD 2 0 then 5 else 1) = (if ix.getD 0 0 = 1 ∧ 1 ≤ ix.getD 2 0 then 0 else 1)
    rw [if_neg, if_neg]
    all_goals
      rw [List.getD_eq_getElem?_getD, List.getD_eq_getElem?_getD, h1, h2]
      rintro ⟨h4, h5⟩
      simp only [Option.getD_some] at h4 h5
      subst h4
      change (j : Int) < 1 at h3
      omega
  · have := h.val [1, 0, 0] 1 0 rfl rfl rfl (by decide)
    revert this
    decide

example : posOf (exPadded 0).t.ndim (-2) = some 1 ∧ (exPadded 0).t.shape[1]? = some 4 ∧
    (reduceStream List.sum (exPadded 0) (-2) true).map (fun y => (y.t.shape, y.t.val [1, 0, 0])) = .ok ([2, 1, 3], 4) := by decide

end DS.Tn
