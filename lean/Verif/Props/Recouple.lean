import Verif.Props.Axes
import Verif.Lemmas.Length
/-! # C46, C47, C50, C91, C93: combining StreamTensors, dispatch, sequence masks -/

namespace DS.Tn
open Meta

variable {α : Type}

/-- Metadata of two other sequences. -/
def exM2' : Meta := ⟨["a", "c"], [true, false], [false, true], [3, 2], none⟩
/-- `exM2` with chunk indices. -/
def exM2c : Meta := { exM2 with chunk := some [7, 8] }
/-- Different sequences whose chunk indices happen to be the lengths of `exM2c`. -/
def exM2d : Meta := ⟨["x", "y"], [false, false], [false, false], [1, 1], some [3, 2]⟩
/-- The shape of the examples. -/
def exBL : Ten (List Nat) := exT [2, 3] [some "B", some "L"]

/-- **C46 is false of the code.** Different metadata without chunk indices raise AttributeError, not RuntimeError. -/
theorem C46_recouple_unequal_false : recouple [⟨exBL, exM2⟩, ⟨exBL, exM2'⟩] (.ok exBL.unnamed) = .error .attributeError := by rfl

/-- **C46 is false of the code.** Metadata of different sequences are taken for equal when the chunk indices of the second equal the lengths of the
first: the result silently has the first's metadata. -/
theorem C46_recouple_accepts_false : ∃ y, recouple [⟨exBL, exM2c⟩, ⟨exBL, exM2d⟩] (.ok exBL.unnamed) = .ok y ∧ y.md = exM2c ∧ exM2c ≠ exM2d :=
  ⟨_, rfl, rfl, by decide⟩

theorem eqMeta_self {m : Meta} (h : m.chunk = none) : eqMeta m m = .ok true := by
  unfold eqMeta; simp [h]

theorem eqMeta_noChunk {a b : Meta} (h : a.chunk = none) : eqMeta a b = if a = b then .ok true else .error .attributeError := by
  unfold eqMeta
  by_cases e : a = b
  · subst e; simp [h]
  · rw [if_neg e, if_neg]
    · simp [h]
    · rintro ⟨h1, h2, h3, h4, h5, h6⟩
      apply e; cases a; cases b; simp_all

theorem allEq_self {m : Meta} (h : m.chunk = none) (ms : List Meta) (hms : ∀ x ∈ ms, x = m) : allEq m ms = .ok true := by
  induction ms with
  | nil => rfl
  | cons x ms ih =>
    have := hms x (by simp); subst this
    unfold allEq
    rw [eqMeta_self h, Except.bind_ok', if_pos rfl, ih (fun y hy => hms y (by simp [hy]))]

/-- Without chunk indices, comparing metadata succeeds exactly if all are equal, and raises AttributeError otherwise. -/
theorem allEq_noChunk (m : Meta) (ms : List Meta) (h : ∀ x ∈ ms, x.chunk = none) :
    allEq m ms = if ∀ x ∈ ms, x = m then .ok true else .error .attributeError := by
  induction ms with
  | nil => rfl
  | cons x ms ih =>
    unfold allEq
    rw [eqMeta_noChunk (h x (by simp))]
    by_cases e : x = m
    · rw [if_pos e, Except.bind_ok', if_pos rfl, ih (fun y hy => h y (by simp [hy]))]
      simp [e]
    · rw [if_neg e, if_neg (by simp [e]), Except.bind_error']

/-- **C46, the part that holds.** For StreamTensors without chunk indices (the first may have them): if metadata and names are all equal, the
result is what the torch function returns, with the common names and metadata; if the metadata are equal but some names differ, RuntimeError; if
some metadata differ, AttributeError (the property asks for RuntimeError). Missing: chunk indices (`C46_recouple_exact_partial`). -/
theorem C46_recouple_partial (x : STen α) (xs : List (STen α)) (hx : x.t.WF) (hc : ∀ y ∈ xs, y.md.chunk = none)
    (out : Ten α) (hout : out.ndim = x.t.ndim) :
    ((∀ y ∈ xs, y.md = x.md) → (∀ y ∈ xs, y.t.names = x.t.names) →
      recouple (x :: xs) (.ok out) = .ok ⟨{ out with names := x.t.names }, x.md⟩) ∧
    ((∀ y ∈ xs, y.md = x.md) → (∃ y ∈ xs, y.t.names ≠ x.t.names) → recouple (x :: xs) (.ok out) = .error .runtimeError) ∧
    ((∃ y ∈ xs, y.md ≠ x.md) → recouple (x :: xs) (.ok out) = .error .attributeError) := by
  have h := allEq_noChunk x.md (xs.map (·.md)) (by simpa using hc)
  unfold recouple
  simp only [h]
  refine ⟨?_, ?_, ?_⟩
  · intro h1 h2
    rw [if_pos (by simpa using h1), Except.bind_ok', if_pos, Except.bind_ok', rename_ok]
    · rfl
    · rw [hout]; exact hx.1
    · exact hx.2
    · simpa using h2
  · rintro h1 ⟨y, hy, h2⟩
    rw [if_pos (by simpa using h1), Except.bind_ok', if_neg]
    simp; exact ⟨y, hy, h2⟩
  · rintro ⟨y, hy, h2⟩
    rw [if_neg, Except.bind_error']
    simp; exact ⟨y, hy, h2⟩

example : exBL.WF ∧ exM2.chunk = none ∧ exBL.unnamed.ndim = exBL.ndim ∧ exM2' ≠ exM2 := by decide

/-- What passes for equal metadata: without chunk indices, equal metadata; with chunk indices, any whose chunk indices
are the other's lengths. -/
def Looks (a b : Meta) : Prop := (a.chunk = none ∧ a = b) ∨ a.chunk = some b.lengths

instance (a b : Meta) : Decidable (Looks a b) := by unfold Looks; infer_instance

theorem eqMeta_table (a b : Meta) :
    eqMeta a b = if Looks a b then .ok true else if a.chunk = none then .error .attributeError else .ok false := by
  cases h : a.chunk with
  | none =>
    rw [eqMeta_noChunk h]
    by_cases e : a = b
    · rw [if_pos e, if_pos (.inl ⟨h, e⟩)]
    · rw [if_neg e, if_neg (by simp [Looks, h, e]), if_pos rfl]
  | some c =>
    unfold eqMeta
    by_cases e : c = b.lengths <;> simp [h, Looks, e]

theorem allEq_looks (m : Meta) (ms : List Meta) (h : ∀ x ∈ ms, Looks x m) : allEq m ms = .ok true := by
  induction ms with
  | nil => rfl
  | cons x ms ih =>
    unfold allEq
    rw [eqMeta_table, if_pos (h x (by simp)), Except.bind_ok', if_pos rfl, ih (fun y hy => h y (by simp [hy]))]

theorem allEq_first (m : Meta) (pre : List Meta) (x : Meta) (post : List Meta) (h : ∀ y ∈ pre, Looks y m) (hx : ¬ Looks x m) :
    allEq m (pre ++ x :: post) = if x.chunk = none then .error .attributeError else .ok false := by
  induction pre with
  | nil =>
    rw [List.nil_append, allEq, eqMeta_table, if_neg hx]
    split <;> rfl
  | cons y pre ih =>
    rw [List.cons_append, allEq, eqMeta_table, if_pos (h y (by simp)), Except.bind_ok', if_pos rfl, ih (fun z hz => h z (by simp [hz]))]

/-- **C46, exactly, for all StreamTensors.** If the metadata of all others pass for the first's (`Looks`), the result has
the first's metadata, and RuntimeError is raised if names differ. Otherwise the first one whose metadata do not pass
decides: AttributeError if it has no chunk indices, RuntimeError if it has. In default-valid functions the same holds
with the names that torch gives. Missing: with chunk indices, passing is not being equal. -/
theorem C46_recouple_exact_partial (x : STen α) (xs : List (STen α)) (hx : x.t.WF) (out : Ten α) (hout : out.ndim = x.t.ndim) :
    ((∀ y ∈ xs, Looks y.md x.md) →
      recouple (x :: xs) (.ok out) =
        (if ∀ y ∈ xs, y.t.names = x.t.names then .ok ⟨{ out with names := x.t.names }, x.md⟩ else .error .runtimeError) ∧
      defaultValid (x :: xs) (.ok out) = .ok ⟨out, x.md⟩) ∧
    (∀ pre y post, xs = pre ++ y :: post → (∀ z ∈ pre, Looks z.md x.md) → ¬ Looks y.md x.md →
      recouple (x :: xs) (.ok out) = .error (if y.md.chunk = none then .attributeError else .runtimeError) ∧
      defaultValid (x :: xs) (.ok out) = .error (if y.md.chunk = none then .attributeError else .runtimeError)) := by
  constructor
  · intro h
    have hall := allEq_looks x.md (xs.map (·.md)) (by simpa using h)
    constructor
    · unfold recouple
      simp only [hall, Except.bind_ok']
      by_cases hn : ∀ y ∈ xs, y.t.names = x.t.names
      · rw [if_pos hn, if_pos, rename_ok]
        · rfl
        · rw [hout]; exact hx.1
        · exact hx.2
        · simpa using hn
      · rw [if_neg hn, if_neg]
        simpa using hn
    · unfold defaultValid
      simp only [hall, Except.bind_ok']
      rfl
  · rintro pre y post rfl hpre hy
    have hall := allEq_first x.md (pre.map (·.md)) y.md (post.map (·.md)) (by simpa using hpre) hy
    have e : (pre ++ y :: post).map (·.md) = pre.map (·.md) ++ y.md :: post.map (·.md) := by simp
    constructor
    · unfold recouple
      simp only [e, hall]
      split <;> rfl
    · unfold defaultValid
      simp only [e, hall, Except.bind_ok']
      split <;> rfl

example : exBL.WF ∧ exBL.unnamed.ndim = exBL.ndim ∧ Looks exM2d exM2 ∧ Looks exM2 exM2 ∧ ¬ Looks exM2c exM2 ∧ ¬ Looks exM2' exM2 ∧
    recouple [⟨exBL, exM2⟩, ⟨exBL, exM2d⟩, ⟨exBL, exM2c⟩] (.ok exBL.unnamed) = .error .runtimeError ∧
    recouple [⟨exBL, exM2⟩, ⟨exBL, exM2d⟩, ⟨exBL, exM2'⟩] (.ok exBL.unnamed) = .error .attributeError := by
  refine ⟨by decide, by decide, by decide, by decide, by decide, by decide, rfl, rfl⟩

/-- A failing torch function fails the recoupled call, with the same exception. -/
theorem C46_recouple_torch_error (x : STen α) (e : PyErr) : recouple [x] (.error e) = .error e := rfl

/-- **C91 is false of the code.** A StreamTensor with chunk indices that differ from its lengths cannot be combined with itself: RuntimeError, in recoupled and in
default-valid functions. -/
theorem C91_self_false (x : STen α) (c : List Int) (hc : x.md.chunk = some c) (hne : c ≠ x.md.lengths) (out : Ten α) :
    recouple [x, x] (.ok out) = .error .runtimeError ∧ defaultValid [x, x] (.ok out) = .error .runtimeError := by
  have h : eqMeta x.md x.md = .ok false := by
    unfold eqMeta
    simp [hc, hne]
  have h2 : allEq x.md [x.md] = .ok false := by
    unfold allEq; rw [h]; rfl
  constructor
  · unfold recouple
    simp only [List.map_cons, List.map_nil, h2]; rfl
  · unfold defaultValid
    simp only [List.map_cons, List.map_nil, h2, Except.bind_ok']; rfl

example : exM2c.chunk = some [7, 8] ∧ ([7, 8] : List Int) ≠ exM2c.lengths := by decide

/-- **C91, the part that holds.** Without chunk indices, a StreamTensor can be combined with itself and with tensors of equal metadata and names, in recoupled and in
default-valid functions, any number of times. Missing: chunk indices. -/
theorem C91_self_partial (x : STen α) (xs : List (STen α)) (hx : x.t.WF) (hc : x.md.chunk = none)
    (h1 : ∀ y ∈ xs, y.md = x.md) (h2 : ∀ y ∈ xs, y.t.names = x.t.names) (out : Ten α) (hout : out.ndim = x.t.ndim) :
    recouple (x :: xs) (.ok out) = .ok ⟨{ out with names := x.t.names }, x.md⟩ ∧
    defaultValid (x :: xs) (.ok out) = .ok ⟨out, x.md⟩ := by
  have hc' : ∀ y ∈ xs, y.md.chunk = none := fun y hy => by rw [h1 y hy]; exact hc
  refine ⟨(C46_recouple_partial x xs hx hc' out hout).1 h1 h2, ?_⟩
  unfold defaultValid
  simp only [Except.bind_ok']
  rw [allEq_self hc _ (by simpa using h1)]
  rfl

example : recouple [⟨exBL, exM2⟩, ⟨exBL, exM2⟩] (.ok exBL.unnamed) = .ok ⟨exBL, exM2⟩ := by rfl

/-- **C47 is false of the code.** Functions in `VALID_FUNCTIONS` never receive keyword arguments. -/
theorem C47_kwargs_false {V : Type} (dec : V → V) (k : String) (v : V) : passedKwargs dec [(k, v)] .valid ≠ [(k, v)] := by simp [passedKwargs]

example : passedKwargs id [("dim", 1)] .valid = ([] : List (String × Nat)) := rfl

/-- **C47, the part that holds.** In every other category the function receives every keyword argument given, in order, its value unchanged or
decoupled. Missing: valid functions. -/
theorem C47_kwargs_partial {V : Type} (dec : V → V) (kw : List (String × V)) (c : Category) (hc : c ≠ .valid) :
    (passedKwargs dec kw c).map (·.1) = kw.map (·.1) ∧
      ∀ (i : Nat) (k : String) (v : V), kw[i]? = some (k, v) →
        (passedKwargs dec kw c)[i]? = some (k, if c = .customized ∨ c = .defaultValid then v else dec v) := by
  cases c <;> simp_all [passedKwargs, Function.comp_def]

example : passedKwargs (· + 1) [("dim", 1), ("p", 2)] .recouple = [("dim", 2), ("p", 3)] := rfl

/-- **C93 is false of the code.** Scattering along batch spelled as a negative axis gives a StreamTensor. -/
theorem C93_scatter_negative_false : ∃ y, scatter [⟨exBL, exM2⟩] (-2) (.ok exBL.unnamed) = .ok (.stream y) ∧ posOf 2 (-2) = some 0 ∧
    exBL.names[0]? = some BATCH := ⟨_, rfl, rfl, rfl⟩

/-- **C93 is false of the code.** Different metadata without chunk indices raise AttributeError; a single StreamTensor with chunk indices
falls back to a plain tensor although all its metadata are equal. -/
theorem C93_scatter_metadata_false :
    scatter [⟨exT [2, 4, 3] [some "B", some "F", some "L"], exM2⟩, ⟨exT [2, 4, 3] [some "B", some "F", some "L"], exM2'⟩] 1
      (.ok (exT [2, 4, 3] [none, none, none])) = .error .attributeError ∧
    ∃ t, scatter [⟨exT [2, 4, 3] [some "B", some "F", some "L"], exM2c⟩] 1 (.ok (exT [2, 4, 3] [none, none, none])) = .ok (.plain t) :=
  ⟨rfl, _, rfl⟩

/-- **C93, the part that holds.** For a non-negative axis `a` and StreamTensors with the same metadata without chunk indices: along batch or length a
plain tensor, along any other axis a StreamTensor with the first's names and the common metadata. Missing: negative axes (on batch or length), chunk indices, and
different metadata (`C93_scatter_exact_partial`). -/
theorem C93_scatter_partial (x : STen α) (xs : List (STen α)) (b l : Nat) (hx : x.Describes b l) (hc : x.md.chunk = none)
    (heq : ∀ y ∈ xs, y.md = x.md) (a : Nat) (out : Ten α) (hout : out.ndim = x.t.ndim) :
    (a = b ∨ a = l → scatter (x :: xs) a (.ok out) = .ok (.plain out)) ∧
    (a ≠ b → a ≠ l → scatter (x :: xs) a (.ok out) = .ok (.stream ⟨{ out with names := x.t.names }, x.md⟩)) := by
  have hb := nameIndex_of hx.wf.2.1 hx.batch
  have hl := nameIndex_of hx.wf.2.1 hx.length
  change nameIndex _ BATCH = _ at hb
  change nameIndex _ LENGTH = _ at hl
  have ha := allEq_self hc ((x :: xs).map (·.md)) (by simpa using heq)
  constructor
  · intro h
    unfold scatter
    simp only [Except.bind_ok', hb, hl]
    by_cases e : a = b
    · rw [if_pos (by omega)]
    · rw [if_neg (by omega), if_pos (by omega)]
  · intro h1 h2
    unfold scatter
    simp only [Except.bind_ok', hb, hl]
    rw [if_neg (by omega), if_neg (by omega), ha, Except.bind_ok', if_pos rfl, rename_ok]
    · rfl
    · rw [hout]; exact hx.wf.1
    · exact hx.wf.2

/-- **C93, exactly, for every axis and all StreamTensors.** A negative axis is never taken for batch or length. Unless the axis is the
non-negative position of batch or length, the metadata are compared with the first's, the first's with itself included: all pass
(`Looks`): a StreamTensor with the first's names and metadata; otherwise the first one that does not pass decides: AttributeError without
chunk indices, a plain tensor with. Missing: negative axes, and with chunk indices passing is not being equal. -/
theorem C93_scatter_exact_partial (x : STen α) (xs : List (STen α)) (b l : Nat) (hx : x.Describes b l) (d : Int) (out : Ten α)
    (hout : out.ndim = x.t.ndim) :
    (d = b ∨ d = l → scatter (x :: xs) d (.ok out) = .ok (.plain out)) ∧
    (d ≠ b → d ≠ l → (∀ y ∈ x :: xs, Looks y.md x.md) →
      scatter (x :: xs) d (.ok out) = .ok (.stream ⟨{ out with names := x.t.names }, x.md⟩)) ∧
    (d ≠ b → d ≠ l → ∀ pre y post, x :: xs = pre ++ y :: post → (∀ z ∈ pre, Looks z.md x.md) → ¬ Looks y.md x.md →
      scatter (x :: xs) d (.ok out) = if y.md.chunk = none then .error .attributeError else .ok (.plain out)) := by
  have hb := nameIndex_of hx.wf.2.1 hx.batch
  have hl := nameIndex_of hx.wf.2.1 hx.length
  change nameIndex _ BATCH = _ at hb
  change nameIndex _ LENGTH = _ at hl
  refine ⟨?_, ?_, ?_⟩
  · intro h
    unfold scatter
    simp only [Except.bind_ok', hb, hl]
    by_cases e : d = b
    · rw [if_pos e]
    · rw [if_neg e, if_pos (by omega)]
  · intro h1 h2 h
    unfold scatter
    simp only [Except.bind_ok', hb, hl]
    rw [if_neg h1, if_neg h2, allEq_looks x.md ((x :: xs).map (·.md)) (by simpa using h), Except.bind_ok', if_pos rfl, rename_ok]
    · rfl
    · rw [hout]; exact hx.wf.1
    · exact hx.wf.2
  · intro h1 h2 pre y post he hpre hy
    have hall := allEq_first x.md (pre.map (·.md)) y.md (post.map (·.md)) (by simpa using hpre) hy
    have e : (x :: xs).map (·.md) = pre.map (·.md) ++ y.md :: post.map (·.md) := by rw [he]; simp
    unfold scatter
    simp only [Except.bind_ok', hb, hl]
    rw [if_neg h1, if_neg h2, e, hall]
    split <;> rfl

/-- The example tensor is described by its metadata. -/
theorem exBFL_describes : STen.Describes ⟨exT [2, 4, 3] [some "B", some "F", some "L"], exM2⟩ 0 2 :=
  ⟨by decide, rfl, rfl, by decide, rfl, 3, rfl, by decide⟩

example : ∃ x : STen (List Nat), x.Describes 0 2 ∧ x.md.chunk = none ∧ Looks x.md x.md ∧ ¬ Looks exM2c x.md ∧
    ∃ t, scatter [x, ⟨x.t, exM2c⟩] (-1) (.ok x.t) = .ok (.plain t) := ⟨_, exBFL_describes, rfl, by decide, by decide, _, rfl⟩

/-- **C50.** For a batch of lengths whose largest is `n`, with `max_len` a number of frames or `None`: the mask has one row per length and `T` columns,
`T` being `max_len` or, if that is `None` or 0, the largest length; entry `(i, j)` is `j < lens[i]`, complemented when inverted. -/
theorem C50_sequence_mask (lens : List Int) (n : Nat) (hmem : (n : Int) ∈ lens) (hmax : ∀ l ∈ lens, l ≤ n) (maxLen : Option Nat) (invert : Bool) :
    ∃ rows, sequenceMask lens (maxLen.map (fun k : Nat => (k : Int))) invert = .ok rows ∧ rows.length = lens.length ∧
      ∀ (i : Nat) (l : Int), lens[i]? = some l → ∃ row, rows[i]? = some row ∧
        row.length = (if maxLen.getD 0 = 0 then n else maxLen.getD 0) ∧
        ∀ j, j < row.length → row[j]? = some (if (j : Int) < l then !invert else invert) := by
  have hm : torchMax lens = .ok (n : Int) := (torchMax_iff _ _).2 ⟨hmem, hmax⟩
  obtain ⟨T, hT⟩ : ∃ T : Nat, T = if maxLen.getD 0 = 0 then n else maxLen.getD 0 := ⟨_, rfl⟩
  rw [← hT]
  have hstep : sequenceMask lens (maxLen.map (fun k : Nat => (k : Int))) invert =
      .ok (lens.map fun l => (List.range T).map fun (j : Nat) => if invert then decide ((j : Int) ≥ l) else decide ((j : Int) < l)) := by
    unfold sequenceMask
    cases maxLen with
    | none =>
      simp only [Option.map_none, hm, Except.bind_ok', if_neg (by omega : ¬ (n : Int) < 0)]
      simp at hT; subst hT; simp
    | some k =>
      simp only [Option.map_some, Option.getD_some] at hT ⊢
      by_cases hk : k = 0
      · subst hk
        simp only [Int.natCast_zero, if_true, hm, Except.bind_ok', if_neg (by omega : ¬ (n : Int) < 0)]
        simp at hT; subst hT; simp
      · rw [if_neg hk] at hT; subst hT
        simp only [if_neg (by omega : ¬ (T : Int) = 0), Except.bind_ok', if_neg (by omega : ¬ (T : Int) < 0)]
        simp
  refine ⟨_, hstep, by simp, ?_⟩
  intro i l hl
  refine ⟨_, by rw [List.getElem?_map, hl]; rfl, by simp, ?_⟩
  intro j hj
  simp at hj
  rw [List.getElem?_map, List.getElem?_range hj]
  simp only [Option.map_some, Option.some.injEq]
  cases invert <;> by_cases h : (j : Int) < l <;> simp [h] <;> omega

example : ((3 : Nat) : Int) ∈ ([1, 3, 0] : List Int) ∧ (∀ l ∈ ([1, 3, 0] : List Int), l ≤ 3) ∧
    sequenceMask [1, 3, 0] none false = .ok [[true, false, false], [true, true, true], [false, false, false]] ∧
    sequenceMask [1, 3, 0] (some 2) true = .ok [[false, true], [false, false], [true, true]] := by decide

/-- **C50, what is refused.** A mask of negative width, be it given or the largest length, and a mask for no lengths at all without a width are RuntimeErrors. -/
theorem C50_refused (lens : List Int) (invert : Bool) :
    (∀ m : Int, m < 0 → sequenceMask lens (some m) invert = .error .runtimeError) ∧
    ((∀ l ∈ lens, l < 0) → sequenceMask lens none invert = .error .runtimeError ∧ sequenceMask lens (some 0) invert = .error .runtimeError) := by
  constructor
  · intro m hm
    unfold sequenceMask
    simp only [if_neg (by omega : ¬ m = 0), Except.bind_ok', if_pos hm]
  · intro h
    have : (torchMax lens >>= fun T => if T < 0 then (.error .runtimeError : Py (List (List Bool)))
        else .ok (lens.map fun l => (List.range T.toNat).map fun (j : Nat) => if invert then decide ((j : Int) ≥ l) else decide ((j : Int) < l))) = .error .runtimeError := by
      cases ht : torchMax lens with
      | error e =>
        cases lens with
        | nil => rw [show torchMax [] = .error .runtimeError from rfl] at ht; cases ht; rfl
        | cons l ls => cases ht
      | ok T =>
        rw [Except.bind_ok', if_pos (h T ((torchMax_iff _ _).1 ht).1)]
    unfold sequenceMask
    exact ⟨this, by simpa using this⟩

example : sequenceMask [1, 3] (some (-2)) false = .error .runtimeError ∧ (∀ l ∈ ([-1, -3] : List Int), l < 0) ∧ sequenceMask [] none true = .error .runtimeError := by decide

end DS.Tn
