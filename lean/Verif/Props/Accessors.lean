import Verif.Model.Accessors
import Verif.Lemmas.Tensor
import Verif.Lemmas.Length
import Verif.Props.AxisRange
/-!
# C180: the axis accessors agree with names, data and metadata
-/

namespace DS.Tn

section
variable {α : Type}

/-- C180: of a described tensor the accessors give the batch and length axes, `batch_size()` is the number of sequences in the metadata, and `max_length()` is at least the longest
length. -/
theorem C180_described (x : STen α) (b l : Nat) (h : x.Describes b l) :
    x.hasBatchDim = true ∧ x.hasLengthDim = true ∧ x.batchDim = .ok b ∧ x.lengthDim = .ok l ∧ x.batchSize = .ok x.md.ids.length ∧
    ∃ w : Nat, x.maxLen = .ok w ∧ ∀ n, x.md.maxLength = .ok n → n ≤ w := by
  have hB : nameIndex x.t.names BATCH = .ok b := nameIndex_of h.wf.2.1 h.batch
  have hL : nameIndex x.t.names LENGTH = .ok l := nameIndex_of h.wf.2.1 h.length
  obtain ⟨w, hw, hfit⟩ := h.fits
  refine ⟨decide_eq_true (List.mem_of_getElem? h.batch), decide_eq_true (List.mem_of_getElem? h.length), hB, hL, ?_, w, ?_, ?_⟩
  · unfold STen.batchSize
    rw [hB, Except.bind_ok', List.getD_eq_getElem?_getD, h.rows]
    rfl
  · unfold STen.maxLen
    rw [hL, Except.bind_ok', List.getD_eq_getElem?_getD, hw]
    rfl
  · intro n hn
    exact (hfit n ((torchMax_iff _ _).1 hn).1).2

/-- C180: on every tensor torch can hold, `is_batch_dim(d)` and `is_length_dim(d)` accept exactly the axes torch accepts, counted from either end, and are true of exactly the axis
that `batch_dim` or `length_dim` gives. -/
theorem C180_is_dim (x : STen α) (h : x.t.WF) (d : Int) :
    (OutOfRange x.t.ndim d → x.isBatchDim d = .error .indexError ∧ x.isLengthDim d = .error .indexError) ∧
    ∀ a, posOf x.t.ndim d = some a →
      (∃ r, x.isBatchDim d = .ok r ∧ (r = true ↔ x.batchDim = .ok a)) ∧ ∃ r, x.isLengthDim d = .ok r ∧ (r = true ↔ x.lengthDim = .ok a) := by
  have hn : x.t.ndim = x.t.names.length := h.1.symm
  rw [hn]
  constructor
  · intro ho
    unfold STen.isBatchDim STen.isLengthDim
    rw [pyGet_out ho]
    exact ⟨rfl, rfl⟩
  · intro a ha
    have hlt : a < x.t.names.length := posOf_lt ha
    have hg := List.getElem?_eq_getElem hlt
    have hget := pyGet_names ha _ hg
    have key : ∀ s : String, (x.t.names[a] = some s ↔ nameIndex x.t.names (some s) = .ok a) := by
      intro s
      constructor
      · intro e
        exact nameIndex_of h.2.1 (by rw [hg, e])
      · intro e
        unfold nameIndex at e
        split at e
        · rename_i hm
          injection e with e
          subst e
          exact List.getElem_idxOf hlt
        · cases e
    unfold STen.isBatchDim STen.isLengthDim
    rw [hget]
    exact ⟨⟨_, rfl, by rw [decide_eq_true_eq]; exact key _⟩, ⟨_, rfl, by rw [decide_eq_true_eq]; exact key _⟩⟩

/-- C180: a tensor without the axis says so, and asking for the axis or its size raises ValueError. -/
theorem C180_absent (x : STen α) :
    (x.hasBatchDim = false → x.batchDim = .error .valueError ∧ x.batchSize = .error .valueError ∧ ∀ d r, x.isBatchDim d = .ok r → r = false) ∧
    (x.hasLengthDim = false → x.lengthDim = .error .valueError ∧ x.maxLen = .error .valueError ∧ ∀ d r, x.isLengthDim d = .ok r → r = false) := by
  have key : ∀ n : Option String, n ∉ x.t.names → nameIndex x.t.names n = .error .valueError ∧ ∀ d m, pyGet x.t.names d = .ok m → m ≠ n := by
    intro n hn
    refine ⟨if_neg hn, ?_⟩
    intro d m hm e
    subst e
    rw [pyGet_eq] at hm
    cases hp : posOf x.t.names.length d with
    | none => rw [hp] at hm; cases hm
    | some k =>
      rw [hp, Option.bind_some] at hm
      cases hg : x.t.names[k]? with
      | none => rw [hg] at hm; cases hm
      | some y =>
        rw [hg] at hm
        cases hm
        exact hn (List.mem_of_getElem? hg)
  constructor
  · intro h
    obtain ⟨h1, h2⟩ := key BATCH (of_decide_eq_false h)
    refine ⟨h1, by unfold STen.batchSize; rw [h1]; rfl, ?_⟩
    intro d r hr
    unfold STen.isBatchDim at hr
    cases hg : pyGet x.t.names d with
    | error e => rw [hg] at hr; cases hr
    | ok m => rw [hg] at hr; cases hr; exact decide_eq_false (h2 d m hg)
  · intro h
    obtain ⟨h1, h2⟩ := key LENGTH (of_decide_eq_false h)
    refine ⟨h1, by unfold STen.maxLen; rw [h1]; rfl, ?_⟩
    intro d r hr
    unfold STen.isLengthDim at hr
    cases hg : pyGet x.t.names d with
    | error e => rw [hg] at hr; cases hr
    | ok m => rw [hg] at hr; cases hr; exact decide_eq_false (h2 d m hg)

end

/-- Length before batch, a feature axis last; the second sequence has one frame of two. -/
def exAcc : STen Nat := ⟨⟨[2, 3, 4], [LENGTH, BATCH, some "F"], fun _ => 0⟩, ⟨["a", "b", "c"], [true, true, true], [true, true, true], [2, 1, 0], none⟩⟩
example : exAcc.Describes 1 0 := ⟨by decide, rfl, rfl, by decide, rfl, 2, rfl, by decide⟩
example : exAcc.batchDim = .ok 1 ∧ exAcc.lengthDim = .ok 0 ∧ exAcc.batchSize = .ok 3 ∧ exAcc.maxLen = .ok 2 ∧ exAcc.isBatchDim (-2) = .ok true ∧ exAcc.isBatchDim (-1) = .ok false ∧
    exAcc.isLengthDim (-3) = .ok true ∧ exAcc.isLengthDim 3 = .error .indexError := by decide
example : (⟨⟨[2], [some "F"], fun _ => 0⟩, exAcc.md⟩ : STen Nat).batchDim = .error .valueError := by decide

end DS.Tn
