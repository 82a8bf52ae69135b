import Verif.Model.Lists
import Verif.Props.Reduce
import Verif.Props.TensorSplit
/-! # C173, C174: tuples of sections, lists of StreamTensors -/

namespace DS.Tn
open Meta
variable {α : Type}

/-- **C173 is false of the code.** `x.split((1, 1), 0)` along the batch axis raises TypeError; the list works. -/
theorem C173_tuple_false : splitTuple ⟨exBL, exM2⟩ [1, 1] 0 = .error .typeError ∧ ∃ y z, split ⟨exBL, exM2⟩ (.sections [1, 1]) 0 = .ok [y, z] :=
  ⟨rfl, _, _, rfl⟩

/-- C173, the batch axis: with a tuple of sections `split` never returns. Missing: a result. -/
theorem C173_batch_partial (x : STen α) (ss : List Int) (dim : Int) (hb : pyGet x.t.names dim = .ok BATCH) :
    ∃ e, splitTuple x ss dim = .error e := by
  unfold splitTuple
  rw [hb, Except.bind_ok']
  cases normDim x.t.ndim dim with
  | error e => exact ⟨e, rfl⟩
  | ok a =>
    rw [Except.bind_ok']
    cases x.t.split a (.sections ss) with
    | error e => exact ⟨e, rfl⟩
    | ok ts => exact ⟨_, rfl⟩

example : pyGet exBL.names (-2) = .ok BATCH := rfl

/-- C173, other axes: a tuple of sections means what the list means, along the length axis for tensors that are at least as wide as their metadata say. Missing: the batch axis. -/
theorem C173_tuple_partial (x : STen α) (ss : List Int) (dim : Int) (a : Nat) (ha : normDim x.t.ndim dim = .ok a) (hb : pyGet x.t.names dim ≠ .ok BATCH)
    (hl : pyGet x.t.names dim = .ok LENGTH → ∀ n ∈ x.md.lengths, n ≤ (x.t.shape.getD a 0 : Nat)) :
    splitTuple x ss dim = split x (.sections ss) dim := by
  unfold splitTuple split
  cases hn : pyGet x.t.names dim with
  | error e => rfl
  | ok n =>
    rw [hn] at hb hl
    rw [Except.bind_ok', Except.bind_ok', ha, Except.bind_ok', Except.bind_ok']
    cases ht : x.t.split a (.sections ss) with
    | error e => rfl
    | ok ts =>
      rw [Except.bind_ok', Except.bind_ok']
      by_cases h1 : n = LENGTH
      · rw [if_pos h1, if_pos h1]
        subst h1
        have hl := hl rfl
        have hsum : isum ss = (x.t.shape.getD a 0 : Nat) := by
          unfold Ten.split at ht
          dsimp only at ht
          split at ht
          · cases ht
          · rename_i h
            by_contra hc
            exact h (.inr hc)
        unfold splitLengthTuple splitLength
        dsimp only
        cases hm : x.md.maxLength with
        | error e => rfl
        | ok ml =>
          rw [Except.bind_ok', Except.bind_ok']
          have hle : ml ≤ (x.t.shape.getD a 0 : Nat) := by
            exact hl ml ((torchMax_iff _ _).1 hm).1
          rw [if_neg (by omega)]
      · rw [if_neg h1, if_neg h1]
        have : n ≠ BATCH := fun h => hb (by rw [h])
        rw [if_neg this, if_neg this]

example : ∃ x : STen (List Nat), normDim x.t.ndim (-1) = .ok 1 ∧ pyGet x.t.names (-1) = .ok LENGTH ∧ (∀ n ∈ x.md.lengths, n ≤ (x.t.shape.getD 1 0 : Nat)) ∧
    ∃ y z, splitTuple x [1, 2] (-1) = .ok [y, z] ∧ y.md.lengths = [1, 1] := ⟨⟨exBL, exM2⟩, rfl, rfl, by decide, _, _, rfl, rfl⟩

/-- **C174 is false of the code.** `torch.stack` of two StreamTensors (here without names on their axes, since torch does not stack named tensors) computes the result, and then raises IndexError. -/
theorem C174_lists_false : ∃ x : STen (List Nat), (stackTen [x.t, x.t]).map (·.shape) = .ok [2, 2, 3] ∧ (stackStream [.stream x, .stream x]).map (fun _ => ()) = .error .indexError :=
  ⟨⟨exT [2, 3] [none, none], exM2⟩, rfl, rfl⟩

/-- C174, exactly: a function in no table whose StreamTensors are all inside lists gives no tensor, whatever torch returns: IndexError. Missing: a result. -/
theorem C174_only_lists_partial (os : List (List (Opd α))) (others : Nat) (t : Ten α) :
    defaultValidArgs (os.map FArg.list ++ List.replicate others .other) (.ok (.tensor t)) = .error .indexError := by
  have h : topMetas (os.map FArg.list ++ List.replicate others (.other : FArg α)) = [] := by
    induction os with
    | nil =>
      induction others with
      | zero => rfl
      | succ n ih => exact ih
    | cons o os ih => exact ih
  unfold defaultValidArgs
  rw [Except.bind_ok', h]

/-- C174, no refusal of different streams: StreamTensors inside lists are not looked at. With one StreamTensor `x` outside the lists the result has the metadata of `x`, whatever the lists hold.
Missing: a comparison with the metadata of the others. -/
theorem C174_ignored_partial (x : STen α) (os : List (Opd α)) (t : Ten α) : defaultValidArgs [.tensor (.stream x), .list os] (.ok (.tensor t)) = .ok (.stream ⟨t, x.md⟩) := rfl

example : ∃ x y : STen (List Nat), x.md ≠ y.md ∧ defaultValidArgs [.tensor (.stream x), .list [.stream y]] (.ok (.tensor exBL)) = .ok (.stream ⟨exBL, x.md⟩) :=
  ⟨⟨exBL, exM2⟩, ⟨exBL, exM2'⟩, by decide, rfl⟩

/-- The metadata of an argument that is a StreamTensor. -/
def ownMeta : FArg α → Option Meta
  | .tensor (.stream x) => some x.md
  | _ => none

theorem topMetas_own (args : List (FArg α)) : topMetas args = args.filterMap ownMeta := by
  induction args with
  | nil => rfl
  | cons a as ih =>
    cases a with
    | tensor o => cases o with
      | plain t => rw [List.filterMap_cons_none rfl]; exact ih
      | stream x => exact congrArg (x.md :: ·) ih
    | list os => rw [List.filterMap_cons_none rfl]; exact ih
    | other => rw [List.filterMap_cons_none rfl]; exact ih

/-- C174, exactly, for all arguments. What the torch function raises is raised. Otherwise only the arguments that are StreamTensors themselves count. If there is none, a tensor becomes an IndexError. If all of them pass for the first (`Looks`), a tensor gets the metadata of the first.
If one does not, the first such one decides: AttributeError without chunk indices, RuntimeError with them. Lists of tensors come back without metadata, other results as they are.
Missing: metadata of StreamTensors in lists. -/
theorem C174_exact_partial (args : List (FArg α)) :
    (∀ e, defaultValidArgs args (.error e) = .error e) ∧
    (args.filterMap ownMeta = [] → (∀ t, defaultValidArgs args (.ok (.tensor t)) = .error .indexError) ∧ (∀ ts, defaultValidArgs args (.ok (.tensors ts)) = .ok (.bare (ts.map fun t => ⟨t, none⟩))) ∧
      defaultValidArgs args (.ok .other) = .ok .other) ∧
    (∀ m ms, args.filterMap ownMeta = m :: ms → (∀ x ∈ ms, Looks x m) → (∀ t, defaultValidArgs args (.ok (.tensor t)) = .ok (.stream ⟨t, m⟩)) ∧
      (∀ ts, defaultValidArgs args (.ok (.tensors ts)) = .ok (.bare (ts.map fun t => ⟨t, none⟩))) ∧ defaultValidArgs args (.ok .other) = .ok .other) ∧
    ∀ m pre x post, args.filterMap ownMeta = m :: (pre ++ x :: post) → (∀ y ∈ pre, Looks y m) → ¬ Looks x m → ∀ r, defaultValidArgs args (.ok r) = .error (if x.chunk = none then .attributeError else .runtimeError) := by
  refine ⟨fun _ => rfl, fun h => ?_, fun m ms h hl => ?_, fun m pre x post h hl hx r => ?_⟩
  · refine ⟨fun t => ?_, fun ts => ?_, ?_⟩ <;> (unfold defaultValidArgs; rw [Except.bind_ok', topMetas_own, h])
  · refine ⟨fun t => ?_, fun ts => ?_, ?_⟩ <;> (unfold defaultValidArgs; rw [Except.bind_ok', topMetas_own, h]; dsimp only; rw [allEq_looks m ms hl, Except.bind_ok', if_pos rfl])
  · unfold defaultValidArgs
    rw [Except.bind_ok', topMetas_own, h]
    dsimp only
    rw [allEq_first m pre x post hl hx]
    split
    · rfl
    · rw [Except.bind_ok', if_neg (by simp)]

example : ∃ x y : STen (List Nat), ([.tensor (.stream x), .list [.stream y], .other, .tensor (.plain exBL), .tensor (.stream y)] : List (FArg (List Nat))).filterMap ownMeta = x.md :: ([] ++ y.md :: []) ∧ ¬ Looks y.md x.md ∧ y.md.chunk = none :=
  ⟨⟨exBL, exM2⟩, ⟨exBL, exM2'⟩, rfl, by decide, rfl⟩

/-- C174 for `torch.stack`: named tensors are refused by torch with RuntimeError, and so are different shapes; otherwise IndexError, whatever the metadata.
Missing: a result. -/
theorem C174_stack_partial (o : Opd α) (os : List (Opd α)) :
    stackStream (o :: os) = .error (if (∀ q ∈ o :: os, ∀ n ∈ q.ten.names, n = none) ∧ ∀ q ∈ os, q.ten.shape = o.ten.shape then .indexError else .runtimeError) := by
  unfold stackStream
  by_cases h1 : ∀ q ∈ o :: os, ∀ n ∈ q.ten.names, n = none
  · have e1 : ((o :: os).all fun o => o.ten.names.all (· == none)) = true := by
      rw [List.all_eq_true]
      intro q hq
      rw [List.all_eq_true]
      intro n hn
      simp [h1 q hq n hn]
    rw [if_pos e1]
    unfold stackTen
    simp only [List.map_cons]
    by_cases h2 : ∀ q ∈ os, q.ten.shape = o.ten.shape
    · rw [if_pos (by simpa [List.all_eq_true] using h2), if_pos ⟨by simpa only [List.mem_cons] using h1, h2⟩]
      rfl
    · rw [if_neg (by simpa [List.all_eq_true] using h2), if_neg (fun h => h2 h.2)]
      rfl
  · have e1 : ¬ ((o :: os).all fun o => o.ten.names.all (· == none)) = true := by
      intro h
      apply h1
      intro q hq n hn
      rw [List.all_eq_true] at h
      have := h q hq
      rw [List.all_eq_true] at this
      simpa using this n hn
    rw [if_neg e1, if_neg (fun h => h1 h.1)]
    rfl

example : stackStream [.stream ⟨exT [2, 3] [none, none], exM2⟩, .plain (exT [2, 3] [none, none])] = .error .indexError ∧ stackStream [.stream ⟨exT [2, 3] [some "B", none], exM2⟩] = .error .runtimeError := ⟨rfl, rfl⟩

end DS.Tn
