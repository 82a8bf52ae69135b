import Verif.Model.Pickle
import Verif.Props.Heap
import Verif.Lemmas.Tensor
/-!
# C139, C140: pickling and copying
-/

namespace DS.Pickle

open DS.Lazy

/-- **C139 is false of the code.** No metadata object survives pickling: whatever its arguments, used or not, loading it raises (if it could be written at all). -/
theorem C139_meta_false (old : Bool) (p q : Proxy) : metaTrip old p ≠ .ok q := by
  intro h
  obtain ⟨d, _, h⟩ := ok_of_bind h
  unfold loads at h
  split at h
  · obtain ⟨_, h, _⟩ := ok_of_bind h
    cases h
  · cases h

/-- C139, exactly: an object that has not been used is written by a current Python, and reading it is a KeyError; one that has been used is a TypeError. Up to Python 3.10 writing is a use. Missing: that metadata can be read back, which never holds. -/
theorem C139_meta_errors_partial (a : Args) (s : Slots) :
    metaTrip false ⟨a, none⟩ = .error .keyError ∧ (∀ old, metaTrip old ⟨a, some s⟩ = .error .typeError) ∧
    metaTrip true ⟨a, none⟩ =
      if a.ids.length = a.lengths.length ∧ a.lengths.length = a.sos.length ∧ a.sos.length = a.eos.length then .error .typeError else .error .valueError := by
  refine ⟨rfl, fun old => by cases old <;> rfl, ?_⟩
  unfold metaTrip dumps initObj
  by_cases h : a.ids.length = a.lengths.length ∧ a.lengths.length = a.sos.length ∧ a.sos.length = a.eos.length
  · simp only [h, and_self, if_true]; rfl
  · simp only [h, if_false]; rfl

/-- **C139 is false of the code.** No StreamTensor can be pickled: with a named axis torch refuses, without names the inner state lacks metadata. -/
theorem C139_tensor_false {α : Type} (x : Tn.STen α) :
    dumpsTensor x = if ∃ n ∈ x.t.names, n ≠ none then .error .runtimeError else .error .attributeError := by
  unfold dumpsTensor
  have : (x.t.names.any Option.isSome = true) ↔ ∃ n ∈ x.t.names, n ≠ none := by
    simp only [List.any_eq_true, Option.isSome_iff_ne_none]
  by_cases h : ∃ n ∈ x.t.names, n ≠ none
  · rw [if_pos h, if_pos (this.2 h)]
  · rw [if_neg h, if_neg (fun h' => h (this.1 h'))]

example : metaTrip true ⟨⟨["a", "b"], [true, false], [false, true], [3, 4]⟩, none⟩ = .error .typeError := by decide

end DS.Pickle

namespace DS.Heap

/-- A use that is not an in-place write. -/
def Gentle : Act → Prop
  | .write _ _ _ => False
  | _ => True

/-- **C140 is false of the code.** A copy has no chunk indices, and an in-place write to its lengths changes the original. -/
theorem C140_copy_false :
    (step ⟨mem0, .forced obj0, copy obj0⟩ false (.read .chunk)).report false .chunk = [] ∧ mem0.read (obj0 .chunk) = [0, 5] ∧
    (run ⟨mem0, .forced obj0, copy obj0⟩ [(false, .write .lengths 0 7)]).report true .lengths = [7, 4] := by
  decide

/-- C140, what holds: the copy reports the flags and lengths of the original, and after any history of uses, reading or assigning columns of one changes nothing that the other reports.
Missing: chunk indices, and in-place writes. -/
theorem C140_copy_partial (h : Mem) (o : Obj) (ho : Alloc h o) :
    (∀ c, c ≠ Col.chunk → (State.mk h (.forced o) (copy o)).report false c = h.read (o c)) ∧
    ∀ (ops : List (Bool × Act)) (x : Act), Gentle x → ∀ c,
      (step (run ⟨h, .forced o, copy o⟩ ops) true x).report false c = (run ⟨h, .forced o, copy o⟩ ops).report false c ∧
      (step (run ⟨h, .forced o, copy o⟩ ops) false x).report true c = (run ⟨h, .forced o, copy o⟩ ops).report true c := by
  refine ⟨fun c hc => ?_, fun ops x hx c => ?_⟩
  · cases c <;> first | rfl | exact absurd rfl hc
  · -- what both proxies hold is allocated, and forcing neither allocates nor changes what is held
    have key : ∀ ops : List (Bool × Act), Alloc (run ⟨h, .forced o, copy o⟩ ops).mem (run ⟨h, .forced o, copy o⟩ ops).a.obj ∧
        Alloc (run ⟨h, .forced o, copy o⟩ ops).mem (run ⟨h, .forced o, copy o⟩ ops).b.obj ∧
        (∀ m, force m (run ⟨h, .forced o, copy o⟩ ops).a = (m, (run ⟨h, .forced o, copy o⟩ ops).a.obj)) ∧
        (∀ m, force m (run ⟨h, .forced o, copy o⟩ ops).b = (m, (run ⟨h, .forced o, copy o⟩ ops).b.obj)) := by
      intro ops
      generalize hs : State.mk h (.forced o) (copy o) = s
      have h0 : Alloc s.mem s.a.obj ∧ Alloc s.mem s.b.obj ∧ (∀ m, force m s.a = (m, s.a.obj)) ∧ (∀ m, force m s.b = (m, s.b.obj)) := by
        subst hs
        refine ⟨ho, fun c => ?_, fun _ => rfl, fun _ => rfl⟩
        cases c
        · exact ho .sos
        · exact ho .eos
        · exact ho .lengths
        · exact ho .chunk
      clear hs ho
      unfold run
      induction ops generalizing s with
      | nil => exact h0
      | cons y ys ih =>
        refine ih _ ?_
        obtain ⟨a1, a2, a3, a4⟩ := h0
        obtain ⟨who, y⟩ := y
        cases who with
        | true =>
          have := act_apart s.mem s.a.obj s.b.obj (fun _ _ => False) a1 a2 (fun _ _ h => h.elim) y
          simp only [step, if_true, a3]
          exact ⟨this.1, this.2.1, fun _ => rfl, a4⟩
        | false =>
          have := act_apart s.mem s.b.obj s.a.obj (fun _ _ => False) a2 a1 (fun _ _ h => h.elim) y
          simp only [step, Bool.false_eq_true, if_false, a4]
          exact ⟨this.2.1, this.1, a3, fun _ => rfl⟩
    obtain ⟨a1, a2, a3, a4⟩ := key ops
    generalize run ⟨h, .forced o, copy o⟩ ops = s at a1 a2 a3 a4
    have hact : ∀ (h : Mem) (o o' : Obj), Alloc h o' → (act h o x).1.read (o' c) = h.read (o' c) := by
      intro h o o' ho'
      cases x with
      | read _ => rfl
      | write _ _ _ => exact hx.elim
      | assign d v => exact read_alloc _ _ _ (ho' c)
    constructor
    · simp only [step, if_true, a3, State.report, Bool.false_eq_true, if_false]
      exact hact _ _ _ a2
    · simp only [step, Bool.false_eq_true, if_false, a4, State.report, if_true]
      exact hact _ _ _ a1

example : Alloc mem0 obj0 ∧ (run ⟨mem0, .forced obj0, copy obj0⟩ [(false, .assign .lengths [9, 9]), (true, .read .sos)]).report true .lengths = [3, 4] ∧
    (run ⟨mem0, .forced obj0, copy obj0⟩ [(false, .assign .lengths [9, 9]), (true, .read .sos)]).report false .lengths = [9, 9] :=
  ⟨obj0_ordinary.1, by decide, by decide⟩

end DS.Heap
