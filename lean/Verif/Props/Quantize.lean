import Verif.Model.Quantize
/-!
# C181: quantisation keeps the stream
-/

namespace DS.Tn

/-- Two streams of 3 and 1 frames. -/
def exQ : STen Int := ⟨{ shape := [2, 3], names := [BATCH, LENGTH], val := fun ix => [7, 12, 5, 9, 0, 0].getD (ix.getD 0 0 * 3 + ix.getD 1 0) 0 }, ⟨["a", "b"], [true, false], [false, true], [3, 1], none⟩⟩

/-- All entries of a tensor with two axes, with its shape and names. -/
def entriesQ {β : Type} (t : Ten β) : List Nat × List (Option String) × List β :=
  (t.shape, t.names, (List.range (t.shape.getD 0 0)).flatMap fun a => (List.range (t.shape.getD 1 0)).map fun b => t.val [a, b])

/-- **C181 is false of the code.** Rounding the entries of two streams to multiples of 5 with `fake_quantize_per_tensor_affine` gives the rounded entries in an ordinary tensor without names: the streams are lost, and no exception is raised.
A tuple of a StreamTensor and an ordinary tensor, which torch accepts, raises AttributeError. -/
theorem C181_quantize_false :
    entriesQ (fakeQuantize (fun a => a / 5 * 5) exQ) = ([2, 3], [none, none], [5, 10, 5, 5, 0, 0]) ∧
    (quantize (fun _ _ (a : Int) => a / 5) (.tuple [.stream exQ, .plain exQ.t])).map (fun _ => ()) = .error .attributeError :=
  ⟨rfl, rfl⟩

section
variable {α β : Type}

/-- C181, what the code does for one StreamTensor: the entries are rounded one by one, at the same places; the result is an ordinary tensor without names.
Missing: names and metadata. -/
theorem C181_values_partial (q : α → β) (x : STen α) :
    (fakeQuantize q x).shape = x.t.shape ∧ (∀ ix, (fakeQuantize q x).val ix = q (x.t.val ix)) ∧ ∀ n ∈ (fakeQuantize q x).names, n = none := by
  refine ⟨rfl, fun _ => rfl, ?_⟩
  intro n hn
  obtain ⟨_, -, h⟩ := List.mem_map.1 hn
  exact h.symm

example : entriesQ (fakeQuantize (fun a => a * 2) exQ) = ([2, 3], [none, none], [14, 24, 10, 18, 0, 0]) := rfl

theorem tensors_map (xs : List (STen α)) : tensors (xs.map Opd.stream) = .ok (xs.map fun x => x.t.unnamed) := by
  induction xs with
  | nil => rfl
  | cons x xs ih =>
    show (Opd.tensor (.stream x) >>= fun t => tensors (xs.map Opd.stream) >>= fun ts => .ok (t :: ts)) = _
    rw [ih]; rfl

/-- C181, what the code does for `quantize_per_tensor` and `quantize_per_tensor_dynamic`: one StreamTensor gives one tensor, a tuple of StreamTensors gives as many, each rounded by itself with its own scale; all are ordinary tensors without names.
Missing: names and metadata. -/
theorem C181_tuple_partial (q : Nat → Ten α → α → β) :
    (∀ x, ∃ t, quantize q (.one x) = .ok (.one t) ∧ t.shape = x.t.shape ∧ (∀ ix, t.val ix = q 0 x.t.unnamed (x.t.val ix)) ∧ ∀ n ∈ t.names, n = none) ∧
    ∀ xs : List (STen α), ∃ ts, quantize q (.tuple (xs.map Opd.stream)) = .ok (.tuple ts) ∧ ts.length = xs.length ∧
      ∀ (i : Nat) (x : STen α), xs[i]? = some x → ∃ t, ts[i]? = some t ∧ t.shape = x.t.shape ∧ (∀ ix, t.val ix = q i x.t.unnamed (x.t.val ix)) ∧ ∀ n ∈ t.names, n = none := by
  have hn : ∀ (x : STen α) (f : α → β), ∀ n ∈ (x.t.unnamed.entrywise f).names, n = none := by
    intro x f n hn
    obtain ⟨_, -, h⟩ := List.mem_map.1 hn
    exact h.symm
  constructor
  · intro x
    exact ⟨_, rfl, rfl, fun _ => rfl, hn x _⟩
  · intro xs
    refine ⟨(xs.map fun x => x.t.unnamed).mapIdx fun i t => t.entrywise (q i t), ?_, by simp, ?_⟩
    · show (tensors _ >>= _) = _
      rw [tensors_map]; rfl
    · intro i x hx
      refine ⟨x.t.unnamed.entrywise (q i x.t.unnamed), by simp [hx], rfl, fun _ => rfl, hn x _⟩

example : (quantize (fun i _ (a : Int) => a / (i + 1)) (.tuple ([exQ, exQ].map Opd.stream))).map (fun o => match o with | .one t => [entriesQ t] | .tuple ts => ts.map entriesQ) =
    .ok [([2, 3], [none, none], [7, 12, 5, 9, 0, 0]), ([2, 3], [none, none], [3, 6, 2, 4, 0, 0])] := rfl

/-- C181, refused: a tuple with an ordinary tensor raises AttributeError, wherever it stands.
Missing: the tuples of StreamTensors and ordinary tensors that torch accepts. -/
theorem C181_mixed_partial (q : Nat → Ten α → α → β) (xs : List (Opd α)) (t : Ten α) (h : Opd.plain t ∈ xs) : quantize q (.tuple xs) = .error .attributeError := by
  have : tensors xs = .error .attributeError := by
    induction xs with
    | nil => cases h
    | cons x xs ih =>
      show (Opd.tensor x >>= fun t => tensors xs >>= fun ts => .ok (t :: ts)) = _
      cases x with
      | plain u => rfl
      | stream u =>
        have : Opd.plain t ∈ xs := by
          rcases List.mem_cons.1 h with h | h
          · cases h
          · exact h
        rw [ih this]; rfl
  show (tensors xs >>= _) = _
  rw [this]; rfl

example : Opd.plain exQ.t ∈ [Opd.stream exQ, Opd.plain exQ.t] := by simp

end
end DS.Tn
