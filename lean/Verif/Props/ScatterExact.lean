import Verif.Props.Take
/-!
# C127, C129: scatters for every axis, with and without chunk indices
-/

namespace DS.Tn

variable {α : Type}

/-- C127, scatters, exactly: `torch.scatter_add(x, d, i, src)` with a stream `i` as index, for every axis and all metadata. Along the non-negative position of batch or length the result is plain. Along other axes, and for every negative spelling, the metadata of `x` and of `i` are
compared with those of `x`: if both pass, the result is a stream with names and metadata of `x`; otherwise the first that does not decides: AttributeError without chunk indices, a plain tensor with.
Missing: negative spellings of batch and length, which should give a plain tensor; with chunk indices passing the comparison is not being equal. -/
theorem C127_scatter_exact_partial (x i : STen α) (b l : Nat) (hx : x.Describes b l) (d : Int) (out : Ten α) (hout : out.ndim = x.t.ndim) :
    (d = b ∨ d = l → scatter [x, i] d (.ok out) = .ok (.plain out)) ∧
    (d ≠ b → d ≠ l → Looks x.md x.md → Looks i.md x.md → scatter [x, i] d (.ok out) = .ok (.stream ⟨{ out with names := x.t.names }, x.md⟩)) ∧
    (d ≠ b → d ≠ l → ¬ Looks x.md x.md → scatter [x, i] d (.ok out) = if x.md.chunk = none then .error .attributeError else .ok (.plain out)) ∧
    (d ≠ b → d ≠ l → Looks x.md x.md → ¬ Looks i.md x.md → scatter [x, i] d (.ok out) = if i.md.chunk = none then .error .attributeError else .ok (.plain out)) := by
  obtain ⟨h1, h2, h3⟩ := C93_scatter_exact_partial x [i] b l hx d out hout
  refine ⟨h1, fun a c e f => h2 a c ?_, fun a c e => h3 a c [] x [i] rfl (by simp) e, fun a c e f => h3 a c [x] i [] rfl (by simpa using e) f⟩
  intro y hy
  rcases List.mem_cons.1 hy with h | h
  · rw [h]; exact e
  · rw [List.mem_singleton.1 h]; exact f

/-- C129, exactly, for every axis and all metadata: `x.scatter_add_(d, …)` writes the new data into `x`, whatever is returned or raised afterwards. The non-negative position of batch or length gives a plain tensor. Any other `d`, negative ones included, gives a stream that is `x` after the
call if all metadata pass the comparison with those of `x`; otherwise the first that does not decides: AttributeError (after the data have been written) without chunk indices, a plain tensor with.
Missing: `x` as the result along batch and length and with chunk indices. -/
theorem C129_exact_partial (x : STen α) (others : List (STen α)) (b l : Nat) (hx : x.Describes b l) (d : Int) (t : Ten α) (ht : t.shape = x.t.shape) :
    (scatterInto x others d (.ok t)).2 = ⟨{ x.t with val := t.val }, x.md⟩ ∧
    (d = b ∨ d = l → (scatterInto x others d (.ok t)).1 = .ok (.plain t)) ∧
    (d ≠ b → d ≠ l → (∀ y ∈ x :: others, Looks y.md x.md) → (scatterInto x others d (.ok t)).1 = .ok (.stream (scatterInto x others d (.ok t)).2)) ∧
    (d ≠ b → d ≠ l → ∀ pre y post, x :: others = pre ++ y :: post → (∀ z ∈ pre, Looks z.md x.md) → ¬ Looks y.md x.md →
      (scatterInto x others d (.ok t)).1 = if y.md.chunk = none then .error .attributeError else .ok (.plain t)) := by
  obtain ⟨h1, h2, h3⟩ := C93_scatter_exact_partial x (others ++ [x]) b l hx d t (congrArg List.length ht)
  refine ⟨rfl, h1, ?_, ?_⟩
  · intro a c h
    refine (h2 a c ?_).trans ?_
    · intro y hy
      rcases List.mem_cons.1 hy with e | e
      · exact h y (by rw [e]; simp)
      · rcases List.mem_append.1 e with e | e
        · exact h y (by simp [e])
        · rw [List.mem_singleton.1 e]; exact h x (by simp)
    · show Except.ok (Opd.stream ⟨{ t with names := x.t.names }, x.md⟩) = Except.ok (Opd.stream ⟨{ x.t with val := t.val }, x.md⟩)
      dsimp only
      rw [ht]
  · intro a c pre y post he hpre hy
    exact h3 a c pre y (post ++ [x]) (by rw [← List.cons_append, he]; simp) hpre hy

/-- With different metadata the data are written, and then AttributeError is raised. -/
example : ∃ x y : STen (List Nat), ∃ t : Ten (List Nat), x.Describes 0 2 ∧ t.shape = x.t.shape ∧ Looks x.md x.md ∧ ¬ Looks y.md x.md ∧ y.md.chunk = none ∧
    scatterInto x [y] (-2) (.ok t) = (.error .attributeError, ⟨{ x.t with val := t.val }, x.md⟩) :=
  ⟨⟨exT [2, 4, 3] [some "B", some "F", some "L"], exM2⟩, ⟨exT [2, 4, 3] [some "B", some "F", some "L"], exM2'⟩, exT [2, 4, 3] [none, none, none], exBFL_describes, rfl, by decide, by decide, rfl, rfl⟩

example : ∃ x i : STen (List Nat), x.Describes 0 2 ∧ Looks x.md x.md ∧ ¬ Looks i.md x.md ∧ ∃ u, scatter [x, i] (-1) (.ok x.t) = .ok (.plain u) :=
  ⟨_, ⟨exT [2, 4, 3] [some "B", some "F", some "L"], exM2c⟩, exBFL_describes, by decide, by decide, _, rfl⟩

end DS.Tn
