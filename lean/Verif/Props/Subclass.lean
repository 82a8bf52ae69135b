import Verif.Props.Modes
/-! # C100: what instances of subclasses of Conv1d compute online -/

namespace DS.Modes
open DS.Conv

section
variable {α β : Type} [Zero α] [Zero β]

/-- One call on a tight batch: every chunk is convolved on its own. -/
theorem alone (c : Cfg) (hv : c.Valid) (g : List α → β) (x : ST α) (hx : WellPacked x) (hne : unpack x ≠ []) (ht : Tight x.width (unpack x)) :
    ((∀ u ∈ unpack x, (full c u).length < c.kw) → conv1d c g x = .error .runtimeError) ∧
    ((∃ u ∈ unpack x, c.kw ≤ (full c u).length) → ∃ y items, conv1d c g x = .ok (y, items) ∧ WellPacked y ∧
      unpack y = (unpack x).map fun u => u.set x.md.chunk.isSome (conv c g (full c u))) := by
  have hpk := packs_pk hx
  obtain ⟨w', h1, h2, h3⟩ := conv1d_pk c hv g x.md.chunk.isSome x.width (unpack x) hne hx.2.2.2.1 (.inr (.inr (.inr ht.reaches)))
  rw [← hpk] at h3
  refine ⟨?_, ?_⟩
  · intro h
    obtain ⟨u, hu, hw⟩ := h2 ht
    rw [h3, if_pos (by rw [← hw]; exact h u hu)]
  · rintro ⟨u, hu, hw⟩
    have := h1 u hu
    rw [h3, if_neg (by omega)]
    have hidx : ∀ z ∈ (unpack x).map (fun u => u.set x.md.chunk.isSome (conv c g (full c u))), z.index.isSome = x.md.chunk.isSome := by
      intro z hz
      obtain ⟨v, hv, rfl⟩ := List.mem_map.1 hz
      have := packs_index hx v hv
      simp only [Chunk.set]
      split
      · exact this
      · rename_i h
        simp [h]
    have hup := unpack_pk x.md.chunk.isSome (nOut c w') _ hidx
    refine ⟨_, _, rfl, ?_, hup⟩
    show Packs _ _ _
    rw [hup]
    refine pk_packs hidx ?_
    intro z hz
    obtain ⟨v, hv', rfl⟩ := List.mem_map.1 hz
    show (conv c g (full c v)).length ≤ _
    rw [conv_length c hv]
    exact nOut_mono c hv (h1 v hv')

/-- What the kernel sees of a chunk without hooks: start padding if it starts, the frames, end padding if it ends. -/
def sees (c : Cfg) (u : Chunk α) : List α := (if u.sos then zeros c.padding else []) ++ u.frames ++ (if u.eos then zeros c.padding else [])

/-- **C100, exactly.** An instance of a subclass of `Conv1d` is called without hooks on every batch. If all batches are accepted, the outputs of a stream are those of its chunks one by one,
each convolved on its own with the padding at the ends of the stream. Missing: outputs whose kernel positions lie across the borders of chunks. -/
theorem C100_exact_partial (c : Cfg) (hv : c.Valid) (g : List α → β) (xs : List (ST α))
    (hx : ∀ x ∈ xs, WellPacked x ∧ unpack x ≠ [] ∧ Tight x.width (unpack x)) (ys : List (ST β))
    (hrun : xs.mapM (fun x => (conv1d c g x).map (·.1)) = .ok ys) (i : String) :
    collected i ys = (chunksOf i (xs.map unpack)).flatMap fun u => conv c g (sees c u) := by
  induction xs generalizing ys with
  | nil =>
    simp only [List.mapM_nil] at hrun
    cases hrun
    rfl
  | cons x xs ih =>
    rw [List.mapM_cons] at hrun
    obtain ⟨y, h1, hrun⟩ := ok_of_bind hrun
    obtain ⟨ys', h2, hrun⟩ := ok_of_bind hrun
    cases hrun
    obtain ⟨a1, a2, a3⟩ := hx x (by simp)
    have ih := ih (fun x hx' => hx x (by simp [hx'])) ys' h2
    obtain ⟨r1, r2⟩ := alone c hv g x a1 a2 a3
    have hex : ∃ u ∈ unpack x, c.kw ≤ (full c u).length := by
      by_contra hno
      have := r1 (fun u hu => by
        by_contra hlt
        exact hno ⟨u, hu, by omega⟩)
      rw [this] at h1
      cases h1
    obtain ⟨y', items, e, -, hu⟩ := r2 hex
    rw [e] at h1
    cases h1
    have ea : ∀ {γ : Type} [Zero γ] (z : ST γ) (zs : List (ST γ)), chunksOf i ((z :: zs).map unpack) = (unpack z).filter (fun u => decide (u.id = i)) ++ chunksOf i (zs.map unpack) := by
      intro γ _ z zs
      simp [chunksOf, List.filter_append]
    unfold collected at ih ⊢
    rw [ea, ea, List.flatMap_append, ← ih, hu]
    unfold allFrames
    rw [List.flatMap_append]
    congr 1
    rw [List.filter_map, List.flatMap_map]
    rfl

/-- **C100, what is refused.** A call without hooks on a tight batch raises RuntimeError exactly when no chunk, with its padding, is as long as the kernel. Missing: the frames of such
chunks, which an ordinary online `Conv1d` would add to the buffer's. -/
theorem C100_refused_partial (c : Cfg) (hv : c.Valid) (g : List α → β) (x : ST α) (hx : WellPacked x) (hne : unpack x ≠ []) (ht : Tight x.width (unpack x)) :
    (conv1d c g x = .error .runtimeError ↔ ∀ u ∈ unpack x, (sees c u).length < span c) ∧
      ((∃ u ∈ unpack x, span c ≤ (sees c u).length) → ∃ y items, conv1d c g x = .ok (y, items) ∧ (unpack y).map (·.frames) = (unpack x).map fun u => conv c g (sees c u)) := by
  rw [span_eq c hv]
  obtain ⟨r1, r2⟩ := alone c hv g x hx hne ht
  refine ⟨⟨?_, r1⟩, ?_⟩
  · intro h u hu
    by_contra hlt
    obtain ⟨y, items, e, -⟩ := r2 ⟨u, hu, Nat.le_of_not_lt hlt⟩
    rw [e] at h
    cases h
  · intro h
    obtain ⟨y, items, e, -, hu⟩ := r2 h
    refine ⟨y, items, e, ?_⟩
    rw [hu, List.map_map]
    rfl

/-- A stream of two chunks of two frames, and a kernel of width 2: the output over the border is missing. -/
example : ([(⟨⟨["a"], [true], [false], [2], none⟩, 2, [[1, 2]]⟩ : ST Int), ⟨⟨["a"], [false], [true], [2], none⟩, 2, [[3, 4]]⟩].mapM
      (fun x => (conv1d ⟨2, 1, 1, 0⟩ exG x).map (·.1))).map (collected "a") = .ok [12, 34] ∧
    (conv1d ⟨3, 1, 1, 0⟩ exG (⟨⟨["a"], [true], [false], [2], none⟩, 2, [[1, 2]]⟩ : ST Int)).map (fun y => y.1.rows) = .error .runtimeError ∧
    WellPacked (⟨⟨["a"], [true], [false], [2], none⟩, 2, [[1, 2]]⟩ : ST Int) ∧ Tight 2 (unpack (⟨⟨["a"], [true], [false], [2], none⟩, 2, [[1, 2]]⟩ : ST Int)) :=
  ⟨by decide, by decide, ⟨by decide, by decide, rfl, by decide, by decide⟩, _, List.mem_singleton.2 rfl, rfl⟩

end
end DS.Modes
