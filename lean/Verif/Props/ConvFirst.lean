import Verif.Props.ConvTen
/-!
# C170: batches whose first axis is not the batch axis
-/
namespace DS.ConvT
open DS.Tn DS.Conv
section
variable {α : Type} [AddCommMonoid α] [Mul α]

omit [Mul α] in
theorem widenT_head {p : Nat} {m : Meta} {t t' : Ten α} {ml : Int} (hd : 2 ≤ t.ndim) (h : widenT p m t ml = .ok t') : t'.shape.headD 0 = t.shape.headD 0 := by
  have key : ∀ a b, (padLast a b t).shape.headD 0 = t.shape.headD 0 := by
    intro a b
    unfold Ten.ndim at hd
    simp only [padLast, Ten.ndim]
    cases hs : t.shape with
    | nil => rfl
    | cons s ss =>
      rw [hs] at hd
      cases ss with
      | nil => simp at hd
      | cons s' ss => simp
  unfold widenT at h
  dsimp only at h
  split at h
  · split at h
    · split at h
      · cases h; exact key _ _
      · cases h
    · cases h; exact key _ _
  · cases h; rfl

/-- C170, another axis first: if some of the streams start and some do not, and the first axis has not the size of the batch (as when another axis precedes it), a layer with padding raises IndexError at the mask of the starting rows.
Missing: looking the batch axis up by its name. -/
theorem C170_mixed_partial (k : Kern α) (c : Cfg) (x : STen α) (hp : 0 < c.padding) (hd : 2 ≤ x.t.ndim) (hs : true ∈ x.md.sos) (hn : false ∈ x.md.sos) (hw : x.md.WF)
    (h : x.md.size ≠ x.t.shape.headD 0) : conv1dT k c x = .error .indexError := by
  have hany : x.md.anyStarting = true := by
    unfold Meta.anyStarting; rw [List.any_eq_true]; exact ⟨true, hs, rfl⟩
  have hall : x.md.allStarting = false := by
    unfold Meta.allStarting; rw [List.all_eq_false]; exact ⟨false, hn, by simp⟩
  have hA : applyPaddingT c x.md x.t.unnamed = .error .indexError := by
    unfold applyPaddingT
    rw [if_pos hp]
    dsimp only
    have h1 : ({ x.md with lengths := padLengths c.padding x.md } : Meta).allStarting = false := hall
    have h2 : ({ x.md with lengths := padLengths c.padding x.md } : Meta).anyStarting = true := hany
    rw [h1, h2]
    rw [if_neg (by simp)]
    have h3 : (padLengths c.padding x.md).length = x.md.ids.length := by
      unfold padLengths addWhere
      obtain ⟨w1, w2, w3, -⟩ := hw
      split
      · simp [w3]
      · split
        · simp [w1, w2, w3]
        · exact w3
    have h4 : ∃ ml, ({ x.md with lengths := padLengths c.padding x.md } : Meta).maxLength = .ok ml := by
      unfold Meta.maxLength
      dsimp only
      cases hq : padLengths c.padding x.md with
      | nil =>
        rw [hq] at h3
        have := List.length_pos_of_mem hs
        rw [hw.1] at this
        simp at h3
        omega
      | cons a l => exact ⟨_, rfl⟩
    obtain ⟨ml, h4⟩ := h4
    rw [h4, Except.bind_ok']
    cases h5 : widenT c.padding { x.md with lengths := padLengths c.padding x.md } x.t.unnamed ml with
    | error e =>
      exfalso
      unfold widenT at h5
      dsimp only at h5
      rw [h1] at h5
      split at h5
      · simp at h5
      · cases h5
    | ok t =>
      rw [Except.bind_ok']
      have h6 := widenT_head (by exact hd) h5
      have h7 : rollStarting c.padding x.md.sos t = .error .indexError := by
        unfold rollStarting
        rw [if_pos]
        rw [h6, hw.1]
        exact h
      simp only [h7, Bool.not_false, Bool.and_self, if_true]
      rfl
  unfold conv1dT
  rw [hA]
  rfl

omit [Mul α] in
theorem applyPaddingT_head {c : Cfg} {m : Meta} {t : Ten α} {r : Meta × Nat × Ten α} (hd : 2 ≤ t.ndim) (h : applyPaddingT c m t = .ok r) : r.2.2.shape.headD 0 = t.shape.headD 0 := by
  unfold applyPaddingT at h
  split at h
  · dsimp only at h
    split at h
    · cases h; rfl
    · obtain ⟨ml, -, h⟩ := ok_of_bind h
      obtain ⟨t1, h1, h⟩ := ok_of_bind h
      refine Eq.trans ?_ (widenT_head hd h1)
      split at h
      · obtain ⟨t2, h2, h⟩ := ok_of_bind h
        cases h
        unfold rollStarting at h2
        split at h2
        · cases h2
        · cases h2; rfl
      · obtain ⟨t2, h2, h⟩ := ok_of_bind h
        cases h
        cases h2; rfl
  · cases h; rfl

omit [Mul α] in
theorem applyPaddingT_lengths {c : Cfg} {m : Meta} {t : Ten α} {r : Meta × Nat × Ten α} (hw : m.WF) (h : applyPaddingT c m t = .ok r) : r.1.lengths.length = m.ids.length := by
  have h3 : (padLengths c.padding m).length = m.ids.length := by
    unfold padLengths addWhere
    obtain ⟨w1, w2, w3, -⟩ := hw
    split
    · simp [w3]
    · split
      · simp [w1, w2, w3]
      · exact w3
  unfold applyPaddingT at h
  split at h
  · dsimp only at h
    split at h
    · cases h; exact h3
    · obtain ⟨ml, -, h⟩ := ok_of_bind h
      obtain ⟨t1, h1, h⟩ := ok_of_bind h
      split at h
      · obtain ⟨t2, h2, h⟩ := ok_of_bind h
        cases h; exact h3
      · obtain ⟨t2, h2, h⟩ := ok_of_bind h
        cases h; exact h3
  · cases h; exact hw.2.2.1

/-- C170, another axis first: a batch of several streams (or none) whose first axis has another size than the number of streams is refused by every layer, with or without padding.
Missing: looking the batch axis up by its name; if the sizes agree by chance, or for a single stream, the call is accepted (C170_axes_false). -/
theorem C170_first_partial (k : Kern α) (c : Cfg) (x : STen α) (hw : x.md.WF) (h : x.md.size ≠ x.t.shape.headD 0) (h1 : x.md.size ≠ 1) : ∃ e, conv1dT k c x = .error e := by
  unfold conv1dT
  cases hA : applyPaddingT c x.md x.t.unnamed with
  | error e => exact ⟨e, rfl⟩
  | ok r =>
    have hr := applyPaddingT_rank hA
    have hh := applyPaddingT_head (c := c) (m := x.md) (t := x.t.unnamed) (r := r)
    have hm := applyPaddingT_lengths hw hA
    obtain ⟨m, p, t⟩ := r
    rw [Except.bind_ok']
    dsimp only at hr hh hm ⊢
    cases tempBufferT c m t with
    | error e => exact ⟨e, rfl⟩
    | ok items =>
      rw [Except.bind_ok']
      cases hT : torchConv k c p t with
      | error e => exact ⟨e, rfl⟩
      | ok y =>
        rw [Except.bind_ok']
        cases hR : y.rename x.t.names with
        | error e => exact ⟨e, rfl⟩
        | ok z =>
          have hz : z.shape = y.shape := by
            unfold Ten.rename at hR
            split at hR
            · cases hR; rfl
            · split at hR
              · cases hR; rfl
              · cases hR
          rw [Except.bind_ok']
          refine ⟨.runtimeError, ?_⟩
          unfold maskT
          split
          · rename_i b o v heq
            rw [if_neg]
            · rfl
            · rw [List.length_map, hm]
              rintro (h2 | h2)
              · apply h
                have h3 := torchConv_rank hT
                have h4 : t.ndim = 3 := by rw [← h3, Ten.ndim, ← hz, heq]; rfl
                have h5 := hh (by rw [← hr, h4]; omega) hA
                unfold torchConv at hT
                split at hT
                · rename_i heq2
                  split at hT
                  · cases hT
                  · cases hT
                    rw [heq] at hz
                    rw [heq2] at h5
                    show x.md.ids.length = x.t.shape.headD 0
                    rw [h2]
                    cases hz
                    exact h5
                · rename_i heq2
                  simp [Ten.ndim, heq2] at h4
                · cases hT
              · exact h1 h2
          · rfl

/-- Two streams with the axes features, batch, time. -/
def exFBL : STen Int := ⟨{ shape := [3, 2, 2], names := [some "F", BATCH, LENGTH], val := fun _ => 1 }, ⟨["a", "b"], [true, false], [false, false], [2, 2], none⟩⟩

example : exFBL.md.WF ∧ exFBL.md.size ≠ exFBL.t.shape.headD 0 ∧ exFBL.md.size ≠ 1 ∧ 2 ≤ exFBL.t.ndim ∧ true ∈ exFBL.md.sos ∧ false ∈ exFBL.md.sos ∧
    conv1dT exSwap ⟨1, 1, 1, 1⟩ exFBL = .error .indexError ∧ conv1dT exSwap ⟨1, 1, 1, 0⟩ exFBL = .error .runtimeError :=
  ⟨by decide, by decide, by decide, by decide, by decide, by decide, rfl, rfl⟩

end
end DS.ConvT
