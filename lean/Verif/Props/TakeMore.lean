import Verif.Props.Take
/-!
# C125: `take` with negative positions and positions out of range
-/

namespace DS.Tn

variable {α : Type}

theorem torchPoss_range (n : Nat) (is : List Int) :
    (∀ i ∈ is, -(n : Int) ≤ i ∧ i < n) ∧ (∃ ps, torchPoss n is = .ok ps) ∨ (∃ i ∈ is, i < -(n : Int) ∨ (n : Int) ≤ i) ∧ torchPoss n is = .error .indexError := by
  induction is with
  | nil => exact .inl ⟨by simp, [], rfl⟩
  | cons i is ih =>
    by_cases h : -(n : Int) ≤ i ∧ i < n
    · have hp : ∃ p, torchPos n i = .ok p := by
        unfold torchPos
        dsimp only
        rw [if_pos (by split <;> omega)]
        exact ⟨_, rfl⟩
      obtain ⟨p, hp⟩ := hp
      rcases ih with ⟨h1, ps, h2⟩ | ⟨⟨j, h1, h3⟩, h2⟩
      · refine .inl ⟨?_, p :: ps, ?_⟩
        · intro j hj
          rcases List.mem_cons.1 hj with e | e
          · rw [e]; exact h
          · exact h1 j e
        · rw [torchPoss, hp, h2]; rfl
      · refine .inr ⟨⟨j, by simp [h1], h3⟩, ?_⟩
        rw [torchPoss, hp, h2]; rfl
    · refine .inr ⟨⟨i, by simp, by omega⟩, ?_⟩
      have hp : torchPos n i = .error .indexError := by
        unfold torchPos
        dsimp only
        rw [if_neg (by split <;> omega)]
      rw [torchPoss, hp]; rfl

/-- C125, refused, exactly: positions outside the tensor raise IndexError, as in torch; positions in range of which some are negative, which torch counts from the end, raise ValueError (`np.unravel_index`).
Missing: a result for negative positions. -/
theorem C125_refused_partial (junk : Int) (x : STen α) (i : Ten Int) :
    ((∃ v ∈ i.toList, v < -(prod x.t.shape : Int) ∨ (prod x.t.shape : Int) ≤ v) → take junk x (.plain i) = .error .indexError) ∧
    ((∀ v ∈ i.toList, -(prod x.t.shape : Int) ≤ v ∧ v < prod x.t.shape) → (∃ v ∈ i.toList, v < 0) → take junk x (.plain i) = .error .valueError) := by
  constructor
  · intro ⟨v, hv, h⟩
    rcases torchPoss_range (prod x.t.shape) i.toList with ⟨h1, -⟩ | ⟨-, h2⟩
    · have := h1 v hv; omega
    · show ((torchPoss (prod x.t.shape) i.toList >>= _) >>= _) = _
      rw [h2]; rfl
  · intro hin ⟨v, hv, h⟩
    rcases torchPoss_range (prod x.t.shape) i.toList with ⟨-, ps, h2⟩ | ⟨⟨j, hj, h1⟩, -⟩
    · show ((torchPoss (prod x.t.shape) i.toList >>= _) >>= _) = _
      rw [h2, Except.bind_ok', Except.bind_ok']
      have : unravelIndex x.t.shape (Opd.plain i).ten.toList = .error .valueError := by
        unfold unravelIndex
        exact if_pos (List.any_eq_true.2 ⟨v, hv, by simpa using h⟩)
      rw [this]; rfl
    · have := hin j hj; omega

example : ∃ (x : STen (List Nat)) (i j : Ten Int), x.Describes 0 2 ∧ i.toList = [23, -24] ∧ j.toList = [0, 24] ∧ prod x.t.shape = 24 ∧ take 0 x (.plain i) = .error .valueError ∧ take 0 x (.plain j) = .error .indexError :=
  ⟨_, ⟨[2], [none], fun ix => if ix = [0] then 23 else -24⟩, ⟨[2], [none], fun ix => if ix = [0] then 0 else 24⟩, exBFL_describes, rfl, rfl, rfl, rfl, rfl⟩

end DS.Tn
