import Verif.Spec.Tensor
/-! # Row-major positions -/

namespace DS.Tn

theorem prod_eq (ss : List Nat) : prod ss = ss.prod := by
  induction ss with
  | nil => rfl
  | cons s ss ih => rw [prod, ih, List.prod_cons]

/-- Positions are below the number of entries. -/
theorem ravel_lt {p shape : List Nat} (h : Inside p shape) : ravel shape p < shape.prod := by
  induction h with
  | nil => simp [ravel]
  | @cons i s is ss hi _ ih =>
    rw [ravel, List.prod_cons]
    calc i * ss.prod + ravel ss is < i * ss.prod + ss.prod := by omega
      _ = (i + 1) * ss.prod := by rw [Nat.succ_mul]
      _ ≤ s * ss.prod := Nat.mul_le_mul_right _ hi

/-- `unravel` finds the multi-index of a position. -/
theorem unravel_ravel {p shape : List Nat} (h : Inside p shape) : unravel shape (ravel shape p) = p := by
  induction h with
  | nil => rfl
  | @cons i s is ss hi h ih =>
    have hlt := ravel_lt h
    have h0 : 0 < ss.prod := by omega
    rw [ravel, unravel, prod_eq, Nat.mul_comm, Nat.mul_add_div h0, Nat.div_eq_of_lt hlt, Nat.mul_add_mod, Nat.mod_eq_of_lt hlt, ih, Nat.add_zero]

/-- Every position below the number of entries has a multi-index. -/
theorem unravel_inside (shape : List Nat) : ∀ k, k < shape.prod → Inside (unravel shape k) shape ∧ ravel shape (unravel shape k) = k := by
  induction shape with
  | nil => intro k hk; rw [List.prod_nil] at hk; exact ⟨List.Forall₂.nil, by rw [show k = 0 by omega]; rfl⟩
  | cons s ss ih =>
    intro k hk
    rw [List.prod_cons] at hk
    have h0 : 0 < ss.prod := by
      rcases Nat.eq_zero_or_pos ss.prod with h | h
      · rw [h] at hk; simp at hk
      · exact h
    obtain ⟨h1, h2⟩ := ih (k % ss.prod) (Nat.mod_lt _ h0)
    rw [unravel, prod_eq, ravel, h2]
    refine ⟨List.Forall₂.cons ?_ h1, ?_⟩
    · exact Nat.div_lt_of_lt_mul (by rw [Nat.mul_comm]; exact hk)
    · rw [Nat.mul_comm]; exact Nat.div_add_mod k ss.prod

end DS.Tn
