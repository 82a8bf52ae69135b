import Verif.Spec.Conv
import Verif.Lemmas.Rows
/-! Arithmetic of convolution and the kernel lemma: convolving a concatenation. -/

namespace DS.Conv

section
variable {α β : Type} [Zero α] [Zero β]

theorem span_eq (c : Cfg) (hv : c.Valid) : span c = c.kw := by
  obtain ⟨h1, h2, -⟩ := hv
  unfold span Cfg.kw
  obtain ⟨k, hk⟩ : ∃ k, c.ks = k + 1 := ⟨c.ks - 1, by omega⟩
  obtain ⟨d, hd⟩ : ∃ d, c.dil = d + 1 := ⟨c.dil - 1, by omega⟩
  rw [hk, hd]
  simp only [Nat.add_sub_cancel, Nat.mul_add, Nat.mul_one]
  omega

theorem kw_pos (c : Cfg) (hv : c.Valid) : 1 ≤ c.kw := by
  have := hv.1
  unfold Cfg.kw; omega

/-- Number of outputs for `n` input frames. -/
def nOut (c : Cfg) (n : Nat) : Nat := if n < c.kw then 0 else (n - c.kw) / c.stride + 1

theorem lt_nOut (c : Cfg) (hv : c.Valid) (n k : Nat) : k < nOut c n ↔ k * c.stride + c.kw ≤ n := by
  have hs : 0 < c.stride := hv.2.2
  unfold nOut
  split
  · have : c.kw ≤ k * c.stride + c.kw := Nat.le_add_left _ _
    omega
  · rename_i h
    rw [Nat.lt_succ_iff, Nat.le_div_iff_mul_le hs]
    omega

theorem nOut_le (c : Cfg) (hv : c.Valid) (n : Nat) : nOut c n ≤ n + 1 := by
  by_contra h
  have := (lt_nOut c hv n (n + 1)).1 (by omega)
  have hs : 1 ≤ c.stride := hv.2.2
  have h2 : (n + 1) * 1 ≤ (n + 1) * c.stride := Nat.mul_le_mul_left _ hs
  omega

theorem filter_lt_range (m t : Nat) : (List.range m).filter (fun k => decide (k < t)) = List.range (min m t) := by
  induction m with
  | zero => simp
  | succ m ih =>
    rw [List.range_succ, List.filter_append, ih]
    by_cases h : m < t
    · rw [show min m t = m by omega, show min (m + 1) t = m + 1 by omega, List.range_succ]
      simp [h]
    · rw [show min m t = t by omega, show min (m + 1) t = t by omega]
      simp [h]

theorem fits_eq (c : Cfg) (hv : c.Valid) (n : Nat) : fits c n = List.range (nOut c n) := by
  unfold fits
  have : (fun k => decide (k * c.stride + span c ≤ n)) = fun k => decide (k < nOut c n) := by
    funext k
    rw [span_eq c hv]
    exact decide_eq_decide.2 (lt_nOut c hv n k).symm
  rw [this, filter_lt_range]
  rw [show min (n + 1) (nOut c n) = nOut c n by have := nOut_le c hv n; omega]

theorem conv_eq (c : Cfg) (hv : c.Valid) (g : List α → β) (x : List α) :
    conv c g x = (List.range (nOut c x.length)).map fun k => at' c g x (k * c.stride) := by
  unfold conv
  rw [fits_eq c hv]

theorem conv_length (c : Cfg) (hv : c.Valid) (g : List α → β) (x : List α) : (conv c g x).length = nOut c x.length := by
  rw [conv_eq c hv]; simp

theorem at'_congr (c : Cfg) (hv : c.Valid) (g : List α → β) (x y : List α) (o o' : Nat)
    (h : ∀ j, j < c.kw → x.getD (o + j) 0 = y.getD (o' + j) 0) : at' c g x o = at' c g y o' := by
  unfold at'
  congr 1
  apply List.map_congr_left
  intro i hi
  apply h
  have hi := List.mem_range.1 hi
  rw [← span_eq c hv]
  unfold span
  have : i * c.dil ≤ (c.ks - 1) * c.dil := Nat.mul_le_mul_right _ (by omega)
  omega

theorem nOut_mul_le (c : Cfg) (hv : c.Valid) (hs : c.stride ≤ c.kw) (n : Nat) : nOut c n * c.stride ≤ n := by
  rcases Nat.eq_zero_or_pos (nOut c n) with h | h
  · rw [h]; omega
  · have := (lt_nOut c hv n (nOut c n - 1)).1 (by omega)
    have h2 : nOut c n * c.stride = (nOut c n - 1) * c.stride + c.stride := by
      conv => lhs; rw [show nOut c n = (nOut c n - 1) + 1 by omega, Nat.add_mul, Nat.one_mul]
    omega

theorem nOut_add (c : Cfg) (hv : c.Valid) (n m : Nat) (hle : nOut c n * c.stride ≤ n) :
    nOut c (n + m) = nOut c n + nOut c (n - nOut c n * c.stride + m) := by
  apply Nat.le_antisymm
  · by_contra hc
    have h1 := (lt_nOut c hv (n + m) (nOut c n + nOut c (n - nOut c n * c.stride + m))).1 (by omega)
    rw [Nat.add_mul] at h1
    have h2 := (lt_nOut c hv (n - nOut c n * c.stride + m) (nOut c (n - nOut c n * c.stride + m))).2 (by omega)
    omega
  · by_contra hc
    rcases Nat.eq_zero_or_pos (nOut c (n - nOut c n * c.stride + m)) with h | h
    · rw [h] at hc
      rcases Nat.eq_zero_or_pos (nOut c n) with h' | h'
      · omega
      · have h1 := (lt_nOut c hv n (nOut c n - 1)).1 (by omega)
        have h2 := (lt_nOut c hv (n + m) (nOut c n - 1)).2 (by omega)
        omega
    · have h1 := (lt_nOut c hv (n - nOut c n * c.stride + m) (nOut c (n - nOut c n * c.stride + m) - 1)).1 (by omega)
      have h2 := (lt_nOut c hv (n + m) (nOut c n + (nOut c (n - nOut c n * c.stride + m) - 1))).2 (by
        rw [Nat.add_mul]; omega)
      omega

/-- A length is outside every gap iff all emitted positions step over no frame yet to come. -/
theorem not_gap_iff (c : Cfg) (hv : c.Valid) (n : Nat) : ¬ Gap c n ↔ nOut c n * c.stride ≤ n := by
  unfold Gap
  rw [span_eq c hv]
  constructor
  · intro h
    rcases Nat.eq_zero_or_pos (nOut c n) with h0 | h0
    · rw [h0]; omega
    · by_contra hc
      refine h ⟨nOut c n - 1, (lt_nOut c hv n _).1 (by omega), ?_⟩
      rw [show nOut c n - 1 + 1 = nOut c n by omega]
      omega
  · rintro h ⟨k, h1, h2⟩
    have := (lt_nOut c hv n k).2 h1
    have := Nat.mul_le_mul_right c.stride (show k + 1 ≤ nOut c n by omega)
    omega

/-- Without a stride beyond the kernel there are no gaps. -/
theorem no_gap (c : Cfg) (hv : c.Valid) (hs : c.stride ≤ c.kw) (n : Nat) : ¬ Gap c n :=
  (not_gap_iff c hv n).2 (nOut_mul_le c hv hs n)

theorem getD_append_left' (a b : List α) (j : Nat) (h : j < a.length) : (a ++ b).getD j 0 = a.getD j 0 := by
  simp only [List.getD_eq_getElem?_getD, List.getElem?_append_left h]

theorem getD_drop' (a : List α) (n j : Nat) : (a.drop n).getD j 0 = a.getD (n + j) 0 := by
  simp only [List.getD_eq_getElem?_getD, List.getElem?_drop]

/-- Kernel lemma: the outputs of `a ++ b` are those of `a`, followed by those of what `a` leaves over with `b` appended. -/
theorem conv_append (c : Cfg) (hv : c.Valid) (g : List α → β) (a b : List α) (hle : nOut c a.length * c.stride ≤ a.length) :
    conv c g (a ++ b) = conv c g a ++ conv c g (a.drop (nOut c a.length * c.stride) ++ b) := by
  simp only [conv_eq c hv, List.length_append, List.length_drop]
  rw [nOut_add c hv a.length b.length hle, List.range_add, List.map_append, List.map_map]
  congr 1
  · apply List.map_congr_left
    intro k hk
    have hk := (lt_nOut c hv _ _).1 (List.mem_range.1 hk)
    apply at'_congr c hv
    intro j hj
    exact getD_append_left' a b _ (by omega)
  · apply List.map_congr_left
    intro k _
    apply at'_congr c hv
    intro j _
    rw [← List.drop_append_of_le_length hle, getD_drop', Nat.add_mul]
    congr 1
    omega

/-- What is left over after emitting all outputs is shorter than the kernel. -/
theorem leftover_lt (c : Cfg) (hv : c.Valid) (n : Nat) : n - nOut c n * c.stride < c.kw := by
  have hk := kw_pos c hv
  by_contra h
  have := (lt_nOut c hv n (nOut c n)).2 (by omega)
  omega

theorem outLen_eq (c : Cfg) (hv : c.Valid) (n : Nat) : outLen c (n : Int) = (nOut c n : Int) := by
  have hs : 0 < c.stride := hv.2.2
  unfold outLen nOut
  split
  · rename_i h
    have : ((n : Int) - c.kw) / c.stride ≤ -1 := by
      apply Int.le_of_lt_add_one
      apply Int.ediv_lt_of_lt_mul (by omega)
      omega
    omega
  · rename_i h
    rw [show ((n : Int) - c.kw) = ((n - c.kw : Nat) : Int) by omega]
    rw [← Int.natCast_ediv]
    have : (0 : Int) ≤ (((n - c.kw) / c.stride : Nat) : Int) := Int.natCast_nonneg _
    simp only [Int.natCast_add, Int.natCast_one]
    omega

end
end DS.Conv
