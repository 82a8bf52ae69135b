import Verif.Model.Timing
import Verif.Spec.Timing
import Verif.Props.Machine
import Mathlib.Data.Nat.Digits.Lemmas
import Mathlib.Tactic.Positivity
import Mathlib.Tactic.FieldSimp
import Mathlib.Tactic.Ring
/-!
# Formatting and taking times (utils/timing.py)
-/

namespace DS.Timing
open DS.Data DS.Mach

/-! ### Digits -/

theorem padded_length (k n : Nat) : (padded k n).length = k := by
  induction k generalizing n with
  | zero => rfl
  | succ k ih => simp [padded, ih]

theorem padded_lt (k n : Nat) : ∀ d ∈ padded k n, d < 10 := by
  induction k generalizing n with
  | zero => simp [padded]
  | succ k ih =>
    intro d hd
    simp only [padded, List.mem_append, List.mem_singleton] at hd
    rcases hd with hd | rfl
    · exact ih _ d hd
    · exact Nat.mod_lt _ (by decide)

theorem foldl_digits (ds : List Nat) (a : Nat) : ds.foldl (fun a d => 10 * a + d) a = a * 10 ^ ds.length + natOf ds := by
  unfold natOf
  induction ds generalizing a with
  | nil => simp
  | cons d ds ih =>
    simp only [List.foldl_cons, List.length_cons]
    rw [ih, ih (10 * 0 + d)]
    ring

theorem natOf_append (a b : List Nat) : natOf (a ++ b) = natOf a * 10 ^ b.length + natOf b := by
  conv_lhs => unfold natOf
  rw [List.foldl_append, foldl_digits]
  rfl

theorem natOf_zeros (k : Nat) : natOf (List.replicate k 0) = 0 := by
  induction k with
  | zero => rfl
  | succ k ih => rw [List.replicate_succ', natOf_append, ih]; rfl

theorem natOf_padded (k n : Nat) : natOf (padded k n) = n % 10 ^ k := by
  induction k generalizing n with
  | zero => simp [padded, natOf, Nat.mod_one]
  | succ k ih =>
    rw [padded, natOf_append, ih]
    simp only [List.length_singleton, Nat.pow_one]
    rw [show natOf [n % 10] = n % 10 by simp [natOf], Nat.pow_succ, Nat.mul_comm (10 ^ k) 10, Nat.mod_mul]
    omega

theorem natOf_digits (n : Nat) : natOf (Nat.digits 10 n).reverse = n := by
  induction n using Nat.strongRecOn with
  | _ n ih =>
    by_cases h : n = 0
    · subst h; simp [natOf]
    · rw [Nat.digits_def' (by decide) (by omega), List.reverse_cons, natOf_append, ih _ (by omega)]
      simp [natOf]
      omega

theorem strip_append (fs : List Nat) : ∃ k, fs = strip fs ++ List.replicate k 0 := by
  unfold strip
  suffices h : ∀ l : List Nat, ∃ k, l = List.replicate k 0 ++ l.dropWhile (· == 0) by
    obtain ⟨k, hk⟩ := h fs.reverse
    refine ⟨k, ?_⟩
    have := congrArg List.reverse hk
    rw [List.reverse_reverse, List.reverse_append, List.reverse_replicate] at this
    exact this
  intro l
  induction l with
  | nil => exact ⟨0, rfl⟩
  | cons a l ih =>
    by_cases ha : a = 0
    · obtain ⟨k, hk⟩ := ih
      refine ⟨k + 1, ?_⟩
      subst ha
      simp only [List.dropWhile_cons, beq_self_eq_true, if_true, List.replicate_succ, List.cons_append]
      rw [← hk]
    · exact ⟨0, by simp [List.dropWhile_cons, ha]⟩

/-- Cutting trailing zeros does not change the value. -/
theorem strip_value (ds fs : List Nat) : (natOf (ds ++ strip fs) : Rat) / 10 ^ (strip fs).length = (natOf (ds ++ fs) : Rat) / 10 ^ fs.length := by
  obtain ⟨k, hk⟩ := strip_append fs
  conv_rhs => rw [hk]
  rw [← List.append_assoc, natOf_append (ds ++ strip fs), natOf_zeros, List.length_append, List.length_replicate, pow_add]
  push_cast
  have h1 : (10 : Rat) ^ k ≠ 0 := by positivity
  have h2 : (10 : Rat) ^ (strip fs).length ≠ 0 := by positivity
  field_simp
  ring

theorem strip_mem {fs : List Nat} {d : Nat} (h : d ∈ strip fs) : d ∈ fs := by
  obtain ⟨k, hk⟩ := strip_append fs
  rw [hk]; simp [h]

theorem strip_length (fs : List Nat) : (strip fs).length ≤ fs.length := by
  obtain ⟨k, hk⟩ := strip_append fs
  have := congrArg List.length hk
  simp at this
  omega

theorem decimals_eq (fs : List Nat) : decimals fs = fracText (strip fs) := rfl

theorem decimals_length (fs : List Nat) : (decimals fs).length ≤ fs.length + 1 ∧ (fs = [] → decimals fs = []) := by
  refine ⟨?_, fun h => by subst h; rfl⟩
  unfold decimals
  have := strip_length fs
  split
  · simp
  · simp [chars]; omega

/-! ### Rounding to significant digits -/

/-- The `p` digits and the exponent denote a number within half a unit of the last digit, and there are exactly `p` digits. -/
theorem sci_spec (p : Nat) (hp : 1 ≤ p) (q : Rat) (hq : 0 < q) :
    |((sci p q).1 : Rat) * 10 ^ ((sci p q).2 - ((p : Int) - 1)) - q| ≤ q / (2 * 10 ^ (p - 1)) ∧ (sci p q).1 < 10 ^ p ∧
      Int.log 10 q ≤ (sci p q).2 ∧ (sci p q).2 ≤ Int.log 10 q + 1 ∧
      ((sci p q).2 = Int.log 10 q + 1 → (10 : Rat) ^ p ≤ q / 10 ^ (Int.log 10 q - ((p : Int) - 1)) + 1 / 2) := by
  have h1 : (10 : Rat) ^ Int.log 10 q ≤ q := by
    have := Int.zpow_log_le_self (b := 10) (by decide) hq
    simpa using this
  have h2 : q < (10 : Rat) ^ (Int.log 10 q + 1) := by
    have := Int.lt_zpow_succ_log_self (b := 10) (by decide) q
    simpa using this
  generalize he : Int.log 10 q = e at h1 h2
  have hten : (10 : Rat) ≠ 0 := by norm_num
  obtain ⟨u, hu⟩ : ∃ u : Rat, u = 10 ^ (e - ((p : Int) - 1)) := ⟨_, rfl⟩
  have hu0 : 0 < u := by rw [hu]; exact zpow_pos (by norm_num) _
  have hpe : ((p - 1 : Nat) : Int) = (p : Int) - 1 := by omega
  have hlo : (10 : Rat) ^ (p - 1) * u = 10 ^ e := by
    rw [hu, ← zpow_natCast, ← zpow_add₀ hten, hpe]; congr 1; omega
  have hhi : (10 : Rat) ^ p * u = 10 ^ (e + 1) := by
    rw [hu, ← zpow_natCast, ← zpow_add₀ hten]; congr 1; omega
  have hx1 : (10 : Rat) ^ (p - 1) ≤ q / u := by rw [le_div_iff₀ hu0, hlo]; exact h1
  have hx2 : q / u < (10 : Rat) ^ p := by rw [div_lt_iff₀ hu0, hhi]; exact h2
  obtain ⟨hn1, hn2⟩ := pyRound_near (q / u)
  have hr1 : 0 ≤ pyRound (q / u) := by
    by_contra hneg
    have : pyRound (q / u) ≤ -1 := by omega
    have : (pyRound (q / u) : Rat) ≤ -1 := by exact_mod_cast this
    have : (1 : Rat) ≤ 10 ^ (p - 1) := one_le_pow₀ (by norm_num)
    linarith
  have hcast : ((pyRound (q / u)).toNat : Rat) = pyRound (q / u) := by
    have : (((pyRound (q / u)).toNat : Int) : Rat) = pyRound (q / u) := by rw [Int.toNat_of_nonneg hr1]
    exact_mod_cast this
  have hle : (pyRound (q / u)).toNat ≤ 10 ^ p := by
    have h3 : (pyRound (q / u) : Rat) < ((10 ^ p + 1 : Nat) : Rat) := by push_cast; linarith
    have h4 : (((pyRound (q / u)).toNat : Nat) : Rat) < ((10 ^ p + 1 : Nat) : Rat) := by rw [hcast]; exact h3
    have : (pyRound (q / u)).toNat < 10 ^ p + 1 := by exact_mod_cast h4
    omega
  have herr : |(pyRound (q / u) : Rat) * u - q| ≤ q / (2 * 10 ^ (p - 1)) := by
    have hq' : q = q / u * u := by field_simp
    have h5 : |(pyRound (q / u) : Rat) - q / u| ≤ 1 / 2 := by rw [abs_le]; constructor <;> linarith
    have h6 : (pyRound (q / u) : Rat) * u - q = ((pyRound (q / u) : Rat) - q / u) * u := by
      rw [sub_mul]; rw [← hq']
    rw [h6, abs_mul, abs_of_pos hu0]
    have h7 : |(pyRound (q / u) : Rat) - q / u| * u ≤ 1 / 2 * u := mul_le_mul_of_nonneg_right h5 hu0.le
    have h8 : 1 / 2 * u ≤ q / (2 * 10 ^ (p - 1)) := by
      have h10 : (0 : Rat) < 10 ^ (p - 1) := by positivity
      rw [le_div_iff₀ (by positivity)]
      have : (10 : Rat) ^ (p - 1) * u ≤ q := by rw [hlo]; exact h1
      linarith
    linarith
  by_cases hc : (pyRound (q / u)).toNat = 10 ^ p
  · have hs : sci p q = (10 ^ (p - 1), e + 1) := by
      simp only [sci, he]
      rw [← hu, if_pos hc]
    rw [hs]
    dsimp only
    refine ⟨?_, Nat.pow_lt_pow_right (by decide) (by omega), by omega, by omega, fun _ => ?_⟩
    · have hv : (((10 ^ (p - 1) : Nat) : Rat)) * 10 ^ (e + 1 - ((p : Int) - 1)) = (pyRound (q / u) : Rat) * u := by
        rw [← hcast, hc]
        push_cast
        rw [hhi, ← zpow_natCast, ← zpow_add₀ hten, hpe]
        congr 1; omega
      rw [hv]
      exact herr
    · rw [← hu]
      have : ((10 : Rat) ^ p) = pyRound (q / u) := by rw [← hcast, hc]; push_cast; rfl
      rw [this]
      linarith
  · have hs : sci p q = ((pyRound (q / u)).toNat, e) := by
      simp only [sci, he]
      rw [← hu, if_neg hc]
    rw [hs]
    dsimp only
    refine ⟨?_, by omega, by omega, by omega, fun h => by omega⟩
    rw [hcast, ← hu]
    exact herr

/-- What `%.{p}g` prints denotes the rounded number. -/
theorem gPos_denotes (p : Nat) (hp : 1 ≤ p) (q : Rat) (hq : 0 < q) : Denotes (gPos p q) (((sci p q).1 : Rat) * 10 ^ ((sci p q).2 - ((p : Int) - 1))) := by
  obtain ⟨-, hm, -, -, -⟩ := sci_spec p hp q hq
  unfold gPos
  dsimp only
  generalize (sci p q).1 = m at hm ⊢
  generalize (sci p q).2 = e
  have hval : natOf (padded p m) = m := by rw [natOf_padded, Nat.mod_eq_of_lt hm]
  have hten : (10 : Rat) ≠ 0 := by norm_num
  have hlen := padded_length p m
  have hlt := padded_lt p m
  have hpow : ∀ (n : Nat) (z : Int), (m : Rat) / 10 ^ n * 10 ^ z = (m : Rat) * 10 ^ (z - n) := by
    intro n z
    rw [zpow_sub₀ hten, zpow_natCast]
    field_simp
  split
  · rename_i h
    obtain ⟨n, rfl⟩ : ∃ n : Nat, e = n := ⟨e.toNat, by omega⟩
    refine ⟨(padded p m).take (n + 1), strip ((padded p m).drop (n + 1)), [], false, ?_, ?_, ?_, ?_⟩
    · intro hn
      have := congrArg List.length hn
      simp [hlen] at this
      omega
    · intro d hd
      simp only [List.append_nil, List.mem_append] at hd
      rcases hd with hd | hd
      · exact hlt d (List.mem_of_mem_take hd)
      · exact hlt d (List.mem_of_mem_drop (strip_mem hd))
    · simp [decimals_eq, chars, digitText]
    · rw [strip_value, List.take_append_drop, hval, List.length_drop, hlen]
      rw [show natOf [] = 0 from rfl, hpow]
      congr 2
      simp
      omega
  · split
    · rename_i h
      refine ⟨[0], strip (List.replicate (-e - 1).toNat 0 ++ padded p m), [], false, by simp, ?_, ?_, ?_⟩
      · intro d hd
        simp only [List.append_nil, List.mem_append, List.mem_singleton] at hd
        rcases hd with rfl | hd
        · decide
        · have := strip_mem hd
          simp only [List.mem_append, List.mem_replicate] at this
          rcases this with hd | hd
          · omega
          · exact hlt d hd
      · simp [decimals_eq, digitText, Nat.digitChar]
      · rw [strip_value, natOf_append, natOf_append, natOf_zeros, hval, show natOf [0] = 0 from rfl, show natOf [] = 0 from rfl]
        simp only [Nat.zero_mul, Nat.zero_add, List.length_append, List.length_replicate, hlen]
        rw [hpow]
        congr 2
        simp
        omega
    · refine ⟨(padded p m).take 1, strip ((padded p m).drop 1), if e.natAbs < 10 then [0, e.natAbs] else (Nat.digits 10 e.natAbs).reverse, decide (e < 0), ?_, ?_, ?_, ?_⟩
      · intro hn
        have := congrArg List.length hn
        simp [hlen] at this
        omega
      · intro d hd
        simp only [List.mem_append] at hd
        rcases hd with (hd | hd) | hd
        · exact hlt d (List.mem_of_mem_take hd)
        · exact hlt d (List.mem_of_mem_drop (strip_mem hd))
        · split at hd
          · simp at hd; omega
          · exact Nat.digits_lt_base (by decide) (List.mem_reverse.1 hd)
      · have hne : (if e.natAbs < 10 then [0, e.natAbs] else (Nat.digits 10 e.natAbs).reverse) ≠ [] := by
          split
          · simp
          · intro hh
            rw [List.reverse_eq_nil_iff, Nat.digits_eq_nil_iff_eq_zero] at hh
            omega
        rw [if_neg hne]
        simp [decimals_eq, chars, digitText, exponent]
      · have hexp : natOf (if e.natAbs < 10 then [0, e.natAbs] else (Nat.digits 10 e.natAbs).reverse) = e.natAbs := by
          split
          · simp [natOf]
          · exact natOf_digits _
        rw [strip_value, List.take_append_drop, hval, List.length_drop, hlen, hexp, hpow]
        congr 2
        by_cases hn : e < 0
        · rw [if_pos (by simp [hn])]; omega
        · rw [if_neg (by simp [hn])]; omega

/-- Between 1 and `10 ^ p - 1 / 2`, `%.{p}g` prints at most `p` digits and a point. -/
theorem gPos_length (p : Nat) (hp : 1 ≤ p) (q : Rat) (h1 : 1 ≤ q) (h2 : q < 10 ^ p - 1 / 2) : (gPos p q).length ≤ p + 1 := by
  have hq : 0 < q := by linarith
  obtain ⟨-, -, hl, hh, hc⟩ := sci_spec p hp q hq
  have e1 : 0 ≤ Int.log 10 q := by
    have := Int.log_mono_right (b := 10) (by norm_num : (0 : Rat) < 1) h1
    simpa using this
  have e2 : Int.log 10 q < p := by
    rw [← Int.lt_zpow_iff_log_lt (by decide) hq]
    push_cast
    rw [zpow_natCast]
    linarith
  have he : (sci p q).2 < p := by
    by_contra hge
    have h3 : (sci p q).2 = Int.log 10 q + 1 := by omega
    have h4 := hc h3
    have h5 : Int.log 10 q - ((p : Int) - 1) = 0 := by omega
    rw [h5, zpow_zero, div_one] at h4
    linarith
  unfold gPos
  dsimp only
  rw [if_pos ⟨by omega, he⟩]
  have hlen := padded_length p (sci p q).1
  have h3 := decimals_length ((padded p (sci p q).1).drop ((sci p q).2.toNat + 1))
  simp only [List.length_append, chars, List.length_map, List.length_take, hlen]
  rw [List.length_drop, hlen] at h3
  by_cases hz : p - ((sci p q).2.toNat + 1) = 0
  · rw [h3.2 (List.drop_eq_nil_of_le (by omega))]
    simp
  · omega

/-! ### C162 -/

/-- The unit that is picked: the largest that is not larger than `dt`, the smallest if there is none. -/
theorem pick_spec (dt : Rat) : Unit (pick dt units).2 (pick dt units).1 ∧
    (1 / 1000000000 ≤ dt → (pick dt units).1 ≤ dt ∧ (dt < (pick dt units).1 * 1000 ∨ (pick dt units).2 = ['s'])) := by
  unfold units Unit
  simp only [pick]
  split
  · rename_i h
    exact ⟨.inl ⟨rfl, rfl⟩, fun _ => ⟨h, .inr rfl⟩⟩
  · rename_i h
    split
    · rename_i h'
      exact ⟨.inr (.inl ⟨rfl, by norm_num⟩), fun _ => ⟨h', .inl (by dsimp only at *; linarith)⟩⟩
    · rename_i h'
      split
      · rename_i h''
        exact ⟨.inr (.inr (.inl ⟨rfl, by norm_num⟩)), fun _ => ⟨h'', .inl (by dsimp only at *; linarith)⟩⟩
      · exact ⟨.inr (.inr (.inr ⟨rfl, by norm_num⟩)), fun h3 => ⟨h3, .inl (by dsimp only at *; linarith)⟩⟩

theorem unit_scale {u : List Char} {s : Rat} (h : Unit u s) : 0 < s ∧ u.length ≤ 2 ∧ (u = ['s'] → s = 1) := by
  rcases h with ⟨rfl, rfl⟩ | ⟨rfl, rfl⟩ | ⟨rfl, rfl⟩ | ⟨rfl, rfl⟩ <;> refine ⟨by norm_num, by decide, ?_⟩ <;> simp

theorem g_pos (p : Nat) {q : Rat} (hq : 0 < q) : g p q = gPos (max p 1) q := by
  unfold g
  rw [if_neg (by intro h; rw [h] at hq; exact absurd hq (lt_irrefl _)), if_neg (not_lt.2 hq.le)]

/-- **C162 is false of the code.** The documented bound of 7 characters does not hold for times from 9999.5 seconds on (`1.234e+04s`), nor below a nanosecond (`0.1234ns`). -/
theorem C162_width_false : formatTime 12340 = .ok "1.234e+04s".toList ∧ formatTime (1234 / 10 ^ 13) = .ok "0.1234ns".toList := by
  constructor <;> decide +kernel

/-- C162, what holds: times from a nanosecond to 9999.5 seconds are formatted in at most 7 characters; with another precision `p` (at least 4) in at most `p + 3` characters, below `10 ^ p - 1 / 2` seconds.
Missing: longer and shorter times, for which the property fails. -/
theorem C162_width_partial (dt : Rat) (p : Nat) (hp : 4 ≤ p) (h1 : 1 / 10 ^ 9 ≤ dt) (h2 : dt < 10 ^ p - 1 / 2) :
    ∃ s, formatTime dt none p = .ok s ∧ s.length ≤ p + 3 := by
  obtain ⟨hu, hpick⟩ := pick_spec dt
  obtain ⟨h3, h4⟩ := hpick (by norm_num at h1 ⊢; exact h1)
  obtain ⟨hs0, hul, hus⟩ := unit_scale hu
  refine ⟨_, rfl, ?_⟩
  have hq1 : 1 ≤ dt / (pick dt units).1 := by rw [le_div_iff₀ hs0]; linarith
  have hq2 : dt / (pick dt units).1 < 10 ^ p - 1 / 2 := by
    rcases h4 with h4 | h4
    · have h5 : dt / (pick dt units).1 < 1000 := by rw [div_lt_iff₀ hs0]; linarith
      have h6 : (10 : Rat) ^ 4 ≤ 10 ^ p := pow_le_pow_right₀ (by norm_num) hp
      linarith
    · rw [hus h4, div_one]; exact h2
  rw [g_pos p (by linarith), List.length_append]
  rw [show max p 1 = p by omega]
  have := gPos_length p (by omega) _ hq1 hq2
  omega

example : formatTime (99994 / 10) = .ok "9999s".toList ∧ formatTime (12345678 / 10 ^ 11) = .ok "123.5µs".toList ∧ formatTime (999999 / 10 ^ 6) = .ok "1000ms".toList := by
  refine ⟨?_, ?_, ?_⟩ <;> decide +kernel

/-- With three digits the bound already fails below 9999.5 seconds: 999.9 ms are rounded up to `1e+03ms`. -/
example : formatTime (9999 / 10000) none 3 = .ok "1e+03ms".toList := by decide +kernel

/-! ### C163 -/

/-- **C163.** The formatted time is a decimal numeral and a unit that together denote the time up to half a unit of the last of `p` significant digits: with the default precision within 0.05 percent. -/
theorem C163_accuracy (dt : Rat) (h : 0 < dt) (p : Nat) (hp : 1 ≤ p) :
    ∃ s u scale v, formatTime dt none p = .ok (s ++ u) ∧ Unit u scale ∧ Denotes s v ∧ |v * scale - dt| ≤ dt / (2 * 10 ^ (p - 1)) := by
  obtain ⟨hu, -⟩ := pick_spec dt
  obtain ⟨hs0, -, -⟩ := unit_scale hu
  have hq : 0 < dt / (pick dt units).1 := div_pos h hs0
  refine ⟨_, _, _, _, rfl, hu, by rw [g_pos p hq, Nat.max_eq_left hp]; exact gPos_denotes p hp _ hq, ?_⟩
  obtain ⟨h1, -⟩ := sci_spec p hp _ hq
  generalize (pick dt units).1 = sc at hs0 h1 ⊢
  have h2 : dt = dt / sc * sc := by field_simp
  generalize ((sci p (dt / sc)).1 : Rat) * 10 ^ ((sci p (dt / sc)).2 - ((p : Int) - 1)) = v at h1 ⊢
  have h3 : v * sc - dt = (v - dt / sc) * sc := by rw [sub_mul, ← h2]
  rw [h3, abs_mul, abs_of_pos hs0]
  have h4 := mul_le_mul_of_nonneg_right h1 hs0.le
  refine h4.trans (le_of_eq ?_)
  conv_rhs => rw [h2]
  field_simp

example : formatTime (1 / 3) = .ok ("333.3".toList ++ ['m', 's']) ∧ Denotes "333.3".toList (3333 / 10) ∧ formatTime (2 / 10 ^ 14) = .ok ("2e-05".toList ++ ['n', 's']) := by
  refine ⟨by decide +kernel, ⟨[3, 3, 3], [3], [], false, by decide, by decide, by decide, by simp [natOf]⟩, by decide +kernel⟩

/-- **C163**, other times: 0 is `0`, and a negative time is shown as the opposite time in the same unit with a minus sign; without a unit that is nanoseconds, as no unit is as small. -/
theorem C163_sign (dt : Rat) (h : 0 < dt) (p : Nat) (u : List Char) (scale : Rat) (hu : Unit u scale) :
    formatTime (-dt) (some u) p = (formatTime dt (some u) p).map ('-' :: ·) ∧ formatTime (-dt) none p = formatTime (-dt) (some ['n', 's']) p ∧
    formatTime 0 (some u) p = .ok ('0' :: u) ∧ formatTime 0 none p = .ok ['0', 'n', 's'] := by
  have key : ∀ q : Rat, 0 < q → g p (-q) = '-' :: g p q := by
    intro q hq
    unfold g
    rw [if_neg (show -q ≠ 0 by linarith), if_pos (show -q < 0 by linarith), if_neg (show q ≠ 0 by linarith), if_neg (show ¬ q < 0 by linarith), neg_neg]
  have hp : pick (-dt) units = (1 / 1000000000, ['n', 's']) := by
    simp only [units, pick]
    rw [if_neg (by linarith), if_neg (by norm_num; linarith), if_neg (by norm_num; linarith)]
  have h0 : pick 0 units = (1 / 1000000000, ['n', 's']) := by decide +kernel
  refine ⟨?_, ?_, ?_, by show Except.ok (g p (0 / (pick 0 units).1) ++ (pick 0 units).2) = _; rw [h0]; simp [g]⟩
  · rcases hu with ⟨rfl, rfl⟩ | ⟨rfl, rfl⟩ | ⟨rfl, rfl⟩ | ⟨rfl, rfl⟩ <;> simp [formatTime, units, map_ok', key, h]
  · have h1 : formatTime (-dt) none p = .ok (g p (-dt / (pick (-dt) units).1) ++ (pick (-dt) units).2) := rfl
    rw [h1, hp]
    rfl
  · rcases hu with ⟨rfl, rfl⟩ | ⟨rfl, rfl⟩ | ⟨rfl, rfl⟩ | ⟨rfl, rfl⟩ <;> simp [formatTime, units, g]

example : formatTime (-15 / 10) (some ['m', 's']) = .ok "-1500ms".toList ∧ formatTime (-15 / 10) = .ok "-1.5e+09ns".toList := by decide +kernel

/-! ### C164 -/

theorem autorange_spec {k : Nat} {ts : List Rat} {n : Nat} {t : Rat} {rest : List Rat} (h : autorange k ts = some (n, t, rest)) :
    0 < n ∧ 1 / 5 ≤ t ∧ ∃ before, ts = before ++ t :: rest ∧ n = tries (k + before.length) ∧ ∀ x ∈ before, x < 1 / 5 := by
  induction ts generalizing k with
  | nil => simp [autorange] at h
  | cons a ts ih =>
    simp only [autorange] at h
    split at h
    · rename_i ha
      simp only [Option.some.injEq, Prod.mk.injEq] at h
      obtain ⟨rfl, rfl, rfl⟩ := h
      refine ⟨?_, ha, [], rfl, by simp, by simp⟩
      unfold tries
      have : k % 3 < 3 := Nat.mod_lt _ (by decide)
      refine Nat.mul_pos ?_ (Nat.pow_pos (by decide))
      rcases (by omega : k % 3 = 0 ∨ k % 3 = 1 ∨ k % 3 = 2) with h | h | h <;> simp [h]
    · rename_i ha
      obtain ⟨h1, h2, before, h3, h4, h5⟩ := ih h
      refine ⟨h1, h2, a :: before, by simp [h3], by rw [h4]; congr 1; simp; omega, ?_⟩
      intro x hx
      rcases List.mem_cons.1 hx with rfl | hx
      · exact not_le.1 ha
      · exact h5 x hx

/-- **C164.** If the number of iterations is left to `timeit`, it is the smallest multiple of the number found by calibration (for which at least 0.2 seconds were measured)
such that the inner loop, at the measured speed, lasts longer than `inner_duration`. A given number is used as it is. -/
theorem C164_number (d : Rat) (ts : List Rat) (N : Int) (rest : List Rat) :
    (∀ n : Nat, innerNumber d (some n) ts = some ((n : Int), ts)) ∧
    (innerNumber d none ts = some (N, rest) → ∃ (n : Nat) (t : Rat) (m : Int) (before : List Rat), 0 < n ∧ 1 / 5 ≤ t ∧ ts = before ++ t :: rest ∧
      N = m * n ∧ d < (N : Rat) * (t / n) ∧ ∀ m' : Int, d < ((m' * n : Int) : Rat) * (t / n) → m ≤ m') := by
  refine ⟨fun n => rfl, fun h => ?_⟩
  unfold innerNumber at h
  simp only at h
  cases h1 : autorange 0 ts with
  | none => rw [h1] at h; simp at h
  | some r1 =>
    obtain ⟨n1, t1, ts1⟩ := r1
    rw [h1] at h
    simp only at h
    cases h2 : autorange 0 ts1 with
    | none => rw [h2] at h; simp at h
    | some r2 =>
      obtain ⟨n, t, ts2⟩ := r2
      rw [h2] at h
      simp only [Option.some.injEq, Prod.mk.injEq] at h
      obtain ⟨rfl, rfl⟩ := h
      obtain ⟨-, -, b1, e1, -, -⟩ := autorange_spec h1
      obtain ⟨hn, ht, b2, e2, -, -⟩ := autorange_spec h2
      have ht0 : 0 < t := by linarith
      have hn0 : (0 : Rat) < n := by exact_mod_cast hn
      have hmul : ∀ m : Int, (((m * n : Int)) : Rat) * (t / n) = m * t := by
        intro m
        push_cast
        field_simp
      refine ⟨n, t, (d / t).floor + 1, b1 ++ t1 :: b2, hn, ht, by rw [e1, e2]; simp, rfl, ?_, ?_⟩
      · rw [hmul]
        have := Rat.lt_floor_add_one (d / t)
        rw [div_lt_iff₀ ht0] at this
        exact_mod_cast this
      · intro m' hm'
        rw [hmul, ← div_lt_iff₀ ht0] at hm'
        have h3 : (d / t).floor < m' := by
          have h4 : ((d / t).floor : Rat) ≤ d / t := Rat.floor_le _
          have h5 : ((d / t).floor : Rat) < (m' : Rat) := lt_of_le_of_lt h4 hm'
          exact_mod_cast h5
        omega

/-- The first calibration takes three measurements and the second one two: at 0.3 seconds for 2 iterations, 8 of them last longer than a second. -/
example : innerNumber 1 none [1 / 10, 1 / 10, 1, 1 / 10, 3 / 10, 7, 8] = some (8, [7, 8]) := by decide +kernel

/-! ### C165 -/

theorem foldl_min (x : Rat) (rest : List Rat) : (rest.foldl (fun a b => if b < a then b else a) x) ∈ x :: rest ∧
    ∀ y ∈ x :: rest, rest.foldl (fun a b => if b < a then b else a) x ≤ y := by
  induction rest generalizing x with
  | nil => simp
  | cons z rest ih =>
    obtain ⟨h1, h2⟩ := ih (if z < x then z else x)
    simp only [List.foldl_cons]
    refine ⟨?_, ?_⟩
    · rcases List.mem_cons.1 h1 with h | h
      · rw [h]; split <;> simp
      · simp [h]
    · intro y hy
      have h3 := h2 (if z < x then z else x) (by simp)
      rcases List.mem_cons.1 hy with rfl | hy
      · refine h3.trans ?_
        split
        · rename_i h; exact h.le
        · exact le_refl _
      · rcases List.mem_cons.1 hy with rfl | hy
        · refine h3.trans ?_
          split
          · exact le_refl _
          · rename_i h; exact not_lt.1 h
        · exact h2 y (by simp [hy])

theorem foldl_max (x : Rat) (rest : List Rat) : (rest.foldl (fun a b => if a < b then b else a) x) ∈ x :: rest ∧
    ∀ y ∈ x :: rest, y ≤ rest.foldl (fun a b => if a < b then b else a) x := by
  induction rest generalizing x with
  | nil => simp
  | cons z rest ih =>
    obtain ⟨h1, h2⟩ := ih (if x < z then z else x)
    simp only [List.foldl_cons]
    refine ⟨?_, ?_⟩
    · rcases List.mem_cons.1 h1 with h | h
      · rw [h]; split <;> simp
      · simp [h]
    · intro y hy
      have h3 := h2 (if x < z then z else x) (by simp)
      rcases List.mem_cons.1 hy with rfl | hy
      · refine le_trans ?_ h3
        split
        · rename_i h; exact h.le
        · exact le_refl _
      · rcases List.mem_cons.1 hy with rfl | hy
        · refine le_trans ?_ h3
          split
          · exact le_refl _
          · rename_i h; exact not_lt.1 h
        · exact h2 y (by simp [hy])

theorem sum_bounds (xs : List Rat) (lo hi : Rat) (h : ∀ x ∈ xs, lo ≤ x ∧ x ≤ hi) : lo * xs.length ≤ xs.sum ∧ xs.sum ≤ hi * xs.length := by
  induction xs with
  | nil => simp
  | cons x xs ih =>
    obtain ⟨h1, h2⟩ := ih fun y hy => h y (by simp [hy])
    obtain ⟨h3, h4⟩ := h x (by simp)
    simp only [List.sum_cons, List.length_cons]
    push_cast
    constructor <;> linarith

theorem median_halves (xs : List Rat) (hne : xs ≠ []) : Halves (median xs) xs ∧ ∀ lo hi : Rat, (∀ x ∈ xs, lo ≤ x ∧ x ≤ hi) → lo ≤ median xs ∧ median xs ≤ hi := by
  have hp := List.mergeSort_perm xs (fun a b => decide (a ≤ b))
  have hsorted : (xs.mergeSort (fun a b => decide (a ≤ b))).Pairwise (· ≤ ·) := by
    have := List.pairwise_mergeSort (le := fun a b : Rat => decide (a ≤ b)) (fun a b c h1 h2 => by simp at *; exact h1.trans h2) (fun a b => by simp; exact le_total a b) xs
    simpa using this
  unfold median Halves
  dsimp only
  rw [← hp.length_eq, ← (hp.filter _).length_eq, ← (hp.filter _).length_eq]
  have hne' : xs.mergeSort (fun a b => decide (a ≤ b)) ≠ [] := fun h => hne (by have := hp.length_eq; rw [h] at this; exact List.length_eq_zero_iff.1 this.symm)
  have hmem : ∀ lo hi : Rat, (∀ x ∈ xs, lo ≤ x ∧ x ≤ hi) ↔ ∀ x ∈ xs.mergeSort (fun a b => decide (a ≤ b)), lo ≤ x ∧ x ≤ hi := fun lo hi => by simp [hp.mem_iff]
  simp only [hmem]
  generalize xs.mergeSort (fun a b => decide (a ≤ b)) = s at hsorted hne'
  clear hmem hp hne
  have hlen : 0 < s.length := List.length_pos_iff.2 hne'
  have hget : ∀ k, k < s.length → s.getD k 0 ∈ s ∧ s[k]? = some (s.getD k 0) := by
    intro k hk
    simp [List.getD, List.getElem?_eq_getElem hk]
  have hord : ∀ i j, i ≤ j → j < s.length → s.getD i 0 ≤ s.getD j 0 := by
    intro i j hij hj
    rcases Nat.eq_or_lt_of_le hij with rfl | hlt
    · exact le_refl _
    · have := List.pairwise_iff_getElem.1 hsorted i j (by omega) hj hlt
      simpa [List.getD, List.getElem?_eq_getElem hj, List.getElem?_eq_getElem (show i < s.length by omega)] using this
  -- the first `k` are small, the last ones large
  have hsmall : ∀ k m, k ≤ s.length → (∀ i, i < k → s.getD i 0 ≤ m) → k ≤ (s.filter fun x => decide (x ≤ m)).length := by
    intro k m hk h
    have h1 : (s.take k).filter (fun x => decide (x ≤ m)) = s.take k := by
      rw [List.filter_eq_self]
      intro x hx
      obtain ⟨i, hi, rfl⟩ := List.mem_iff_getElem.1 hx
      simp only [List.length_take] at hi
      have := h i (by omega)
      simpa [List.getD, List.getElem?_eq_getElem (show i < s.length by omega)] using this
    have h2 : ((s.take k).filter (fun x => decide (x ≤ m))).Sublist (s.filter (fun x => decide (x ≤ m))) := (List.take_sublist k s).filter _
    have h3 := h2.length_le
    rw [h1, List.length_take] at h3
    omega
  have hlarge : ∀ k m, k ≤ s.length → (∀ i, k ≤ i → i < s.length → m ≤ s.getD i 0) → s.length - k ≤ (s.filter fun x => decide (m ≤ x)).length := by
    intro k m hk h
    have h1 : (s.drop k).filter (fun x => decide (m ≤ x)) = s.drop k := by
      rw [List.filter_eq_self]
      intro x hx
      obtain ⟨i, hi, rfl⟩ := List.mem_iff_getElem.1 hx
      simp only [List.length_drop] at hi
      have := h (k + i) (by omega) (by omega)
      simpa [List.getD, List.getElem?_eq_getElem (show k + i < s.length by omega)] using this
    have h2 : ((s.drop k).filter (fun x => decide (m ≤ x))).Sublist (s.filter (fun x => decide (m ≤ x))) := (List.drop_sublist k s).filter _
    have h3 := h2.length_le
    rw [h1, List.length_drop] at h3
    omega
  split
  · rename_i hodd
    refine ⟨⟨?_, ?_⟩, fun lo hi h => h _ (hget _ (by omega)).1⟩
    · have := hsmall (s.length / 2 + 1) (s.getD (s.length / 2) 0) (by omega) (fun i hi => hord _ _ (by omega) (by omega))
      omega
    · have := hlarge (s.length / 2) (s.getD (s.length / 2) 0) (by omega) (fun i hi hl => hord _ _ hi hl)
      omega
  · rename_i heven
    have hab := hord (s.length / 2 - 1) (s.length / 2) (by omega) (by omega)
    refine ⟨⟨?_, ?_⟩, fun lo hi h => ?_⟩
    · have := hsmall (s.length / 2) ((s.getD (s.length / 2 - 1) 0 + s.getD (s.length / 2) 0) / 2) (by omega)
        (fun i hi => by have := hord i (s.length / 2 - 1) (by omega) (by omega); linarith)
      omega
    · have := hlarge (s.length / 2) ((s.getD (s.length / 2 - 1) 0 + s.getD (s.length / 2) 0) / 2) (by omega)
        (fun i hi hl => by have := hord (s.length / 2) i hi hl; linarith)
      omega
    · obtain ⟨h1, h2⟩ := h _ (hget (s.length / 2 - 1) (by omega)).1
      obtain ⟨h3, h4⟩ := h _ (hget (s.length / 2) (by omega)).1
      constructor <;> linarith

/-- **C165.** The results of `timeit` summarise the last `repeats` measurements, each divided by the number of iterations: `min` and `max` are the smallest and the largest of them,
`mean` is their mean, at least half of them are at most `median` and at least half at least that, both lie between `min` and `max`, and there is a warning exactly if the largest is at least four times the smallest. -/
theorem C165_summary (d : Rat) (repeats : Nat) (number : Option Nat) (ts : List Rat) (r : Results) (h : timeit d repeats number ts = some (.ok r)) :
    ∃ (N : Int) (xs : List Rat), xs.length = repeats ∧ r.repeats = repeats ∧ r.number = N.toNat ∧ (∀ n : Nat, number = some n → N = n ∧ xs = (ts.take repeats).map fun (t : Rat) => t / (n : Rat)) ∧
      (∃ rest, innerNumber d number ts = some (N, rest) ∧ xs = (rest.take repeats).map fun (t : Rat) => t / (N : Rat)) ∧
      r.min ∈ xs ∧ r.max ∈ xs ∧ (∀ x ∈ xs, r.min ≤ x ∧ x ≤ r.max) ∧ r.mean * xs.length = xs.sum ∧ Halves r.median xs ∧
      (r.min ≤ r.mean ∧ r.mean ≤ r.max) ∧ (r.min ≤ r.median ∧ r.median ≤ r.max) ∧ (r.warns = true ↔ 4 * r.min ≤ r.max) := by
  unfold timeit at h
  cases hn : innerNumber d number ts with
  | none => rw [hn] at h; simp at h
  | some p =>
    obtain ⟨N, rest⟩ := p
    rw [hn] at h
    dsimp only at h
    split at h
    · simp at h
    · rename_i hlen
      generalize hxs : (rest.take repeats).map (fun (t : Rat) => t / (N : Rat)) = xs at h
      have hl : xs.length = repeats := by rw [← hxs]; simp; omega
      cases xs with
      | nil => simp at h
      | cons x tl =>
        simp only [Option.some.injEq, Except.ok.injEq] at h
        subst h
        obtain ⟨a1, a2⟩ := foldl_min x tl
        obtain ⟨b1, b2⟩ := foldl_max x tl
        dsimp only
        have hpos : (0 : Rat) < ((x :: tl).length : Rat) := by exact_mod_cast (by simp : 0 < (x :: tl).length)
        have hb := sum_bounds (x :: tl) _ _ fun y hy => ⟨a2 y hy, b2 y hy⟩
        obtain ⟨m1, m2⟩ := median_halves (x :: tl) (by simp)
        refine ⟨N, x :: tl, hl, rfl, rfl, ?_, ⟨rest, rfl, hxs.symm⟩, a1, b1, fun y hy => ⟨a2 y hy, b2 y hy⟩, ?_, m1, ?_, m2 _ _ fun y hy => ⟨a2 y hy, b2 y hy⟩, ?_⟩
        · intro n hnn
          subst hnn
          simp only [innerNumber, Option.some.injEq, Prod.mk.injEq] at hn
          obtain ⟨rfl, rfl⟩ := hn
          exact ⟨rfl, hxs.symm⟩
        · field_simp
        · constructor
          · rw [le_div_iff₀ hpos]; exact hb.1
          · rw [div_le_iff₀ hpos]; exact hb.2
        · rw [decide_eq_true_iff, ge_iff_le, mul_comm]

/-- Three repeats of 10 iterations. -/
example : ∃ r, timeit 1 3 (some 10) [2, 9, 4] = some (.ok r) ∧ r.min = 1 / 5 ∧ r.max = 9 / 10 ∧ r.mean = 1 / 2 ∧ r.warns = true := by
  refine ⟨_, rfl, ?_⟩
  decide +kernel

/-! ### C166 -/

/-- A time that `format_time` writes in at most eight characters. -/
theorem formatTime_short {dt : Rat} (h : dt = 0 ∨ (1 / 10 ^ 9 ≤ dt ∧ dt < 99995 / 10)) : ∃ s, formatTime dt = .ok s ∧ s.length ≤ 8 := by
  rcases h with rfl | ⟨h1, h2⟩
  · exact ⟨"0ns".toList, by decide +kernel, by decide⟩
  · obtain ⟨s, h3, h4⟩ := C162_width_partial dt 4 (le_refl _) h1 (by norm_num at h2 ⊢; exact h2)
    exact ⟨s, h3, by omega⟩

theorem right8_length {s : List Char} (h : s.length ≤ 8) : (right8 s).length = 8 := by
  simp [right8]; omega

/-- **C166 is false of the code.** A standard deviation below 0.1 nanoseconds makes the line longer, and so does a million iterations. -/
theorem C166_columns_false : ∃ r : Results, (report r 0).map List.length = .ok 69 ∧ (report r (1234 / 10 ^ 14)).map List.length = .ok 70 ∧
    (report { r with number := 1000000 } 0).map List.length = .ok 71 :=
  ⟨⟨1 / 10 ^ 6, 2 / 10 ^ 6, 15 / 10 ^ 7, 15 / 10 ^ 7, 20000, 10, false⟩, by decide +kernel⟩

/-- C166, what holds: with fewer than 100000 iterations and all times zero or between a nanosecond and 9999.5 seconds, every line has the same length (and so the columns line up).
Missing: other times and numbers, for which the property fails. -/
theorem C166_columns_partial (r : Results) (std : Rat) (hn : r.number < 100000)
    (h : ∀ t ∈ [r.min, r.max, r.median, r.mean, std], t = 0 ∨ (1 / 10 ^ 9 ≤ t ∧ t < 99995 / 10)) : ∃ s, report r std = .ok s ∧ s.length = 69 := by
  obtain ⟨a, a1, a2⟩ := formatTime_short (h r.min (by simp))
  obtain ⟨b, b1, b2⟩ := formatTime_short (h r.max (by simp))
  obtain ⟨c, c1, c2⟩ := formatTime_short (h r.median (by simp))
  obtain ⟨e, e1, e2⟩ := formatTime_short (h r.mean (by simp))
  obtain ⟨f, f1, f2⟩ := formatTime_short (h std (by simp))
  have h5 : (right5 r.number).length = 5 := by
    unfold right5
    dsimp only
    split
    · decide
    · have := (Nat.digits_length_le_iff (b := 10) (by decide) (k := 5) r.number).2 (by omega)
      simp [chars]
      omega
  unfold report
  rw [a1, Except.bind_ok', b1, Except.bind_ok', c1, Except.bind_ok', e1, Except.bind_ok', f1, Except.bind_ok']
  refine ⟨_, rfl, ?_⟩
  simp only [List.length_append, right8_length a2, right8_length b2, right8_length c2, right8_length e2, right8_length f2, h5]
  rfl

example : (report ⟨1 / 10 ^ 6, 2 / 10 ^ 6, 15 / 10 ^ 7, 15 / 10 ^ 7, 20000, 10, false⟩ (1 / 10 ^ 7)).map String.ofList =
    .ok "number=20000 | [     1µs,      2µs] |    1.5µs |    1.5µs +-    100ns" := by decide +kernel

end DS.Timing
