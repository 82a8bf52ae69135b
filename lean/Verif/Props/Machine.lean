import Verif.Model.Machine
import Verif.Props.CatLength
import Verif.Props.LengthIndex
import Verif.Lemmas.Tensor
import Mathlib.Tactic.Linarith
import Mathlib.Tactic.NormNum
import Mathlib.Tactic.FieldSimp
import Mathlib.Tactic.Ring
import Mathlib.Tactic.Positivity
import Mathlib.Tactic.Push
/-! # C150, C151: machine numbers in the metadata -/

namespace DS.Mach
open DS.Data (pyRound)

theorem floor_eq (q : Rat) : q.floor = ⌊q⌋ := rfl

theorem pyRound_near (q : Rat) : (pyRound q : Rat) ≤ q + 1 / 2 ∧ q - 1 / 2 ≤ (pyRound q : Rat) := by
  have h1 : (q.floor : Rat) ≤ q := by rw [floor_eq]; exact Int.floor_le q
  have h2 : q < (q.floor : Rat) + 1 := by rw [floor_eq]; exact Int.lt_floor_add_one q
  unfold pyRound
  dsimp only
  split
  · constructor <;> linarith
  · split
    · push_cast; constructor <;> linarith
    · split
      · constructor <;> linarith
      · push_cast; constructor <;> linarith

theorem pyRound_int (n : Int) : pyRound (n : Rat) = n := by
  unfold pyRound
  have : (n : Rat).floor = n := by rw [floor_eq]; exact Int.floor_intCast n
  dsimp only
  rw [this]
  norm_num

theorem log_le (q : Rat) (hq : q ≠ 0) : (2 : Rat) ^ (Int.log 2 |q|) ≤ |q| := by
  have := Int.zpow_log_le_self (b := 2) (r := |q|) (by norm_num) (abs_pos.2 hq)
  simpa using this

theorem log_le_23 (q : Rat) (h : |q| < 2 ^ 24) (hq : q ≠ 0) : Int.log 2 |q| ≤ 23 := by
  have h2 := log_le q hq
  by_contra hc
  have : (2 : Rat) ^ (24 : Int) ≤ 2 ^ (Int.log 2 |q|) := zpow_le_zpow_right₀ (by norm_num) (by omega)
  have h3 : (2 : Rat) ^ (24 : Int) = 2 ^ 24 := by norm_cast
  rw [h3] at this
  linarith

/-- Integers up to `2 ^ 24` are float32 numbers. -/
theorem f32_int (n : Int) (hn : |n| ≤ 2 ^ 24) : f32 (n : Rat) = n := by
  unfold f32
  dsimp only
  by_cases h0 : n = 0
  · subst h0; simp [pyRound_int 0, show pyRound (0 : Rat) = 0 from by simpa using pyRound_int 0]
  have hq : (n : Rat) ≠ 0 := by exact_mod_cast h0
  have hu : (2 : Rat) ^ (Int.log 2 |(n : Rat)| - 23) ≠ 0 := ne_of_gt (zpow_pos (by norm_num) _)
  by_cases hc : Int.log 2 |(n : Rat)| ≤ 23
  · -- the unit divides 1
    obtain ⟨j, hj⟩ : ∃ j : Nat, Int.log 2 |(n : Rat)| - 23 = -(j : Int) := ⟨(23 - Int.log 2 |(n : Rat)|).toNat, by omega⟩
    rw [hj] at *
    have e : (n : Rat) / 2 ^ (-(j : Int)) = ((n * 2 ^ j : Int) : Rat) := by
      rw [zpow_neg, div_inv_eq_mul, zpow_natCast]; push_cast; ring
    rw [e, pyRound_int, ← e]
    field_simp
  · have hge : ¬ |(n : Rat)| < 2 ^ 24 := fun h => hc (log_le_23 _ h hq)
    have hle : |(n : Rat)| ≤ 2 ^ 24 := by exact_mod_cast hn
    have heq : |(n : Rat)| = 2 ^ 24 := le_antisymm hle (by linarith [not_lt.1 hge])
    have hlog : Int.log 2 |(n : Rat)| = 24 := by
      rw [heq]
      have := Int.log_zpow (R := Rat) (b := 2) (by norm_num) 24
      have h3 : ((2 : Nat) : Rat) ^ (24 : Int) = 2 ^ 24 := by norm_cast
      rw [h3] at this; exact this
    have hn2 : |n| = 2 ^ 24 := by
      have : ((|n| : Int) : Rat) = ((2 ^ 24 : Int) : Rat) := by push_cast; exact heq
      exact_mod_cast this
    rw [hlog]
    rcases abs_eq (show (0 : Int) ≤ 2 ^ 24 by norm_num) |>.1 hn2 with h | h <;> subst h
    · have : ((2 ^ 24 : Int) : Rat) / 2 ^ ((24 : Int) - 23) = ((2 ^ 23 : Int) : Rat) := by norm_num
      rw [this, pyRound_int]; norm_num
    · have : ((-2 ^ 24 : Int) : Rat) / 2 ^ ((24 : Int) - 23) = ((-2 ^ 23 : Int) : Rat) := by norm_num
      rw [this, pyRound_int]; norm_num

/-- A quotient of integers of at most `2 ^ 24` that is not an integer stays strictly between the neighbouring integers when it is rounded. -/
theorem f32_between (n s k r : Int) (hn : |n| ≤ 2 ^ 24) (hs : 0 < s) (hs2 : s ≤ 2 ^ 24) (hk : n = k * s + r) (hr : 0 < r) (hrs : r < s) :
    (k : Rat) < f32 ((n : Rat) / s) ∧ f32 ((n : Rat) / s) < k + 1 := by
  have hs' : (0 : Rat) < s := by exact_mod_cast hs
  have h0 : n ≠ 0 := by
    intro h; rw [h] at hk
    have h1 : r = (-k) * s := by linarith
    have h2 : s ∣ r := ⟨-k, by rw [h1]; ring⟩
    have := Int.le_of_dvd hr h2
    omega
  set x : Rat := (n : Rat) / s with hx
  have hx0 : x ≠ 0 := by rw [hx]; have : (n : Rat) ≠ 0 := by exact_mod_cast h0
                         positivity
  have hxk : x = k + (r : Rat) / s := by rw [hx, hk]; push_cast; field_simp
  have hxabs : |x| * s = |(n : Rat)| := by rw [hx, abs_div, abs_of_pos hs']; field_simp
  have hnle : |(n : Rat)| ≤ 2 ^ 24 := by exact_mod_cast hn
  have hs1 : (2 : Rat) ≤ s := by have : (2 : Int) ≤ s := by omega
                                 exact_mod_cast this
  have hxlt : |x| < 2 ^ 24 := by
    have : |x| * 2 ≤ |x| * s := by have := abs_nonneg x; nlinarith
    have h3 := abs_nonneg x
    have h4 : 0 < |x| := abs_pos.2 hx0
    linarith
  have he := log_le_23 x hxlt hx0
  have hle := log_le x hx0
  unfold f32
  dsimp only
  set e := Int.log 2 |x| with hedef
  obtain ⟨j, hj⟩ : ∃ j : Nat, e - 23 = -(j : Int) := ⟨(23 - e).toNat, by omega⟩
  set u : Rat := 2 ^ (e - 23) with hu
  have hupos : 0 < u := by rw [hu]; exact zpow_pos (by norm_num) _
  have hinv : (1 : Rat) = ((2 ^ j : Int) : Rat) * u := by
    rw [hu, hj, zpow_neg, zpow_natCast]; push_cast; field_simp
  -- half a unit is smaller than `1 / s`
  have hhalf : u * s < 2 := by
    have h1 : (2 : Rat) ^ e * s ≤ 2 ^ 24 := by
      calc (2 : Rat) ^ e * s ≤ |x| * s := by nlinarith
        _ ≤ 2 ^ 24 := by rw [hxabs]; exact hnle
    have h2 : u * 2 ^ 23 = 2 ^ e := by
      rw [hu, zpow_sub₀ (by norm_num)]; norm_num
    have h3 : (2 : Rat) ^ e * s ≠ 2 ^ 24 := by
      intro h3
      have heq : (2 : Rat) ^ e = |x| := by
        have : (2 : Rat) ^ e * s = |x| * s := by
          have h5 : |x| * s ≤ 2 ^ 24 := by rw [hxabs]; exact hnle
          have h6 : (2 : Rat) ^ e * s ≤ |x| * s := by nlinarith
          linarith
        exact mul_right_cancel₀ (ne_of_gt hs') this
      by_cases hen : 0 ≤ e
      · obtain ⟨i, hi⟩ : ∃ i : Nat, e = (i : Int) := ⟨e.toNat, by omega⟩
        rw [hi, zpow_natCast] at heq
        have h7 : |n| = 2 ^ i * s := by
          have : ((|n| : Int) : Rat) = ((2 ^ i * s : Int) : Rat) := by
            push_cast; rw [← hxabs, ← heq]
          exact_mod_cast this
        have h8 : s ∣ n := by
          rw [← dvd_abs, h7]; exact ⟨2 ^ i, by ring⟩
        rw [hk] at h8
        have h9 : s ∣ r := by
          have := (Int.dvd_add_right (⟨k, by ring⟩ : s ∣ k * s)).1 h8
          exact this
        have := Int.le_of_dvd hr h9
        omega
      · have h4 : (2 : Rat) ^ e ≤ 2 ^ (-1 : Int) := zpow_le_zpow_right₀ (by norm_num) (by omega)
        have h5 : (s : Rat) ≤ 2 ^ 24 := by exact_mod_cast hs2
        have h6 : (2 : Rat) ^ (-1 : Int) = 1 / 2 := by norm_num
        rw [h6] at h4
        have h7 : 0 < (2 : Rat) ^ e := zpow_pos (by norm_num) _
        nlinarith
    have h4 : (2 : Rat) ^ e * s < 2 ^ 24 := lt_of_le_of_ne h1 h3
    rw [← h2] at h4
    norm_num at h4 ⊢
    linarith
  have hr' : (1 : Rat) ≤ r := by exact_mod_cast hr
  have hrs' : (r : Rat) + 1 ≤ s := by exact_mod_cast hrs
  obtain ⟨n1, n2⟩ := pyRound_near (x / u)
  have hxu : x / u = ((k * 2 ^ j : Int) : Rat) + (r : Rat) / s / u := by
    rw [hxk]
    have : (k : Rat) / u = ((k * 2 ^ j : Int) : Rat) := by
      push_cast
      rw [div_eq_iff (ne_of_gt hupos)]
      push_cast at hinv
      rw [mul_assoc, ← hinv, mul_one]
    rw [add_div, this]
  have hd1 : (1 : Rat) / 2 < (r : Rat) / s / u := by
    rw [div_div, lt_div_iff₀ (by positivity)]
    nlinarith
  have hd2 : (r : Rat) / s / u < ((2 ^ j : Int) : Rat) - 1 / 2 := by
    have h1 : (r : Rat) / s ≤ 1 - 1 / s := by
      rw [div_le_iff₀ hs']; field_simp; linarith
    have h2 : (r : Rat) / s / u ≤ (1 - 1 / s) / u := by gcongr
    have h3 : (1 : Rat) / u = ((2 ^ j : Int) : Rat) := by
      rw [div_eq_iff (ne_of_gt hupos)]; exact hinv
    have h4 : (1 : Rat) / 2 < 1 / s / u := by
      rw [div_div, lt_div_iff₀ (by positivity)]; nlinarith
    rw [sub_div, h3] at h2
    linarith
  have l1 : k * 2 ^ j < pyRound (x / u) := by
    have : ((k * 2 ^ j : Int) : Rat) < (pyRound (x / u) : Rat) := by rw [hxu] at n2 ⊢; linarith
    exact_mod_cast this
  have l2 : pyRound (x / u) < k * 2 ^ j + 2 ^ j := by
    have : (pyRound (x / u) : Rat) < ((k * 2 ^ j + 2 ^ j : Int) : Rat) := by
      rw [hxu] at n1 ⊢; push_cast at *; linarith
    exact_mod_cast this
  have l1' : ((k * 2 ^ j : Int) : Rat) < (pyRound (x / u) : Rat) := by exact_mod_cast l1
  have l2' : (pyRound (x / u) : Rat) < ((k * 2 ^ j + 2 ^ j : Int) : Rat) := by exact_mod_cast l2
  push_cast at l1' l2' hinv
  constructor
  · calc (k : Rat) = (k * 2 ^ j) * u := by rw [mul_assoc, ← hinv, mul_one]
      _ < _ := by exact mul_lt_mul_of_pos_right l1' hupos
  · calc _ < ((k * 2 ^ j + 2 ^ j) : Rat) * u := mul_lt_mul_of_pos_right l2' hupos
      _ = k + 1 := by rw [add_mul, mul_assoc, ← hinv, mul_one]

/-- Up to `2 ^ 24` the division in float32, rounded up, is the exact one. -/
theorem divCeil32_exact (n s : Int) (hn : |n| ≤ 2 ^ 24) (hs : 0 < s) (hs2 : s ≤ 2 ^ 24) : divCeil32 n s = ceilDiv n s := by
  unfold divCeil32
  have hsabs : |s| ≤ 2 ^ 24 := by rw [abs_of_pos hs]; exact hs2
  rw [f32_int n hn, f32_int s hsabs]
  unfold ceilDiv
  by_cases hd : n % s = 0
  · obtain ⟨k, hk⟩ := Int.dvd_of_emod_eq_zero hd
    have hs0 : (s : Rat) ≠ 0 := by exact_mod_cast (ne_of_gt hs)
    have e : (n : Rat) / s = (k : Rat) := by rw [hk]; push_cast; field_simp
    have hkabs : |k| ≤ 2 ^ 24 := by
      have h1 : |n| = s * |k| := by rw [hk, abs_mul, abs_of_pos hs]
      have := abs_nonneg k
      nlinarith
    rw [e, f32_int k hkabs, Int.ceil_intCast, hk]
    have : -(s * k) = s * (-k) := by ring
    rw [this, Int.mul_ediv_cancel_left _ (ne_of_gt hs)]; ring
  · have h1 := Int.emod_nonneg n (ne_of_gt hs)
    have h2 := Int.emod_lt_of_pos n hs
    have h3 : n = n / s * s + n % s := by have := Int.mul_ediv_add_emod n s; linarith
    obtain ⟨l1, l2⟩ := f32_between n s (n / s) (n % s) hn hs hs2 h3 (by omega) h2
    have hc : ⌈f32 ((n : Rat) / s)⌉ = n / s + 1 := by
      rw [Int.ceil_eq_iff]; push_cast; constructor
      · linarith
      · linarith
    rw [hc]
    have h4 : -n = (s - n % s) + s * (-(n / s) - 1) := by
      have := Int.mul_ediv_add_emod n s
      rw [mul_sub, mul_neg]; linarith
    have h5 : (s - n % s) / s = 0 := Int.ediv_eq_zero_of_lt (by linarith) (by omega)
    rw [h4, Int.add_mul_ediv_left _ _ (ne_of_gt hs), h5]
    ring

theorem f32_big : f32 16777217 = 16777216 := by
  have h : Int.log 2 |(16777217 : Rat)| = 24 := by
    rw [abs_of_pos (by norm_num)]
    apply le_antisymm
    · have := (Int.lt_zpow_iff_log_lt (b := 2) (R := Rat) (by norm_num) (r := 16777217) (x := 25) (by norm_num)).1 (by norm_num)
      omega
    · exact (Int.zpow_le_iff_le_log (b := 2) (R := Rat) (by norm_num) (r := 16777217) (x := 24) (by norm_num)).1 (by norm_num)
  unfold f32
  dsimp only
  rw [h]
  have h2 : (2 : Rat) ^ ((24 : Int) - 23) = 2 := by norm_num
  rw [h2]
  have h3 : pyRound ((16777217 : Rat) / 2) = 8388608 := by decide +kernel
  rw [h3]; norm_num

/-- C150 is false of the code. A row of 16777217 frames (17 and a half minutes of audio at 16 kHz), every second of which is kept, has 8388609 frames left; the code
says 8388608. -/
theorem C150_long_rows_false :
    ((indexLengthSlice32 ⟨["a"], [true], [true], [16777217], none⟩ { step := some 2 }).map (·.lengths)) = .ok [8388608] ∧
    keptData (slicePos 16777217 { step := some 2 }) 16777217 = 8388609 := by
  constructor
  · have h : divCeil32 16777217 2 = 8388608 := by
      unfold divCeil32
      have e1 : f32 ((16777217 : Int) : Rat) = 16777216 := by exact_mod_cast f32_big
      have e2 : f32 ((2 : Int) : Rat) = ((2 : Int) : Rat) := f32_int 2 (by norm_num)
      have e3 : (16777216 : Rat) / ((2 : Int) : Rat) = ((8388608 : Int) : Rat) := by norm_num
      rw [e1, e2, e3, f32_int 8388608 (by norm_num), Int.ceil_intCast]
    have h2 : indexLengthSlice32 ⟨["a"], [true], [true], [16777217], none⟩ { step := some 2 } =
        Meta.indexLengthSlice.finish ⟨["a"], [true], [true], [16777217], none⟩ 0 16777217 [divCeil32 16777217 2] := rfl
    rw [h2, h]
    decide +kernel
  · rw [keptData_slice 16777217 { step := some 2 } 16777217 (by decide)]
    decide +kernel

/-- C150, what holds: with a step of at most `2 ^ 24` and rows of at most `2 ^ 24` frames the lengths that the code computes in float32 are the exact ones, so
that everything proved of `indexLengthSlice` (C05 to C08, C13, C43, …) holds of the code. Missing: longer rows (`C150_long_rows_false`). -/
theorem C150_float_partial (m : Meta) (s : Slice) (hl : ∀ l ∈ m.lengths, 0 ≤ l ∧ l ≤ 2 ^ 24) (hs : ∀ k, s.step = some k → k ≤ 2 ^ 24) :
    indexLengthSlice32 m s = m.indexLengthSlice s := by
  unfold indexLengthSlice32 Meta.indexLengthSlice
  cases hm : m.maxLength with
  | error e => rfl
  | ok ml =>
    simp only [Except.bind_ok']
    obtain ⟨hmem, hmax⟩ := (torchMax_iff _ _).1 (show torchMax m.lengths = .ok ml from hm)
    have hml := hl ml hmem
    obtain ⟨n, rfl⟩ : ∃ n : Nat, ml = (n : Int) := ⟨ml.toNat, by omega⟩
    by_cases hpos : 0 < s.step.getD 1
    · rw [indices_pos s n hpos, Except.bind_ok']
      simp only [Except.bind_ok']
      have hneg : ¬ s.step.getD 1 < 0 := by omega
      simp only [if_neg hneg]
      by_cases h1 : s.step.getD 1 = 1
      · simp only [if_pos h1]
      · simp only [if_neg h1]
        have hst : s.step.getD 1 ≤ 2 ^ 24 := by
          cases h : s.step with
          | none => simp
          | some k => simpa using hs k h
        have hlo : 0 ≤ sliceLo n s ∧ sliceLo n s ≤ n := sliceLo_range n s
        congr 1
        apply List.map_congr_left
        intro l hlm
        have hll := hl l hlm
        apply divCeil32_exact _ _ _ hpos hst
        have h1 := Int.emod_nonneg ((n : Int) - 1 - sliceLo n s) (ne_of_gt hpos)
        have h2 := Int.emod_lt_of_pos ((n : Int) - 1 - sliceLo n s) hpos
        generalize ((n : Int) - 1 - sliceLo n s) % s.step.getD 1 = e at *
        unfold clip
        rw [abs_le]
        have := hmax l hlm
        omega
    · cases hi : s.indices n with
      | error e => rfl
      | ok t =>
        simp only [Except.bind_ok']
        have : t.2.2 = s.step.getD 1 := by
          unfold Slice.indices at hi
          simp only at hi
          split at hi
          · simp at hi
          · split at hi
            · simp at hi
            · simp only [Except.ok.injEq] at hi; rw [← hi]
        obtain ⟨a, b, c⟩ := t
        simp only at this ⊢
        subst this
        have hne : s.step.getD 1 ≠ 0 := by
          intro h0
          unfold Slice.indices at hi
          simp [h0] at hi
        rw [if_pos (by omega), if_pos (by omega)]

/-- The hypotheses are met by rows of 2 ^ 24 frames, of which every third is kept: 5592406 frames. -/
example : (∀ l ∈ (⟨["a", "b"], [true, true], [true, false], [16777216, 5], none⟩ : Meta).lengths, 0 ≤ l ∧ l ≤ 2 ^ 24) ∧
    (((⟨["a", "b"], [true, true], [true, false], [16777216, 5], none⟩ : Meta).indexLengthSlice { step := some 3 }).map (·.lengths)) = .ok [5592406, 2] := by
  decide +kernel

theorem int32_add (a b : Int) : int32 (int32 a + b) = int32 (a + b) := by unfold int32; omega

theorem int32_id (a : Int) : int32 a = a ↔ -2 ^ 31 ≤ a ∧ a < 2 ^ 31 := by unfold int32; omega

theorem addCols32_wrap (a b : List Int) : addCols32 (a.map int32) b = (Meta.addCols a b).map int32 := by
  unfold addCols32 Meta.addCols
  induction a generalizing b with
  | nil => simp
  | cons x a ih =>
    cases b with
    | nil => simp
    | cons y b => simp [int32_add, ih b]

theorem fold32 (r : List Meta) (a : List Int) :
    r.foldl (fun acc s => addCols32 acc s.lengths) (a.map int32) = (r.foldl (fun acc s => Meta.addCols acc s.lengths) a).map int32 := by
  induction r generalizing a with
  | nil => rfl
  | cons s r ih => simp only [List.foldl_cons, addCols32_wrap, ih]

theorem init_wrap (ids : List String) (sos eos : List Bool) (ls : List Int) (c : Option (List Int)) :
    Meta.init ids sos eos (ls.map int32) c = (Meta.init ids sos eos ls c).map fun m => { m with lengths := m.lengths.map int32 } := by
  unfold Meta.init
  simp only [List.length_map]
  split <;> rfl

theorem catLength32_eq (m n : Meta) (r : List Meta) :
    catLength32 (m :: n :: r) = (Meta.catLength (m :: n :: r)).map fun m => { m with lengths := m.lengths.map int32 } := by
  unfold catLength32 Meta.catLength
  have h : (n :: r).foldl (fun acc s => addCols32 acc s.lengths) m.lengths =
      ((n :: r).foldl (fun acc s => Meta.addCols acc s.lengths) m.lengths).map int32 := by
    simp only [List.foldl_cons]
    exact fold32 r (Meta.addCols m.lengths n.lengths)
  simp only [h]
  cases Meta.catLengthChecks m.ids ((m :: n :: r).length - 1) 0 (m :: n :: r) with
  | error e => rfl
  | ok u =>
    simp only [Except.bind_ok', init_wrap]
    split
    · rfl
    · split <;> rfl

theorem addCols_nonneg (a b : List Int) (ha : ∀ x ∈ a, 0 ≤ x) (hb : ∀ x ∈ b, 0 ≤ x) : ∀ x ∈ Meta.addCols a b, 0 ≤ x := by
  unfold Meta.addCols
  induction a generalizing b with
  | nil => simp
  | cons x a ih =>
    cases b with
    | nil => simp
    | cons y b =>
      simp only [List.zipWith_cons_cons, List.mem_cons]
      rintro z (rfl | hz)
      · have := ha x (by simp); have := hb y (by simp); omega
      · exact ih b (fun x hx => ha x (by simp [hx])) (fun x hx => hb x (by simp [hx])) z hz

theorem fold_nonneg (r : List Meta) (a : List Int) (ha : ∀ x ∈ a, 0 ≤ x) (hr : ∀ m ∈ r, ∀ x ∈ m.lengths, 0 ≤ x) :
    ∀ x ∈ r.foldl (fun acc s => Meta.addCols acc s.lengths) a, 0 ≤ x := by
  induction r generalizing a with
  | nil => exact ha
  | cons s r ih =>
    exact ih _ (addCols_nonneg a s.lengths ha (hr s (by simp))) (fun m hm => hr m (by simp [hm]))

theorem init_lengths {ids : List String} {sos eos : List Bool} {ls : List Int} {c : Option (List Int)} {m : Meta}
    (h : Meta.init ids sos eos ls c = .ok m) : m.lengths = ls := by
  unfold Meta.init at h
  split at h
  · simp at h; rw [← h]
  · simp at h

theorem catLength_nonneg (ms : List Meta) (h : ∀ m ∈ ms, ∀ x ∈ m.lengths, 0 ≤ x) (r : Meta) (hr : Meta.catLength ms = .ok r) : ∀ x ∈ r.lengths, 0 ≤ x := by
  match ms, hr with
  | [], hr => simp [Meta.catLength] at hr
  | [m], hr => simp only [Meta.catLength, Except.ok.injEq] at hr; subst hr; exact h m (by simp)
  | m :: n :: ms, hr =>
    unfold Meta.catLength at hr
    obtain ⟨_, _, hr⟩ := ok_of_bind hr
    dsimp only at hr
    have := fold_nonneg (n :: ms) m.lengths (h m (by simp)) (fun s hs => h s (by simp [List.mem_cons.1 hs]))
    split at hr
    · rw [init_lengths hr]; exact this
    · split at hr
      · rw [init_lengths hr]; exact this
      · simp at hr

/-- C151 is false of the code. Two consecutive chunks of 2 ^ 30 frames of one stream (18 hours of audio at 16 kHz each) are concatenated to a chunk of
length -2 ^ 31. -/
theorem C151_sum_false :
    (catLength32 [⟨["a"], [true], [false], [2 ^ 30], none⟩, ⟨["a"], [false], [true], [2 ^ 30], none⟩]).map (·.lengths) = .ok [-2 ^ 31] := by
  decide +kernel

/-- C151, exactly. Chunks are refused as with unbounded integers (C19), and the lengths of the result are the sums modulo 2 ^ 32; so they are the sums iff each of these is
below 2 ^ 31. Missing: longer streams. -/
theorem C151_sum_partial (ms : List Meta) (h : ∀ m ∈ ms, ∀ l ∈ m.lengths, 0 ≤ l ∧ l < 2 ^ 31) :
    (∀ e, catLength32 ms = .error e ↔ Meta.catLength ms = .error e) ∧
    ∀ m, Meta.catLength ms = .ok m →
      catLength32 ms = .ok { m with lengths := m.lengths.map int32 } ∧ (catLength32 ms = .ok m ↔ ∀ l ∈ m.lengths, l < 2 ^ 31) := by
  have hmap : ∀ m : Meta, (∀ l ∈ m.lengths, 0 ≤ l) → (({ m with lengths := m.lengths.map int32 } : Meta) = m ↔ ∀ l ∈ m.lengths, l < 2 ^ 31) := by
    intro m hm
    constructor
    · intro he l hl
      have h2 : m.lengths.map int32 = m.lengths := congrArg Meta.lengths he
      have h3 : int32 l = l := List.map_inj_left.1 (h2.trans (List.map_id m.lengths).symm) l hl
      exact ((int32_id l).1 h3).2
    · intro hl
      have h2 : m.lengths.map int32 = m.lengths := by
        conv_rhs => rw [← List.map_id m.lengths]
        apply List.map_congr_left
        intro l hl'
        have := hm l hl'
        exact (int32_id l).2 ⟨by omega, hl l hl'⟩
      cases m; simp_all
  match ms, h with
  | [], _ => exact ⟨fun e => Iff.rfl, by simp [Meta.catLength]⟩
  | [m], h =>
    refine ⟨fun e => Iff.rfl, ?_⟩
    intro r hr
    simp only [Meta.catLength, Except.ok.injEq] at hr
    subst hr
    have hm := h m (by simp)
    have := (hmap m (fun l hl => (hm l hl).1)).2 (fun l hl => (hm l hl).2)
    simp only [catLength32, this, true_iff, true_and]
    exact fun l hl => (hm l hl).2
  | m :: n :: r, h =>
    rw [catLength32_eq]
    refine ⟨?_, ?_⟩
    · intro e
      cases Meta.catLength (m :: n :: r) with
      | error e' => simp [Except.map]
      | ok x => simp [Except.map]
    · intro x hx
      have hnn := catLength_nonneg _ (fun a ha l hl => (h a ha l hl).1) x hx
      rw [hx]
      simp only [Except.map, Except.ok.injEq, true_and]
      exact hmap x hnn

/-- Sums below 2 ^ 31 are exact. -/
example : (catLength32 [⟨["a"], [true], [false], [2 ^ 30], none⟩, ⟨["a"], [false], [false], [2 ^ 30 - 1], none⟩]).map (·.lengths) = .ok [2 ^ 31 - 1] := by
  decide +kernel

end DS.Mach
