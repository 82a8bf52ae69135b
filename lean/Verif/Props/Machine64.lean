import Verif.Model.Machine64
import Verif.Props.Machine
/-!
# C157: rounding errors do not change the chunks of a file
-/

namespace DS.Mach
open DS.Data

theorem f64_near (q : Rat) : |f64 q - q| ≤ |q| / 2 ^ 53 := by
  by_cases hq : q = 0
  · subst hq
    have : pyRound (0 : Rat) = 0 := by simpa using pyRound_int 0
    simp [f64, this]
  unfold f64
  dsimp only
  have hu : (0 : Rat) < 2 ^ (Int.log 2 |q| - 52) := zpow_pos (by norm_num) _
  generalize hU : (2 : Rat) ^ (Int.log 2 |q| - 52) = u at hu
  obtain ⟨h1, h2⟩ := pyRound_near (q / u)
  have hqu : q / u * u = q := by field_simp
  have h3 : (pyRound (q / u) : Rat) * u - q ≤ u / 2 := by nlinarith
  have h4 : -(u / 2) ≤ (pyRound (q / u) : Rat) * u - q := by nlinarith
  have h5 : |(pyRound (q / u) : Rat) * u - q| ≤ u / 2 := abs_le.2 ⟨h4, h3⟩
  refine h5.trans ?_
  have h6 := log_le q hq
  have h7 : u = 2 ^ (Int.log 2 |q|) / 2 ^ 52 := by
    rw [← hU, zpow_sub₀ (by norm_num)]
    norm_cast
  rw [h7]
  rw [div_div, show (2 : Rat) ^ 52 * 2 = 2 ^ 53 by norm_num]
  exact div_le_div_of_nonneg_right h6 (by norm_num)

theorem pyRound_of_near {q : Rat} {k : Int} (h : |q - k| < 1 / 2) : pyRound q = k := by
  obtain ⟨h1, h2⟩ := pyRound_near q
  obtain ⟨h3, h4⟩ := abs_lt.1 h
  have h5 : (pyRound q : Rat) < k + 1 := by linarith
  have h6 : (k : Rat) - 1 < pyRound q := by linarith
  have h7 : pyRound q < k + 1 := by exact_mod_cast h5
  have h8 : k - 1 < pyRound q := by exact_mod_cast h6
  omega

theorem near_mul {a b x y e : Rat} (ha : |a - 1| ≤ x) (hb : |b - 1| ≤ y) (h : x + y + x * y ≤ e) : |a * b - 1| ≤ e := by
  have h1 : a * b - 1 = (a - 1) + (b - 1) + (a - 1) * (b - 1) := by ring
  have hx : 0 ≤ x := (abs_nonneg _).trans ha
  rw [h1]
  refine (abs_add_le _ _).trans (le_trans (add_le_add (abs_add_le _ _) (le_of_eq (abs_mul _ _))) ?_)
  have := mul_le_mul ha hb (abs_nonneg _) hx
  linarith

/-- A float computation of a positive number: the factors by which the intermediate results are off. -/
theorem f64_factor {q : Rat} (hq : 0 < q) : ∃ d : Rat, |d| ≤ 1 / 2 ^ 53 ∧ f64 q = q * (1 + d) := by
  refine ⟨(f64 q - q) / q, ?_, by field_simp; ring⟩
  rw [abs_div, div_le_iff₀ (abs_pos.2 hq.ne')]
  have := f64_near q
  linarith

theorem chunkSize64_near {t : Rat} (ht : 0 < t) {rate frames after : Nat} (hr : 0 < rate) (hf : 0 < frames) (ha : 0 < after) (k : Int) (hk : k ≤ 2 ^ 40)
    (hn : |t * rate / ((frames : Rat) / after) - k| ≤ 499 / 1000) : chunkSize64 (f64 t) rate frames after = k := by
  have hr' : (0 : Rat) < rate := by exact_mod_cast hr
  have hf' : (0 : Rat) < frames := by exact_mod_cast hf
  have ha' : (0 : Rat) < after := by exact_mod_cast ha
  unfold chunkSize64
  dsimp only
  apply pyRound_of_near
  have e : (1 : Rat) / 2 ^ 53 ≤ 1 / 10 ^ 15 := by norm_num
  obtain ⟨d1, b1, h1⟩ := f64_factor ht
  obtain ⟨l1, u1⟩ := abs_le.1 (b1.trans e)
  have p1 : 0 < f64 t * rate := by rw [h1]; exact mul_pos (mul_pos ht (by linarith)) hr'
  obtain ⟨d2, b2, h2⟩ := f64_factor p1
  obtain ⟨l2, u2⟩ := abs_le.1 (b2.trans e)
  have ps : (0 : Rat) < frames / after := div_pos hf' ha'
  obtain ⟨d3, b3, h3⟩ := f64_factor ps
  obtain ⟨l3, u3⟩ := abs_le.1 (b3.trans e)
  have p4 : 0 < f64 (f64 t * rate) / f64 (frames / after) := by
    rw [h2, h3]
    exact div_pos (mul_pos p1 (by linarith)) (mul_pos ps (by linarith))
  obtain ⟨d4, b4, h4⟩ := f64_factor p4
  obtain ⟨l4, u4⟩ := abs_le.1 (b4.trans e)
  rw [h4, h2, h3, h1]
  generalize hv : t * rate / ((frames : Rat) / after) = v at hn
  have hvpos : 0 < v := by rw [← hv]; exact div_pos (mul_pos ht hr') ps
  have hw : t * (1 + d1) * rate * (1 + d2) / ((frames : Rat) / after * (1 + d3)) * (1 + d4) = v * ((1 + d1) * (1 + d2) * (1 + d4) / (1 + d3)) := by
    have : (1 + d3) ≠ 0 := by linarith
    rw [← hv]; field_simp
  rw [hw]
  obtain ⟨n1, n2⟩ := abs_le.1 hn
  have hk' : (k : Rat) ≤ 2 ^ 40 := by exact_mod_cast hk
  have hvk : v ≤ 2 ^ 40 + 1 := by linarith
  have hd3 : 0 < 1 + d3 := by linarith
  have hfac : |(1 + d1) * (1 + d2) * (1 + d4) / (1 + d3) - 1| ≤ 5 / 2 ^ 53 := by
    have g2 : |(1 + d1) * (1 + d2) * (1 + d4) - 1| ≤ 7 / 2 / 2 ^ 53 := by
      have g1 : |(1 + d1) * (1 + d2) - 1| ≤ 9 / 4 / 2 ^ 53 := near_mul (x := 1 / 2 ^ 53) (y := 1 / 2 ^ 53) (by simpa using b1) (by simpa using b2) (by norm_num)
      exact near_mul g1 (y := 1 / 2 ^ 53) (by simpa using b4) (by norm_num)
    have g3 : (1 + d1) * (1 + d2) * (1 + d4) / (1 + d3) - 1 = (((1 + d1) * (1 + d2) * (1 + d4) - 1) - d3) / (1 + d3) := by
      field_simp; ring
    rw [g3, abs_div, abs_of_pos hd3, div_le_iff₀ hd3]
    refine (abs_sub _ _).trans ?_
    have := add_le_add g2 b3
    refine this.trans ?_
    have : (5 : Rat) / 2 ^ 53 * (1 - 1 / 10 ^ 15) ≤ 5 / 2 ^ 53 * (1 + d3) := mul_le_mul_of_nonneg_left (by linarith) (by norm_num)
    refine le_trans ?_ this
    norm_num
  have hwv : |v * ((1 + d1) * (1 + d2) * (1 + d4) / (1 + d3)) - v| ≤ (2 ^ 40 + 1) * (5 / 2 ^ 53) := by
    have : v * ((1 + d1) * (1 + d2) * (1 + d4) / (1 + d3)) - v = v * ((1 + d1) * (1 + d2) * (1 + d4) / (1 + d3) - 1) := by ring
    rw [this, abs_mul, abs_of_pos hvpos]
    exact mul_le_mul hvk hfac (abs_nonneg _) (by norm_num)
  have hb : ((2 : Rat) ^ 40 + 1) * (5 / 2 ^ 53) < 1 / 1000 := by norm_num
  obtain ⟨m1, m2⟩ := abs_le.1 hwv
  exact abs_lt.2 ⟨by linarith, by linarith⟩

/-- **C157.** Let `t` be the chunk length in seconds that was asked for (a decimal number, say, of which `chunk_seconds` is the nearest float), and let the asked number of frames, at the rate that
the file has after the transform, be within 0.499 of the integer `k`. Then the file is cut into chunks of `k` frames, as in exact arithmetic: the rounding errors of the three float operations
have no effect. -/
theorem C157_chunk_size {α : Type} (disk : Disk α) (d : Dataset α) (file : String) (t : Rat) (ht : 0 < t) (hrate : 0 < (disk file).2) (k : Int) (hk : k ≤ 2 ^ 40)
    (hasked : |t * ((disk file).2 : Rat) * ((d.transform.getD id (disk file).1).length : Rat) / ((disk file).1.length : Rat) - k| ≤ 499 / 1000)
    (h0 : (disk file).1 ≠ []) (h1 : d.transform.getD id (disk file).1 ≠ []) :
    processData64 disk { d with chunkSeconds := f64 t } file = chunkSamples k file (d.transform.getD id (disk file).1) ∧
    processData disk { d with chunkSeconds := t } file = chunkSamples k file (d.transform.getD id (disk file).1) := by
  have hf : 0 < (disk file).1.length := List.length_pos_iff.2 h0
  have ha : 0 < (d.transform.getD id (disk file).1).length := List.length_pos_iff.2 h1
  have hf' : (0 : Rat) < (disk file).1.length := by exact_mod_cast hf
  have ha' : (0 : Rat) < (d.transform.getD id (disk file).1).length := by exact_mod_cast ha
  have hv : t * ((disk file).2 : Rat) / (((disk file).1.length : Rat) / ((d.transform.getD id (disk file).1).length : Rat)) =
      t * ((disk file).2 : Rat) * ((d.transform.getD id (disk file).1).length : Rat) / ((disk file).1.length : Rat) := by field_simp
  rw [← hv] at hasked
  constructor
  · unfold processData64
    dsimp only
    rw [if_neg (by omega), if_neg (by omega), chunkSize64_near ht hrate hf ha k hk hasked]
  · unfold processData
    dsimp only
    rw [if_neg (by omega), if_neg (div_pos hf' ha').ne', pyRound_of_near (lt_of_le_of_lt hasked (by norm_num))]

/-- A tenth of a second of a file with 16000 frames per second: 1600 frames, although no float is a tenth. -/
example (audio : List Int) (h : audio ≠ []) (d : Dataset Int) (hd : d.transform = some fun x => x.map (· * 2)) :
    processData64 (fun _ => (audio, 16000)) { d with chunkSeconds := f64 (1 / 10) } "a" = chunkSamples 1600 "a" (audio.map (· * 2)) := by
  have h2 : audio.map (· * 2) ≠ [] := by simpa using h
  have hp : (0 : Rat) < audio.length := by exact_mod_cast List.length_pos_iff.2 h
  have := (C157_chunk_size (fun _ => (audio, 16000)) d "a" (1 / 10) (by norm_num) (by norm_num) 1600 (by norm_num) (by
    rw [hd]
    simp only [Option.getD_some, List.length_map]
    rw [mul_div_assoc, div_self hp.ne']
    norm_num) h (by rw [hd]; exact h2)).1
  rw [hd] at this ⊢
  exact this

end DS.Mach
