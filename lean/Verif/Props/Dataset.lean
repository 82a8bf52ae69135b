import Verif.Spec.Data
import Verif.Lemmas.Zip
import Verif.Props.Partition
import Mathlib.Tactic.Linarith
/-!
# C73-C76: chunking files and batching streams in one dataset
-/

namespace DS.Data

section
variable {α : Type}

/-! ## C73, C74: chunks of a file -/

theorem lt_ceil {L c k : Nat} (hc : 0 < c) : k < (L + c - 1) / c ↔ k * c < L := by
  rw [Nat.lt_div_iff_mul_lt hc]
  omega

theorem chunksOf_length (c : Nat) (audio : List α) : (chunksOf c audio).length = (audio.length + c - 1) / c := by simp [chunksOf]

theorem chunksOf_get {c k : Nat} (hc : 0 < c) (audio : List α) (ch : List α) (h : (chunksOf c audio)[k]? = some ch) :
    ch = (audio.drop (k * c)).take c ∧ k * c < audio.length := by
  obtain ⟨hk, hg⟩ := List.getElem?_eq_some_iff.1 h
  rw [chunksOf_length] at hk
  refine ⟨?_, (lt_ceil hc).1 hk⟩
  rw [← hg]
  simp [chunksOf]

theorem flatMap_take (c : Nat) (a : List α) (n : Nat) : ((List.range n).map fun k => (a.drop (k * c)).take c).flatten = a.take (n * c) := by
  induction n with
  | zero => simp
  | succ n ih =>
    rw [List.range_succ, List.map_append, List.flatten_append, ih, Nat.succ_mul, List.take_add]
    simp

theorem chunksOf_flatten {c : Nat} (hc : 0 < c) (audio : List α) : (chunksOf c audio).flatten = audio := by
  unfold chunksOf
  rw [flatMap_take, List.take_of_length_le]
  have h : ¬ (audio.length + c - 1) / c < (audio.length + c - 1) / c := by omega
  rw [lt_ceil hc] at h
  omega

theorem chunkSamples_ok (c : Nat) (hc : 0 < c) (file : String) (audio : List α) :
    chunkSamples (c : Int) file audio = .ok ((chunksOf c audio).mapIdx fun i ch =>
      { data := audio, sos := decide (i = 0), eos := decide (i + 1 = (chunksOf c audio).length), length := ch.length,
        chunkIndex := i, numChunks := (chunksOf c audio).length, id := file }) := by
  unfold chunkSamples
  rw [if_neg (by omega), if_neg (by omega)]
  rfl

/-- C73: a file of `L ≥ 1` frames cut into chunks of `c ≥ 1` frames gives ⌈L/c⌉ samples; the `k`-th has chunk index `k` and covers the frames
`k*c .. min((k+1)*c, L)`, which are at least one; only the first starts, only the last ends; the lengths add up to `L`. -/
theorem C73_tiles (c : Nat) (hc : 0 < c) (file : String) (audio : List α) (hL : audio ≠ []) :
    ∃ ss, chunkSamples (c : Int) file audio = .ok ss ∧ ss.length = (audio.length + c - 1) / c ∧ WholeFile file ss ∧
      (ss.map Sample.length).sum = audio.length ∧
      ∀ k s, ss[k]? = some s → s.chunkIndex = k ∧ s.numChunks = ss.length ∧ s.length = min c (audio.length - k * c) ∧ 0 < s.length ∧
        (k + 1 < ss.length → s.length = c) := by
  have hpos : 0 < audio.length := List.length_pos_iff.2 hL
  refine ⟨_, chunkSamples_ok c hc file audio, by simp [chunksOf_length], ⟨?_, ?_⟩, ?_, ?_⟩
  · intro h
    have := congrArg List.length h
    rw [List.length_mapIdx, chunksOf_length] at this
    have h0 : 0 < (audio.length + c - 1) / c := (lt_ceil hc).2 (by omega)
    simp only [List.length_nil] at this
    omega
  · intro k s h
    rw [List.getElem?_mapIdx] at h
    obtain ⟨ch, _, rfl⟩ := Option.map_eq_some_iff.1 h
    simp
  · have : ∀ l : List (List α), (l.mapIdx fun i ch => ({ data := audio, sos := decide (i = 0), eos := decide (i + 1 = (chunksOf c audio).length), length := ch.length, chunkIndex := i, numChunks := (chunksOf c audio).length, id := file } : Sample α)).map Sample.length = l.map List.length := by
      intro l
      apply List.ext_getElem <;> simp
    rw [this, ← List.length_flatten, chunksOf_flatten hc]
  · intro k s h
    rw [List.getElem?_mapIdx] at h
    obtain ⟨ch, hch, rfl⟩ := Option.map_eq_some_iff.1 h
    obtain ⟨rfl, hk⟩ := chunksOf_get hc audio ch hch
    simp only [List.length_mapIdx, List.length_take, List.length_drop, true_and]
    refine ⟨by omega, ?_⟩
    intro hk'
    rw [chunksOf_length, lt_ceil hc, Nat.succ_mul] at hk'
    omega

/-- C73, rounding: the chunk size is the nearest integer, the even one if there are two. -/
theorem C73_round (q : Rat) (z : Int) : pyRound q = z ↔ HalfEven q z := by
  have h1 : (q.floor : Rat) ≤ q := Rat.floor_le q
  have h2 : q < (q.floor : Rat) + 1 := by
    have := Rat.lt_floor_add_one q
    push_cast at this
    exact this
  have key : HalfEven q (pyRound q) := by
    unfold pyRound HalfEven
    simp only
    split
    · refine ⟨by linarith, by linarith, ?_⟩
      rintro (h | h) <;> exfalso <;> linarith
    · split
      · refine ⟨by push_cast; linarith, by push_cast; linarith, ?_⟩
        push_cast
        rintro (h | h) <;> exfalso <;> linarith
      · split
        · rename_i h
          exact ⟨by linarith, by linarith, fun _ => h⟩
        · refine ⟨by push_cast; linarith, by push_cast; linarith, fun _ => by omega⟩
  constructor
  · rintro rfl; exact key
  · intro h
    generalize pyRound q = w at key
    obtain ⟨a1, a2, a3⟩ := key
    obtain ⟨b1, b2, b3⟩ := h
    have c1 : ((w - z : Int) : Rat) ≤ ((1 : Int) : Rat) := by push_cast; linarith
    have c2 : ((z - w : Int) : Rat) ≤ ((1 : Int) : Rat) := by push_cast; linarith
    rw [Int.cast_le] at c1 c2
    rcases (show w = z ∨ w = z + 1 ∨ z = w + 1 by omega) with h | h | h
    · exact h
    · subst h
      push_cast at a1 a2 a3
      have e1 := a3 (Or.inr (by linarith))
      have e2 := b3 (Or.inl (by linarith))
      omega
    · subst h
      push_cast at b1 b2 b3
      have e1 := a3 (Or.inl (by linarith))
      have e2 := b3 (Or.inr (by linarith))
      omega

example : HalfEven (5 / 2) 2 ∧ HalfEven (7 / 2) 4 ∧ HalfEven (-3 / 4) (-1) := by unfold HalfEven; decide +kernel

/-- C73 for `process_data`: whenever the frames after the transform exist and the rounded chunk size is positive. -/
theorem C73_process (disk : Disk α) (d : Dataset α) (file : String) (audio : List α) (c : Nat) (hc : 0 < c)
    (ha : audio = (d.transform.getD id) (disk file).1) (hL : audio ≠ []) (h0 : (disk file).1 ≠ [])
    (hsize : HalfEven (d.chunkSeconds * ((disk file).2 : Rat) / (((disk file).1.length : Rat) / (audio.length : Rat))) c) :
    processData disk d file = chunkSamples (c : Int) file audio := by
  have hpos : 0 < audio.length := List.length_pos_iff.2 hL
  have hpos0 : 0 < (disk file).1.length := List.length_pos_iff.2 h0
  subst ha
  have h1 : ((((d.transform.getD id) (disk file).1).length : Nat) : Rat) ≠ 0 := Nat.cast_ne_zero.2 (by omega)
  have h2 : (((disk file).1.length : Nat) : Rat) ≠ 0 := Nat.cast_ne_zero.2 (by omega)
  unfold processData
  simp only
  rw [if_neg (by omega), if_neg (div_ne_zero h2 h1), (C73_round _ _).2 hsize]

/-- C73 without a transform: the chunk size is `round(chunk_seconds * sample_rate)`. -/
theorem C73_process_plain (disk : Disk α) (d : Dataset α) (file : String) (c : Nat) (hc : 0 < c) (ht : d.transform = none) (h0 : (disk file).1 ≠ [])
    (hsize : HalfEven (d.chunkSeconds * ((disk file).2 : Rat)) c) :
    processData disk d file = chunkSamples (c : Int) file (disk file).1 := by
  refine C73_process disk d file _ c hc (by simp [ht]) h0 h0 ?_
  have h2 : (((disk file).1.length : Nat) : Rat) ≠ 0 := Nat.cast_ne_zero.2 (by have := List.length_pos_iff.2 h0; omega)
  rw [div_self h2, div_one]; exact hsize

/-- An empty file raises ZeroDivisionError (C73 needs a positive file length). -/
theorem C73_empty_file (disk : Disk α) (d : Dataset α) (file : String) (ht : d.transform = none) (h0 : (disk file).1 = []) :
    processData disk d file = .error .zeroDivisionError := by
  unfold processData
  simp [ht, h0]

-- Non-trivial case: 7 frames in chunks of 3.
example : (0 < 3) ∧ ([10, 11, 12, 13, 14, 15, 16] : List Nat) ≠ [] := by decide
example : (chunkSamples 3 "f" [10, 11, 12, 13, 14, 15, 16]).map (fun ss => ss.map fun s => (s.sos, s.eos, s.length, s.chunkIndex)) =
    .ok [(true, false, 3, 0), (false, false, 3, 1), (false, true, 1, 2)] := by decide
/-- A disk with two files, at sample rate 2. -/
def exDisk : Disk Nat := fun f => if f = "a" then ([1, 2, 3, 4, 5], 2) else if f = "b" then ([6, 7], 2) else ([], 2)
example : HalfEven ((3 / 2 : Rat) * ((exDisk "a").2 : Rat)) (3 : Nat) := by unfold HalfEven; decide +kernel

/-- C74 is false: every sample carries the whole file (`data=audio`), so a file of two chunks is delivered twice. -/
theorem C74_false : ∃ (ss : List (Sample Nat)), chunkSamples 2 "f" [1, 2, 3] = .ok ss ∧ ss.flatMap Sample.data = [1, 2, 3, 1, 2, 3] ∧
    ss.flatMap Sample.data ≠ [1, 2, 3] := by
  refine ⟨_, rfl, ?_⟩
  decide

/-- C74, what holds: every sample's data is the whole audio (so the concatenation is right exactly for files of one chunk); the recorded lengths
do delimit the chunks (C73). Missing: the samples do not carry their own chunk. -/
theorem C74_partial (c : Nat) (hc : 0 < c) (file : String) (audio : List α) (ss : List (Sample α)) (h : chunkSamples (c : Int) file audio = .ok ss) :
    (∀ s ∈ ss, s.data = audio) ∧ (audio.length ≤ c → audio ≠ [] → ss.flatMap Sample.data = audio) ∧
      (c < audio.length → ss.flatMap Sample.data ≠ audio) := by
  rw [chunkSamples_ok c hc] at h
  cases h
  have hd : ∀ s ∈ (chunksOf c audio).mapIdx (fun i ch => ({ data := audio, sos := decide (i = 0), eos := decide (i + 1 = (chunksOf c audio).length), length := ch.length, chunkIndex := i, numChunks := (chunksOf c audio).length, id := file } : Sample α)), s.data = audio := by
    intro s hs
    obtain ⟨k, hk, rfl⟩ := List.getElem_of_mem hs
    simp
  have hl : ∀ (ss : List (Sample α)), (∀ s ∈ ss, s.data = audio) → (ss.flatMap Sample.data).length = ss.length * audio.length := by
    intro ss
    induction ss with
    | nil => simp
    | cons s ss ih =>
      intro h
      rw [List.flatMap_cons, List.length_append, ih (fun t ht => h t (by simp [ht])), h s (by simp), List.length_cons, Nat.succ_mul, Nat.add_comm]
  refine ⟨hd, ?_, ?_⟩
  · intro hle hne
    have hpos : 0 < audio.length := List.length_pos_iff.2 hne
    have h1 : (chunksOf c audio).length = 1 := by
      rw [chunksOf_length]
      apply Nat.le_antisymm
      · by_contra hcon
        have : 1 * c < audio.length := (lt_ceil hc).1 (by omega)
        omega
      · exact (lt_ceil hc).2 (by omega)
    obtain ⟨x, hx⟩ := List.length_eq_one_iff.1 h1
    rw [hx]
    simp
  · intro hlt heq
    have := congrArg List.length heq
    rw [hl _ hd, List.length_mapIdx, chunksOf_length] at this
    have h2 : 1 < (audio.length + c - 1) / c := (lt_ceil hc).2 (by omega)
    have h3 : 2 * audio.length ≤ (audio.length + c - 1) / c * audio.length := Nat.mul_le_mul_right _ h2
    omega

example : (0 < 3) ∧ chunkSamples (3 : Nat) "f" [1, 2] = .ok [⟨[1, 2], true, true, 2, 0, 1, "f"⟩] ∧ [1, 2].length ≤ 3 := by decide

end
end DS.Data
