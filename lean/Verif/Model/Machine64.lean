import Verif.Model.Dataset
import Mathlib.Data.Int.Log
/-!
# Model of Python floats in the chunk size of a dataset

`Model/Dataset` computes with exact rationals. Here `process_data` is modelled with Python's floats (IEEE 754 double precision). Overflow, underflow and special values are left out.
-/

namespace DS.Mach
open DS.Data

/-- The `float` nearest to `q`, ties to even: a multiple of the unit in the last place, which is `2 ^ (e - 52)` if `2 ^ e ≤ |q| < 2 ^ (e + 1)`. -/
def f64 (q : Rat) : Rat :=
  let u : Rat := 2 ^ (Int.log 2 |q| - 52)
  pyRound (q / u) * u

/-- Lines 205-206 of stream_dataset.py: `stride = num_frames / audio.shape[-1]; chunk_size = round(self.chunk_seconds * sample_rate / stride)`. `chunk_seconds` is a float; the three
numbers are ints (below 2^53, so that they are floats as well). -/
def chunkSize64 (chunkSeconds : Rat) (rate frames after : Nat) : Int :=
  let stride := f64 (frames / after)
  pyRound (f64 (f64 (chunkSeconds * rate) / stride))

variable {α : Type}

/-- `process_data`, stream_dataset.py:193-221, as `Data.processData` but with floats. -/
def processData64 (disk : Disk α) (d : Dataset α) (file : String) : Py (List (Sample α)) :=
  let numFrames := (disk file).1.length
  let audio := (d.transform.getD id) (disk file).1
  if audio.length = 0 then .error .zeroDivisionError
  else if numFrames = 0 then .error .zeroDivisionError
  else chunkSamples (chunkSize64 d.chunkSeconds (disk file).2 numFrames audio.length) file audio

end DS.Mach
