import Verif.Model.LoaderOpts
/-!
# tests/data/test_stream_dataset.py, evaluated in the model

Tests, not proofs. Six short files instead of 200 (test_stream_dataset.py:15-18), with the sample rate 40 of the tests; worker counts and batch sizes are smaller in proportion.
-/

namespace DS.Data
open Meta

def testLengths : List (String × Nat) := [("0", 20), ("1", 95), ("2", 41), ("3", 120), ("4", 33), ("5", 80)]
def testFiles : List String := testLengths.map Prod.fst
/-- tests/data/test_stream_dataset.py:47-54: a file holds `torch.arange(length)`. -/
def testDisk : Disk Nat := fun f => (List.range ((testLengths.lookup f).getD 0), 40)
/-- `compute_num_samples`, tests/data/test_stream_dataset.py:67-69. -/
def numSamples (cs : Rat) : Int := (testLengths.map fun e => ((e.2 : Rat) / 40 / cs).ceil).sum
/-- The dataset of the tests. -/
def testSet (cs : Rat) : Py (Dataset Nat) := Dataset.new testDisk testFiles cs (some (testLengths.map fun e => (e.2 : Rat))) none none [] 1 false false

/-- `test_iterate`, 82-91: as many examples as there are chunks, for the chunk lengths of the test. -/
example : ∀ cs ∈ [(1 / 10 : Rat), 1 / 2, 1, 2], ((testSet cs).bind fun d => d.iter testDisk testFiles).map (fun bs => (bs.length : Int)) = .ok (numSamples cs) := by decide +kernel

/-- `test_automatic_get_metadata`, 93-101. -/
example : ((Dataset.new testDisk testFiles 1 none none none [] 1 false false).map fun d => (d.metadata.length, d.lengths.length)) = .ok (6, 6) := by decide +kernel

/-- The outcome of `split`: the exception, or the number of datasets. -/
def splitOutcome (numWorkers batchSize : Int) (shuffle dropLast useLengths : Bool) : Py Nat :=
  ((if useLengths then testSet 1 else Dataset.new testDisk testFiles 1 none none none [] 1 false false).bind fun d =>
    d.split testDisk numWorkers batchSize shuffle dropLast [0, 2, 4, 1, 5, 3]).map List.length

/-- `test_split`, 103-132. -/
example : ∀ u ∈ [true, false], ∀ n ∈ [(-1 : Int), 0, 1, 2, 3], ∀ b ∈ [(1 : Int), 6, 12], ∀ s ∈ [true, false], ∀ d ∈ [true, false],
    splitOutcome n b s d u = if n ≤ 0 ∨ b % n ≠ 0 then .error .valueError else .ok n.toNat := by decide +kernel

/-- `test_instantiate`, 136-171. -/
example : ∀ s ∈ [true, false], ∀ d ∈ [true, false], ∀ o ∈ [true, false],
    ((Multi.new ⟨10, s, 5, o, d, 0, none, false, false⟩ none).map fun _ => ()) = if d = true ∧ o = false then .error .valueError else .ok () := by decide +kernel

/-- The batches of a loader over the dataset. -/
def loadedFrames (numWorkers batchSize : Int) (overlapping dropLast : Bool) : Py (List (List (Sample Nat)) × Ended) := do
  let d ← testSet 1
  let m ← Multi.new ⟨batchSize, false, numWorkers, overlapping, dropLast, 0, none, false, false⟩ none
  m.iter testDisk false (.single d) [0, 2, 4, 1, 5, 3] id 100

/-- What the tests assert of the batches: files that start, end and occur, the number of samples, and whether the samples of every batch start together. -/
def ids (p : Sample Nat → Bool) (bs : List (List (Sample Nat))) : List String := (testFiles.filter fun f => bs.flatten.any fun s => s.id == f && p s)
def together (bs : List (List (Sample Nat))) : Bool := bs.all fun b => b.all fun s => s.sos == (b.head?.map (·.sos)).getD true

/-- `test_iterate_drop_last0`, 173-222. -/
example : ∀ n ∈ [(0 : Int), 1, 2], ∀ o ∈ [true, false], ((loadedFrames n 4 o false).map fun r =>
    (ids (·.sos) r.1, ids (·.eos) r.1, ids (fun _ => true) r.1, (r.1.flatten.length : Int), o || together r.1, r.2)) =
      .ok (testFiles, testFiles, testFiles, numSamples 1, true, .returned) := by decide +kernel

/-- `test_iterate_drop_last1`, 224-259: what is seen starts and ends. -/
example : (loadedFrames 0 4 true true).map (fun r => decide (ids (·.sos) r.1 = ids (fun _ => true) r.1 ∧ ids (·.eos) r.1 = ids (fun _ => true) r.1 ∧ ids (fun _ => true) r.1 ≠ [])) = .ok true := by decide +kernel

end DS.Data
