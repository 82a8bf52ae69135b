import Verif.Model.Sync
/-!
# The buffers of `make_streams_synchronous` while it runs (dreamstream/data/stream_dataset.py:343-372)

The same loops as in `Model/Sync`, giving the dictionaries that the generator holds instead of what it yields.
-/

namespace DS.Data

section
variable {α : Type}

/-- The number of samples in a dictionary of deques, stream_dataset.py:343. -/
def Bufs.held (d : Bufs α) : Nat := (d.map fun e => e.2.length).sum

/-- The dictionaries at the checks of the condition of the inner loop, stream_dataset.py:348-354 (the same recursion as `fill`). -/
def fillTrace (active : List String) (batchSize : Nat) (empty : Bool) (d : Bufs α) : List (List (Sample α)) → List (Bufs α)
  | [] => [d]
  | b :: bs => if continueBuffering empty active d batchSize then d :: fillTrace active batchSize empty (d.addAll b) bs else [d]

/-- The dictionaries at all checks of that condition in at most `fuel` iterations of `while True`, stream_dataset.py:346-375 (the same recursion as
`syncRun`). Between two checks samples are added or removed, not both, so the dictionaries in between are no larger than those at the checks; within the
addition of a batch at 351-352 the intermediate states are not listed. -/
def syncTrace (batchSize : Nat) : Nat → SyncSt α → List (Bufs α)
  | 0, _ => []
  | n + 1, st =>
    fillTrace st.active batchSize st.empty st.bufs st.stream ++
      match syncStep batchSize st with
      | .yield _ st' => syncTrace batchSize n st'
      | .next st' => syncTrace batchSize n st'
      | .stop => []
      | .raise _ => []

/-- The dictionaries of a run of `make_streams_synchronous`, stream_dataset.py:329-375. -/
def heldDuring (fuel : Nat) : List (List (Sample α)) → List (Bufs α)
  | [] => []
  | b :: bs => syncTrace b.length fuel ⟨bs, false, b.map Sample.id, Bufs.first b⟩

/-- The dictionaries during an iteration of the loader without overlapping batches, stream_dataset.py:467-502. -/
def loaderHeld (disk : Disk α) (cfg : LoaderCfg) (d : Dataset α) (order : List Nat) (orders : List (List String) → List (List String)) (fuel : Nat) : Py (List (Bufs α)) := do
  let ds ← d.split disk (max 1 cfg.numWorkers) cfg.batchSize cfg.shuffle cfg.dropLast order
  let parts ← iterAll disk ds (orders (ds.map Dataset.files))
  .ok (heldDuring fuel (mergeWorkers cfg.dropLast parts))

end
end DS.Data
