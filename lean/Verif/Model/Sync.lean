import Verif.Model.Dataset
/-!
# Model of `make_streams_synchronous` and `MultiStreamDataLoader` (dreamstream/data/stream_dataset.py:313-510)

The generator is run with fuel: it gives what was yielded and whether it returned, raised, or is still running. The dictionary of buffers
keeps its insertion order.
-/

namespace DS.Data

section
variable {α : Type}

/-- An insertion-ordered dictionary of deques. -/
abbrev Bufs (α : Type) := List (String × List (Sample α))

/-- The deque of an id (empty if there is none, as for a `defaultdict`). -/
def Bufs.get (d : Bufs α) (k : String) : List (Sample α) := (d.lookup k).getD []

/-- `d[k] = v`: an existing key keeps its place, a new one goes last. -/
def Bufs.set (d : Bufs α) (k : String) (v : List (Sample α)) : Bufs α :=
  match d with
  | [] => [(k, v)]
  | e :: es => if e.1 = k then (k, v) :: es else e :: Bufs.set es k v

/-- `for sample in batch: buffers[sample.id].append(sample)`, stream_dataset.py:351-352. -/
def Bufs.addAll (d : Bufs α) (b : List (Sample α)) : Bufs α := b.foldl (fun d s => d.set s.id (d.get s.id ++ [s])) d

/-- `{sample.id: deque([sample]) for sample in batch}`, stream_dataset.py:343. -/
def Bufs.first (b : List (Sample α)) : Bufs α := b.foldl (fun d s => d.set s.id [s]) []

/-- `buffers[id] and buffers[id][-1].eos`. -/
def endBuffered (q : List (Sample α)) : Bool :=
  match q.getLast? with
  | some s => s.eos
  | none => false

/-- `continue_buffering`, stream_dataset.py:313-326. -/
def continueBuffering (empty : Bool) (active : List String) (d : Bufs α) (batchSize : Nat) : Bool :=
  if empty then false
  else
    let cur := (active.filter fun i => endBuffered (d.get i)).length
    let nxt := (d.filter fun e => !active.contains e.1 && endBuffered e.2).length
    decide (cur < active.length) || decide ((nxt : Int) < (batchSize : Int) - active.length)

/-- The inner loop, stream_dataset.py:348-354: the stream that is left, whether it was found empty, and the buffers. -/
def fill (active : List String) (batchSize : Nat) (empty : Bool) (d : Bufs α) : List (List (Sample α)) → List (List (Sample α)) × Bool × Bufs α
  | [] => if continueBuffering empty active d batchSize then ([], true, d) else ([], empty, d)
  | b :: bs => if continueBuffering empty active d batchSize then fill active batchSize empty (d.addAll b) bs else (b :: bs, empty, d)

/-- `[buffers[id].popleft() for id in active_ids if buffers[id]]`, stream_dataset.py:357; reading a missing id inserts an empty deque. -/
def popAll (d : Bufs α) : List String → List (Sample α) × Bufs α
  | [] => ([], d)
  | i :: is =>
    match d.get i with
    | [] => popAll (if d.lookup i = none then d.set i [] else d) is
    | s :: q =>
      let r := popAll (d.set i q) is
      (s :: r.1, r.2)

/-- `buffers[k] and buffers[k][0].sos`. -/
def headSos (q : List (Sample α)) : Bool :=
  match q with
  | [] => false
  | s :: _ => s.sos

/-- The generator between two iterations of `while True`. -/
structure SyncSt (α : Type) where
  stream : List (List (Sample α))
  empty : Bool
  active : List String
  bufs : Bufs α

/-- What an iteration does. -/
inductive SyncStep (α : Type) where
  | yield (batch : List (Sample α)) (st : SyncSt α)
  | next (st : SyncSt α)
  | stop
  | raise (e : PyErr)

/-- One iteration of `while True`, stream_dataset.py:346-375. -/
def syncStep (batchSize : Nat) (st : SyncSt α) : SyncStep α :=
  let f := fill st.active batchSize st.empty st.bufs st.stream
  let p := popAll f.2.2 st.active
  if p.1.isEmpty then
    if st.active.isEmpty then
      let act := ((p.2.filter fun e => headSos e.2).map Prod.fst).take batchSize       -- 367
      let bufs := p.2.filter fun e => !e.2.isEmpty                                     -- 370-372
      if f.2.1 && act.isEmpty then .stop else .next ⟨f.1, f.2.1, act, bufs⟩
    else .raise .runtimeError                                                          -- 364-365
  else .yield p.1 ⟨f.1, f.2.1, (p.1.filter fun s => !s.eos).map Sample.id, p.2⟩

/-- How a run of the generator ended. -/
inductive Ended where
  | returned
  | raised (e : PyErr)
  | running
  deriving DecidableEq, Repr

/-- At most `fuel` iterations. -/
def syncRun (batchSize : Nat) : Nat → SyncSt α → List (List (Sample α)) × Ended
  | 0, _ => ([], .running)
  | n + 1, st =>
    match syncStep batchSize st with
    | .yield b st' => let r := syncRun batchSize n st'; (b :: r.1, r.2)
    | .next st' => syncRun batchSize n st'
    | .stop => ([], .returned)
    | .raise e => ([], .raised e)

/-- `make_streams_synchronous`, stream_dataset.py:329-375: `next` on an empty stream is a RuntimeError (PEP 479). -/
def sync (fuel : Nat) : List (List (Sample α)) → List (List (Sample α)) × Ended
  | [] => ([], .raised .runtimeError)
  | b :: bs => syncRun b.length fuel ⟨bs, false, b.map Sample.id, Bufs.first b⟩

/-! ## MultiStreamDataLoader -/

/-- Arguments of the loader that matter here; `numWorkers` is `self.num_workers` after line 434. -/
structure LoaderCfg where
  batchSize : Int
  numWorkers : Int
  shuffle : Bool
  overlapping : Bool
  dropLast : Bool
  deriving DecidableEq, Repr

/-- `__init__`, stream_dataset.py:428-434: with a single dataset (`listLen = none`) or a list of datasets. -/
def LoaderCfg.new (batchSize numWorkers : Int) (shuffle overlapping dropLast : Bool) (listLen : Option Nat) : Py LoaderCfg :=
  if dropLast && !overlapping then .error .valueError
  else
    match listLen with
    | none => .ok ⟨batchSize, numWorkers, shuffle, overlapping, dropLast⟩
    | some n => if 0 < numWorkers then .error .valueError else .ok ⟨batchSize, n, shuffle, overlapping, dropLast⟩

/-- Lines 486-498: the batch parts of all workers put together. -/
def mergeWorkers (dropLast : Bool) (parts : List (List (List (Sample α)))) : List (List (Sample α)) :=
  (if dropLast then zipShort parts else zipLongest parts).map List.flatten

/-- Lines 486-502 (before collation): what the loader yields, with fuel for the synchronisation. -/
def loaderBatches (cfg : LoaderCfg) (fuel : Nat) (parts : List (List (List (Sample α)))) : List (List (Sample α)) × Ended :=
  let merged := mergeWorkers cfg.dropLast parts
  if cfg.overlapping then (merged, .returned) else sync fuel merged

/-- Iterate every dataset in its own order. -/
def iterAll (disk : Disk α) : List (Dataset α) → List (List String) → Py (List (List (List (Sample α))))
  | d :: ds, o :: os => do
    let a ← d.iter disk o
    let b ← iterAll disk ds os
    .ok (a :: b)
  | _, _ => .ok []

/-- `get_stream_loaders` without the collation, stream_dataset.py:467-502, for a single dataset. `order` is the argsort in `split` and
`orders` the (shuffled) file orders of the workers' datasets as functions of their file lists. -/
def loader (disk : Disk α) (cfg : LoaderCfg) (d : Dataset α) (order : List Nat) (orders : List (List String) → List (List String)) (fuel : Nat) :
    Py (List (List (Sample α)) × Ended) := do
  let ds ← d.split disk (max 1 cfg.numWorkers) cfg.batchSize cfg.shuffle cfg.dropLast order
  let parts ← iterAll disk ds (orders (ds.map Dataset.files))
  .ok (loaderBatches cfg fuel parts)

/-- The collate function that is called at line 505: `self.collate_fn` (426), not the local default of 436-440. -/
def collateOf {β : Type} (given : Option (List (Sample α) → Py β)) (_datasetHas : Option (List (Sample α) → Py β)) (_default : List (Sample α) → Py β)
    (batch : List (Sample α)) : Py β :=
  match given with
  | some f => f batch
  | none => .error .typeError                                         -- 'NoneType' object is not callable

/-- The worker ids passed to `worker_init_fn` during one iteration with `n` datasets, stream_dataset.py:445, 454-465, 481-484: every DataLoader has one worker,
numbered 0 (none, hence no call, if `num_workers` is 0). -/
def workerIds (numWorkers : Int) (n : Nat) : List Nat :=
  if numWorkers = 0 then [] else (List.range n).map fun i => 0 + i

end
end DS.Data
