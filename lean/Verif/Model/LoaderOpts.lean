import Verif.Model.Sync
/-!
# Model of the options of the loaders (dreamstream/data/stream_dataset.py:376-452, 513-589)

`torch.utils.data.DataLoader` is described only as far as its argument checks go (trusted description of torch 2): everything it is given comes
out in order. Pinning, the transport of batches between processes (see `Model/Pickle.lean`) and `worker_init_fn` are not modelled here.
-/

namespace DS.Data

/-- The arguments of a torch `DataLoader` with `batch_size=None` whose values are checked. `context` says whether a `multiprocessing_context` is given;
timeouts are whole seconds. -/
structure DLArgs where
  numWorkers : Int
  timeout : Int
  prefetch : Option Int
  persistent : Bool
  context : Bool
  dropLast : Bool
  deriving DecidableEq, Repr

/-- The checks of `DataLoader.__init__` (torch). -/
def DLArgs.new (a : DLArgs) : Py Unit :=
  if a.numWorkers < 0 then .error .valueError
  else if a.timeout < 0 then .error .valueError
  else if a.numWorkers = 0 ∧ a.prefetch.isSome then .error .valueError
  else if a.prefetch.any (· < 0) then .error .valueError
  else if a.persistent ∧ a.numWorkers = 0 then .error .valueError
  else if a.dropLast then .error .valueError                          -- `batch_size=None` is mutually exclusive with `drop_last`
  else if a.context ∧ a.numWorkers = 0 then .error .valueError
  else .ok ()

/-- `iter(dataloader)` (torch): without workers a timeout is refused by an assertion; with workers the prefetch factor must not be 0, and a process that
is itself a worker cannot start any (workers are daemons). -/
def DLArgs.iter (inWorker : Bool) (a : DLArgs) : Py Unit :=
  if a.numWorkers = 0 then (if a.timeout = 0 then .ok () else .error .assertionError)
  else if a.prefetch = some 0 then .error .assertionError
  else if inWorker then .error .assertionError
  else .ok ()

/-- The arguments of both loader classes (stream_dataset.py:377-392, 514-529). `context` is `multiprocessing_context is not None`. -/
structure LoaderArgs where
  batchSize : Int
  shuffle : Bool
  numWorkers : Int
  overlapping : Bool
  dropLast : Bool
  timeout : Int
  prefetch : Option Int
  persistent : Bool
  context : Bool
  deriving DecidableEq, Repr

/-- A `MultiStreamDataLoader`: its configuration and `dataloader_kwargs`. -/
structure Multi where
  cfg : LoaderCfg
  kwargs : DLArgs
  deriving DecidableEq, Repr

/-- `MultiStreamDataLoader.__init__`, stream_dataset.py:419-452; `listLen` is the length of the list of datasets, if it is a list. Line 449 looks at the
argument `num_workers`, line 445 at `self.num_workers`. -/
def Multi.new (a : LoaderArgs) (listLen : Option Nat) : Py Multi := do
  let cfg ← LoaderCfg.new a.batchSize a.numWorkers a.shuffle a.overlapping a.dropLast listLen
  .ok ⟨cfg, { numWorkers := if cfg.numWorkers = 0 then 0 else 1, timeout := a.timeout, prefetch := if 0 < a.numWorkers then a.prefetch else none,
              persistent := a.persistent, context := a.context, dropLast := false }⟩

/-- What the loader iterates over. -/
inductive Source (α : Type) where
  | single (d : Dataset α)
  | list (ds : List (Dataset α))

/-- The length of a list of datasets. -/
def Source.listLen {α : Type} : Source α → Option Nat
  | .single _ => none
  | .list ds => some ds.length

/-- Lines 481-494: one DataLoader per dataset is constructed, then all are started by the zip. -/
def startAll (inWorker : Bool) (kw : DLArgs) (n : Nat) : Py Unit :=
  if n = 0 then .ok () else do
    kw.new
    kw.iter inWorker

/-- `__iter__`, stream_dataset.py:467-510, without the collation. `inWorker` tells whether it runs in a worker of another DataLoader. -/
def Multi.iter {α : Type} (disk : Disk α) (m : Multi) (inWorker : Bool) (src : Source α) (order : List Nat) (orders : List (List String) → List (List String))
    (fuel : Nat) : Py (List (List (Sample α)) × Ended) := do
  let ds ← match src with
    | .single d => d.split disk (max 1 m.cfg.numWorkers) m.cfg.batchSize m.cfg.shuffle m.cfg.dropLast order
    | .list ds => .ok ds
  startAll inWorker m.kwargs ds.length
  let parts ← iterAll disk ds (orders (ds.map Dataset.files))
  .ok (loaderBatches m.cfg fuel parts)

/-- A `MultiStreamOneProcessDataLoader`: the inner loader and the arguments of the DataLoader around it. -/
structure OneProcess where
  inner : Multi
  outer : DLArgs
  deriving DecidableEq, Repr

/-- `MultiStreamOneProcessDataLoader.__init__`, stream_dataset.py:554-585. -/
def OneProcess.new (a : LoaderArgs) (listLen : Option Nat) : Py OneProcess :=
  if 1 < a.numWorkers then .error .valueError                        -- 554-555
  else do
    let inner ← Multi.new { a with numWorkers := 0, prefetch := none, context := false } listLen
    let outer : DLArgs := { numWorkers := a.numWorkers, timeout := a.timeout, prefetch := a.prefetch, persistent := a.persistent, context := false,
                            dropLast := a.dropLast }
    outer.new
    .ok ⟨inner, outer⟩

/-- `__iter__`, stream_dataset.py:587-589: the inner loader is iterated here or, with one worker, in that worker. -/
def OneProcess.iter {α : Type} (disk : Disk α) (l : OneProcess) (src : Source α) (order : List Nat) (orders : List (List String) → List (List String))
    (fuel : Nat) : Py (List (List (Sample α)) × Ended) := do
  l.outer.iter false
  l.inner.iter disk (decide (0 < l.outer.numWorkers)) src order orders fuel

end DS.Data
