import Verif.Model.Dataset
/-!
# When files are opened (dreamstream/data/stream_dataset.py)

`Model/Dataset` says which batches a dataset yields; here iterating is a sequence of observations: files being loaded, batches being yielded, an exception. `process_data` is a generator (193-221): it loads its file when its first sample
is asked for (199). `get_stream` chains them (225), so the next file is loaded when a sample is asked for and the one before is exhausted. Loading itself is not divided further; `torchaudio.info` and `torchaudio.load` are the only
functions that open files. DataLoaders only pass on what their dataset yields; a worker that reads ahead (`prefetch_factor`) makes the same sequence of steps, earlier.
-/

namespace DS.Data

section
variable {α : Type}

/-- What is left to happen in one stream of a dataset. -/
inductive Ev (α : Type) where
  | load (x : String)
  | item (s : Sample α)
  | fail (e : PyErr)

/-- One stream, `get_stream`, stream_dataset.py:223-225 with 193-221: a file is loaded, then its samples are yielded, or an exception is raised. -/
def laneEvents (f : String → Py (List (Sample α))) (files : List String) : List (Ev α) :=
  files.flatMap fun x => .load x :: match f x with
    | .ok ss => ss.map .item
    | .error e => [.fail e]

/-- What `next` on a stream gives. -/
inductive Pull (α : Type) where
  | item (s : Sample α)
  | done
  | fail (e : PyErr)

/-- `next` on a stream: the files loaded, what it gives, and what is left. A generator that has raised is finished. -/
def pull : List (Ev α) → List String × Pull α × List (Ev α)
  | [] => ([], .done, [])
  | .load x :: r => (x :: (pull r).1, (pull r).2)
  | .item s :: r => ([], .item s, r)
  | .fail e :: _ => ([], .fail e, [])

/-- What `next` on a zip of streams gives. -/
inductive Zipped (α : Type) where
  | batch (ss : List (Sample α))
  | stop
  | fail (e : PyErr)

/-- The loop in `next` of `zip_longest(*data_streams)` without the `None`s, stream_dataset.py:248-249: every stream is asked, exhausted ones give nothing. -/
def roundLong : List (List (Ev α)) → List String × Zipped α × List (List (Ev α))
  | [] => ([], .batch [], [])
  | l :: ls =>
    match pull l with
    | (rs, .fail e, l') => (rs, .fail e, l' :: ls)
    | (rs, .done, l') => (rs ++ (roundLong ls).1, (roundLong ls).2.1, l' :: (roundLong ls).2.2)
    | (rs, .item s, l') =>
      (rs ++ (roundLong ls).1, (match (roundLong ls).2.1 with | .batch ss => .batch (s :: ss) | z => z), l' :: (roundLong ls).2.2)

/-- `next` of `zip(*data_streams)`, stream_dataset.py:245: the first stream that is exhausted ends it, later ones are not asked. -/
def roundShort : List (List (Ev α)) → List String × Zipped α × List (List (Ev α))
  | [] => ([], .batch [], [])
  | l :: ls =>
    match pull l with
    | (rs, .fail e, l') => (rs, .fail e, l' :: ls)
    | (rs, .done, l') => (rs, .stop, l' :: ls)
    | (rs, .item s, l') =>
      (rs ++ (roundShort ls).1, (match (roundShort ls).2.1 with | .batch ss => .batch (s :: ss) | z => z), l' :: (roundShort ls).2.2)

/-- What can be seen while a dataset is iterated. -/
inductive Obs (α : Type) where
  | loads (x : String)
  | yields (b : List (Sample α))
  | raises (e : PyErr)

/-- Iterating the zip with `step` for `next`; an empty batch is what `zip_longest` stops at. (`zip` of at least one stream gives no empty batch.) At most `fuel` times. -/
def traceZip (step : List (List (Ev α)) → List String × Zipped α × List (List (Ev α))) : Nat → List (List (Ev α)) → List (Obs α)
  | 0, _ => []
  | n + 1, ls =>
    (step ls).1.map .loads ++
      match (step ls).2.1 with
      | .batch [] => []
      | .batch (s :: ss) => .yields (s :: ss) :: traceZip step n (step ls).2.2
      | .stop => []
      | .fail e => [.raises e]

/-- `force_is_last_on_last_batch`, stream_dataset.py:177-191: one batch is held back, the last is marked. Without any batch the `next` of 182 raises StopIteration inside a generator, a RuntimeError. -/
def held : Option (List (Sample α)) → List (Obs α) → List (Obs α)
  | none, [] => [.raises .runtimeError]
  | some b, [] => [.yields (b.map Sample.end)]
  | h, .loads x :: r => .loads x :: held h r
  | none, .yields b :: r => held (some b) r
  | some b, .yields b' :: r => .yields b :: held (some b') r
  | _, .raises e :: _ => [.raises e]

/-- Iterating a dataset, stream_dataset.py:227-254; `order` is `file_list` after 237-240. A stream gives at most as many samples as it has events, so the fuel suffices. -/
def iterTrace (f : String → Py (List (Sample α))) (batchSize : Nat) (dropLast : Bool) (order : List String) : List (Obs α) :=
  let lanes := (List.range batchSize).map fun i => laneEvents f (everyFrom i batchSize order)
  let fuel := lanes.flatten.length + 1
  if dropLast then held none (traceZip roundShort fuel lanes) else traceZip roundLong fuel lanes

/-- The files of which the constructor reads the header, stream_dataset.py:155-160, 173-175: all of them if neither lengths nor metadata are given. -/
def infoReads (files : List String) (lengths : Option (List Rat)) (metadata : List (String × Nat × Nat)) : List String :=
  match lengths with
  | none => if metadata = [] then files else []
  | some _ => []

/-- The headers that `split` reads through the constructors it calls, stream_dataset.py:276-310; `MultiStreamDataLoader` splits its dataset each time it is iterated (471-475). -/
def splitReads (d : Dataset α) (numWorkers batchSize : Int) (order : List Nat) : Py (List String) :=
  if numWorkers ≤ 0 then .error .valueError
  else if batchSize % numWorkers ≠ 0 then .error .valueError
  else do
    let lens ← mapPy (lookupKey d.lengths) d.files
    let chunks ← mapPy (numChunksOf d.chunkSeconds) lens
    let parts ← partitionBySum chunks numWorkers.toNat false true order
    let fileLists ← mapPy (mapPy fun i : Nat => pyGet d.files i) parts.2
    let metas ← mapPy (metaFor d.metadata) fileLists
    .ok ((fileLists.zip metas).flatMap fun p => infoReads p.1 none p.2)

end
end DS.Data
