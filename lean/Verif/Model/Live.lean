import Verif.Model.Reads
import Verif.Model.Gen
/-!
# Model of running iterators of a dataset (dreamstream/data/stream_dataset.py:177-254)

`Model/Gen` says what an iterator yields if nothing happens meanwhile. Here a dataset object, the files on disk and any number of iterators are a state, and a program assigns to attributes, changes files, makes iterators and calls
`next` on them in any order. `get_streams` is not a generator function: `file_list`, `shuffle`, `batch_size` and `drop_last` are read when the iterator is made (237-245), and `file_list[i :: batch_size]` is a copy. `process_data` is a generator
function: `transform` and `chunk_seconds` are read when the first sample of a file is asked for (199-208). Simplifications: samples have no `file_metadata` (which 218 reads for every sample); exceptions raised by `iter` itself
(`batch_size` of `None`) are in `Model/DatasetAttr`.
-/

namespace DS.Live

open DS.Data

variable {α : Type}

/-- One stream, stream_dataset.py:223-225: the samples left of the file that is open, and the files that have not been opened. -/
structure Lane (α : Type) where
  cur : List (Sample α)
  rest : List String

/-- `next` on the chain of 225 when the open file is exhausted: files are opened until one gives a sample. The generator of a file that raises is finished, the chain goes on behind it. -/
def openNext (f : String → Py (List (Sample α))) : List String → Pull α × Lane α
  | [] => (.done, ⟨[], []⟩)
  | x :: r =>
    match f x with
    | .error e => (.fail e, ⟨[], r⟩)
    | .ok [] => openNext f r
    | .ok (s :: ss) => (.item s, ⟨ss, r⟩)

/-- `next` on a stream; `f` is `process_data` with the attributes and files of this moment. -/
def Lane.next (f : String → Py (List (Sample α))) (l : Lane α) : Pull α × Lane α :=
  match l.cur with
  | s :: ss => (.item s, ⟨ss, l.rest⟩)
  | [] => openNext f l.rest

/-- `next` on `zip_longest(*data_streams)` without the `None`s, stream_dataset.py:248-249 (a batch without samples: all are exhausted). -/
def nextLong (f : String → Py (List (Sample α))) : List (Lane α) → Zipped α × List (Lane α)
  | [] => (.batch [], [])
  | l :: ls =>
    match l.next f with
    | (.fail e, l') => (.fail e, l' :: ls)
    | (.done, l') => ((nextLong f ls).1, l' :: (nextLong f ls).2)
    | (.item s, l') => ((match (nextLong f ls).1 with | .batch ss => .batch (s :: ss) | z => z), l' :: (nextLong f ls).2)

/-- `next` on `zip(*data_streams)`, stream_dataset.py:245: later streams are not asked once one is exhausted. -/
def nextShort (f : String → Py (List (Sample α))) : List (Lane α) → Zipped α × List (Lane α)
  | [] => (.batch [], [])
  | l :: ls =>
    match l.next f with
    | (.fail e, l') => (.fail e, l' :: ls)
    | (.done, l') => (.stop, l' :: ls)
    | (.item s, l') => ((match (nextShort f ls).1 with | .batch ss => .batch (s :: ss) | z => z), l' :: (nextShort f ls).2)

/-- An iterator: the generator expression of 249; `force_is_last_on_last_batch` before its first `next` or with the batch it holds back (182-185); or a generator that has returned or raised. -/
inductive Iter (α : Type) where
  | long (ls : List (Lane α))
  | fresh (ls : List (Lane α))
  | holds (b : List (Sample α)) (ls : List (Lane α))
  | done

/-- What `next` on an iterator does: a batch, StopIteration, or another exception. -/
inductive Res (α : Type) where
  | batch (b : List (Sample α))
  | stop
  | raised (e : PyErr)

/-- `force_is_last_on_last_batch` while it holds back `b`, stream_dataset.py:183-191. -/
def stepHeld (f : String → Py (List (Sample α))) (b : List (Sample α)) (ls : List (Lane α)) : Res α × Iter α :=
  match nextShort f ls with
  | (.batch (s :: ss), ls') => (.batch b, .holds (s :: ss) ls')
  | (.fail e, _) => (.raised e, .done)
  | (_, _) => (.batch (b.map Sample.end), .done)

/-- `next` on an iterator, stream_dataset.py:177-191, 244-251. A generator that has raised is finished. -/
def Iter.next (f : String → Py (List (Sample α))) : Iter α → Res α × Iter α
  | .long ls =>
    match nextLong f ls with
    | (.batch (s :: ss), ls') => (.batch (s :: ss), .long ls')
    | (.fail e, _) => (.raised e, .done)
    | (_, _) => (.stop, .done)
  | .fresh ls =>
    match nextShort f ls with
    | (.batch (s :: ss), ls') => stepHeld f (s :: ss) ls'
    | (.fail e, _) => (.raised e, .done)
    | (_, _) => (.raised .runtimeError, .done)                         -- 182, PEP 479
  | .holds b ls => stepHeld f b ls
  | .done => (.stop, .done)

/-- The files on disk, the dataset object and the iterators made of it so far. -/
structure World (α : Type) where
  disk : Disk α
  ds : Dataset α
  its : List (Iter α)

/-- `iter(dataset)`, stream_dataset.py:237-254; `shuffled` is what `random.sample` gives (238). -/
def newIter (d : Dataset α) (shuffled : List String) : Iter α :=
  let order := if d.shuffle then shuffled else d.files
  let lanes := (List.range d.batchSize.toNat).map fun i => ⟨[], everyFrom i d.batchSize.toNat order⟩
  if d.dropLast then .fresh lanes else .long lanes

/-- What a program does: assigns to attributes of the dataset or changes its file list in place (it is then `d`); changes files on disk; makes an iterator; calls `next` on the `k`-th iterator (stream_dataset.py:147-171, 227-254). -/
inductive Act (α : Type) where
  | set (d : Dataset α)
  | write (disk : Disk α)
  | iter (shuffled : List String)
  | next (k : Nat)

/-- One step of the program, and what `next` gave (stream_dataset.py:193-254). -/
def World.act (w : World α) : Act α → World α × List (Nat × Res α)
  | .set d => ({ w with ds := d }, [])
  | .write disk => ({ w with disk := disk }, [])
  | .iter shuffled => ({ w with its := w.its ++ [newIter w.ds shuffled] }, [])
  | .next k =>
    match w.its[k]? with
    | some it => ({ w with its := w.its.set k (it.next (processData w.disk w.ds)).2 }, [(k, (it.next (processData w.disk w.ds)).1)])
    | none => (w, [])

/-- A program: what its calls of `next` gave, in order, with the numbers of the iterators. -/
def World.run (w : World α) : List (Act α) → List (Nat × Res α)
  | [] => []
  | a :: as => (w.act a).2 ++ (w.act a).1.run as

end DS.Live
