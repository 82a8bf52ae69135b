import Verif.Model.Gen
/-!
# Model of running iterators of a loader (dreamstream/data/stream_dataset.py:467-510)

A loader object and any number of its iterators are a state; a program assigns to attributes of the loader or of its dataset, makes iterators and calls `next` on them in any order. `__iter__` is a generator function (508-510):
`get_stream_loaders` runs at the first `next`, and there `split` makes datasets of its own (471-475), which no assignment reaches. The generator expression of 505 reads `self.collate_fn` for every batch.
Simplifications: one dataset, not a list of datasets; the files on disk do not change (for these see `Model/Live`); what the chain of generators 486-502 yields is that of `loaderG` (`Model/Gen`), computed at the first `next`.
-/

namespace DS.LLive

open DS.Data

variable {α γ : Type}

/-- The generators of the datasets, each with its own order of files, stream_dataset.py:480-483. -/
def gensOf (disk : Disk α) (ds : List (Dataset α)) (os : List (List String)) : List (Gen (List (Sample α))) :=
  List.zipWith (fun d o => streamsG (processData disk d) d.batchSize.toNat d.dropLast o) ds os

/-- The loader object, stream_dataset.py:419-426: options, dataset, collate function. -/
structure Obj (α γ : Type) where
  cfg : LoaderCfg
  ds : Dataset α
  collate : Option (List (Sample α) → Py γ)

/-- What cannot be predicted of an iteration: the `argsort` in `split` and the orders of the files in the datasets as functions of their file lists (`random.sample`, 238), which count for datasets that shuffle. -/
structure Choice where
  order : List Nat
  orders : List (List String) → List (List String)

/-- The order in which a dataset reads its files, stream_dataset.py:237-240: the list itself unless the dataset shuffles. -/
def ordersOf (ds : List (Dataset α)) (os : List (List String)) : List (List String) :=
  List.zipWith (fun d o => if d.shuffle then o else d.files) ds os

/-- `get_stream_loaders`, stream_dataset.py:467-502, before collation: the batches and how they end. -/
def batches (disk : Disk α) (fuel : Nat) (o : Obj α γ) (c : Choice) : Py (List (List (Sample α)) × Ended) := do
  let ds ← o.ds.split disk (max 1 o.cfg.numWorkers) o.cfg.batchSize o.cfg.shuffle o.cfg.dropLast c.order
  .ok (loaderG o.cfg.dropLast o.cfg.overlapping fuel (gensOf disk ds (ordersOf ds (c.orders (ds.map Dataset.files)))))

/-- An iterator: before the first `next`, with the batches left, or finished. -/
inductive Iter (α : Type) where
  | made
  | run (left : List (List (Sample α))) (fin : Ended)
  | done

/-- What `next` does: a collated batch, StopIteration, another exception, or it does not come back (within the `fuel` of `sync`). -/
inductive Res (γ : Type) where
  | batch (b : γ)
  | stop
  | raised (e : PyErr)
  | hangs
  deriving DecidableEq

/-- `next` on the generator expression, stream_dataset.py:505: `self.collate_fn` is read now. A generator that has raised is finished. -/
def emit (collate : Option (List (Sample α) → Py γ)) : List (List (Sample α)) → Ended → Res γ × Iter α
  | b :: bs, fin =>
    match collateOf collate none (fun _ => .error .typeError) b with
    | .ok x => (.batch x, .run bs fin)
    | .error e => (.raised e, .done)
  | [], .returned => (.stop, .done)
  | [], .raised e => (.raised e, .done)
  | [], .running => (.hangs, .run [] .running)

/-- `next` on an iterator of the loader, stream_dataset.py:508-510. -/
def Iter.next (disk : Disk α) (fuel : Nat) (o : Obj α γ) (c : Choice) : Iter α → Res γ × Iter α
  | .made =>
    match batches disk fuel o c with
    | .ok r => emit o.collate r.1 r.2
    | .error e => (.raised e, .done)
  | .run left fin => emit o.collate left fin
  | .done => (.stop, .done)

/-- What a program does: assigns to attributes of the loader or of its dataset (the object is then `o`); makes an iterator; calls `next` on the `k`-th (stream_dataset.py:419-434, 508-510). -/
inductive Act (α γ : Type) where
  | set (o : Obj α γ)
  | iter
  | next (k : Nat) (c : Choice)

/-- The loader and its iterators. -/
structure World (α γ : Type) where
  obj : Obj α γ
  its : List (Iter α)

/-- One step of the program, and what `next` gave (stream_dataset.py:467-510). -/
def World.act (disk : Disk α) (fuel : Nat) (w : World α γ) : Act α γ → World α γ × List (Nat × Res γ)
  | .set o => ({ w with obj := o }, [])
  | .iter => ({ w with its := w.its ++ [.made] }, [])
  | .next k c =>
    match w.its[k]? with
    | some it => ({ w with its := w.its.set k (it.next disk fuel w.obj c).2 }, [(k, (it.next disk fuel w.obj c).1)])
    | none => (w, [])

/-- A program: the state it leaves, and what its calls of `next` gave, in order, with the numbers of the iterators. -/
def World.run (disk : Disk α) (fuel : Nat) (w : World α γ) : List (Act α γ) → World α γ × List (Nat × Res γ)
  | [] => (w, [])
  | a :: as => (((w.act disk fuel a).1.run disk fuel as).1, (w.act disk fuel a).2 ++ ((w.act disk fuel a).1.run disk fuel as).2)

end DS.LLive
