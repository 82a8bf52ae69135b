import Verif.Model.Dataset
/-!
# Model of the demo loader (dreamstream/data/stream_dataset_demo.py)

A data item is the list of its chunks. Each chunk is delivered with the name of its dataset; the worker id and seed of `process_data` are left out.
`partition_by_sum` (19-41) is the function of `stream_dataset.py` (`partitionBySum`) apart from the exception for its two flags, which `split_datasets` does not
touch. The order of `np.argsort` and of `random.sample` are parameters. Generators are the lists of what they yield. Printing is left out.
-/

namespace DS.Demo

open DS.Data

/-- `MyIterableDataset`, stream_dataset_demo.py:47-55. -/
structure Dataset (γ : Type) where
  data : List (List γ)
  batchSize : Nat
  shuffle : Bool
  dropLast : Bool
  name : Char
  deriving DecidableEq, Repr

/-- `get_stream`, stream_dataset_demo.py:57-66: the chunks of the items, one item after the other, with the name. -/
def Dataset.stream {γ : Type} (d : Dataset γ) (items : List (List γ)) : List (γ × Char) := items.flatMap fun x => x.map fun c => (c, d.name)

/-- `get_streams` and `__iter__`, stream_dataset_demo.py:68-94; `order` is the list after 76-79. -/
def Dataset.iter {γ : Type} (d : Dataset γ) (order : List (List γ)) : List (List (γ × Char)) :=
  let streams := (List.range d.batchSize).map fun i => d.stream (everyFrom i d.batchSize order)
  if d.dropLast then zipShort streams else zipLongest streams

/-- `custom_collate`, stream_dataset_demo.py:96-101: IndexError on an empty batch (`batch[1]`). -/
def collate {γ : Type} (batch : List (γ × Char)) : Py (List γ × List Char) :=
  if batch = [] then .error .indexError else .ok (batch.map Prod.fst, batch.map Prod.snd)

/-- Lines 110-114: the first `n` counting down from `m` with `batch_size % n == 0`; `m` itself if there is none. -/
def pickWorkers (batchSize : Nat) (m : Nat) : Nat :=
  ((List.range m).reverse.map (· + 1)).find? (fun n => batchSize % n == 0) |>.getD m

/-- `ascii_letters.upper()`, line 123: the alphabet twice. -/
def names : List Char := "ABCDEFGHIJKLMNOPQRSTUVWXYZABCDEFGHIJKLMNOPQRSTUVWXYZ".toList

/-- `split_datasets`, stream_dataset_demo.py:103-130, for sizes that are not negative; `order` is the result of `np.argsort`. -/
def splitDatasets {γ : Type} (data : List (List γ)) (batchSize maxWorkers : Nat) (order : List Nat) : Py (List (Dataset γ)) := do
  let w := pickWorkers batchSize (if batchSize < maxWorkers then batchSize else maxWorkers)
  let parts ← partitionBySum (data.map fun x => (x.length : Rat)) w false true order
  let items ← mapPy (mapPy fun i : Nat => pyGet data i) parts.2
  if w = 0 then .error .zeroDivisionError                             -- 122
  else mapPy (fun i : Nat => do
    let d ← pyGet items i
    let n ← pyGet names i
    .ok ⟨d, batchSize / w, false, false, n⟩) (List.range w)

/-- `MultiStreamDataLoader.__iter__` without the collation, stream_dataset_demo.py:160-180. -/
def loader {γ : Type} (dropLast : Bool) (parts : List (List (List (γ × Char)))) : List (List (γ × Char)) :=
  (if dropLast then zipShort parts else zipLongest parts).map List.flatten

end DS.Demo
