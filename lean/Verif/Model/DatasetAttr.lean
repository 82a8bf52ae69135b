import Verif.Model.Dataset
/-!
# Model of the attribute `batch_size` of `AudioStreamDataset` (dreamstream/data/stream_dataset.py:151, 162-171)

An object is a `Dataset` together with its attribute `_batch_size`; the field `batchSize` of the `Dataset` is not looked at. Sizes are ints (a float passes the assertion
and fails in `range`; not modelled).
-/

namespace DS.Data

section
variable {α : Type}

/-- An `AudioStreamDataset` with the attribute `_batch_size`, stream_dataset.py:171. -/
structure Obj (α : Type) where
  size : Option Int
  base : Dataset α

/-- The setter, stream_dataset.py:168-171. A failed assertion leaves the object as it is. -/
def Obj.set (o : Obj α) (b : Option Int) : Py (Obj α) :=
  match b with
  | none => .ok { o with size := none }
  | some n => if 0 < n then .ok { o with size := some n } else .error .assertionError

/-- The getter, stream_dataset.py:162-166. -/
def Obj.get (o : Obj α) : Py Int :=
  match o.size with
  | none => .error .attributeError
  | some n => .ok n

/-- `AudioStreamDataset.__init__` with an optional batch size, stream_dataset.py:147-160 (the setter runs at 151, before the metadata is read). -/
def Obj.new (disk : Disk α) (files : List String) (chunkSeconds : Rat) (lengths : Option (List Rat)) (transform : Option (List α → List α))
    (names : Option (List String)) (metadata : List (String × Nat × Nat)) (batchSize : Option Int) (shuffle dropLast : Bool) : Py (Obj α) :=
  match batchSize with
  | some n => do
    let d ← Dataset.new disk files chunkSeconds lengths transform names metadata n shuffle dropLast
    .ok ⟨some n, d⟩
  | none => do
    let d ← Dataset.new disk files chunkSeconds lengths transform names metadata 1 shuffle dropLast
    .ok ⟨none, d⟩

/-- `iter(dataset)`, stream_dataset.py:227-254: line 243 reads the attribute when the streams are made, not when the first batch is asked for. -/
def Obj.iter (disk : Disk α) (o : Obj α) (order : List String) : Py (List (List (Sample α))) := do
  let n ← o.get
  Dataset.iter disk { o.base with batchSize := n } order

/-- `dataset.split(…)`, stream_dataset.py:276-310: the attribute is not read. -/
def Obj.split (disk : Disk α) (o : Obj α) (numWorkers batchSize : Int) (shuffle dropLast : Bool) (order : List Nat) : Py (List (Obj α)) := do
  let ds ← o.base.split disk numWorkers batchSize shuffle dropLast order
  .ok (ds.map fun d => ⟨some d.batchSize, d⟩)

/-- Several assignments to the attribute, one after the other; refused ones (with the AssertionError caught) have no effect. -/
def Obj.sets (o : Obj α) (bs : List (Option Int)) : Obj α :=
  bs.foldl (fun o b => match o.set b with | .ok o' => o' | .error _ => o) o

end

end DS.Data
