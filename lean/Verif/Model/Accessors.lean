import Verif.Model.Construct
/-!
# Model of the axis accessors of a StreamTensor (dreamstream/tensor.py:838-852, 866-871); `batch_size()` and `max_length()` are in `Model/Construct.lean`
-/

namespace DS.Tn

section
variable {α : Type}

/-- `x.has_batch_dim`, tensor.py:838-840. -/
def STen.hasBatchDim (x : STen α) : Bool := decide (BATCH ∈ x.t.names)

/-- `x.has_length_dim`, tensor.py:842-844. -/
def STen.hasLengthDim (x : STen α) : Bool := decide (LENGTH ∈ x.t.names)

/-- `x.batch_dim`, tensor.py:846-848. -/
def STen.batchDim (x : STen α) : Py Nat := nameIndex x.t.names BATCH

/-- `x.length_dim`, tensor.py:850-852. -/
def STen.lengthDim (x : STen α) : Py Nat := nameIndex x.t.names LENGTH

/-- `x.is_batch_dim(dim)`, tensor.py:866-867. -/
def STen.isBatchDim (x : STen α) (dim : Int) : Py Bool := do
  let n ← pyGet x.t.names dim
  .ok (decide (n = BATCH))

/-- `x.is_length_dim(dim)`, tensor.py:869-871. -/
def STen.isLengthDim (x : STen α) (dim : Int) : Py Bool := do
  let n ← pyGet x.t.names dim
  .ok (decide (n = LENGTH))

end
end DS.Tn
