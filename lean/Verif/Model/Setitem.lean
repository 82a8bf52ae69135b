import Verif.Model.Index
/-!
# Model of `x[...] = value` on a StreamTensor

`torch.Tensor.__setitem__` is in no table of func_coverage.py, so it is handled by `default_valid` after a warning (dreamstream/tensor.py:807-836): torch writes into the named
data, then the metadata of the StreamTensors among the arguments are compared. Simplifications: `x` has at least one named axis; indices are those of `Model/Index`; the value is a number, a
tensor or a StreamTensor on the same device that does not share memory with `x`; the index itself is not a StreamTensor.
-/

namespace DS.Tn
open Meta

/-- What is assigned. -/
inductive Val (α : Type) where
  | num (a : α)
  | ten (o : Opd α)

section
variable {α : Type}

/-! ## torch's own assignment (trusted description) -/

/-- The index tuple against the remaining axes, for an assignment to a named tensor; an Ellipsis stands for `k` axes. A `None` would insert an axis, which torch does not do on named tensors: RuntimeError.
Index lists and tensors are recorded only (`assignTen`). -/
def setSels (k : Nat) : List Nat → List Ix → Py (List Sel)
  | dims, [] => .ok (dims.map fullSel)
  | _, .none :: _ => .error .runtimeError
  | dims, .ellipsis :: r => do
    let rest ← setSels k (dims.drop k) r
    .ok ((dims.take k).map fullSel ++ rest)
  | [], _ :: _ => .error .indexError
  | n :: dims, e :: r => do
    let s ← if e.adv then .ok (fullSel n) else torchSel n e
    let rest ← setSels k dims r
    .ok (s :: rest)

/-- The names of the part that is assigned to: an int removes the axis with its name. -/
def selNames : List Sel → List (Option String) → List (Option String)
  | .pick _ :: r, _ :: ns => selNames r ns
  | .keep _ :: r, n :: ns => n :: selNames r ns
  | .new :: r, ns => none :: selNames r ns
  | _, _ => []

/-- Where the entry `ix` of the tensor is in the part that is assigned to, if it is there. -/
def selDst : List Sel → List Nat → Option (List Nat)
  | [], _ => some []
  | .new :: r, ix => (selDst r ix).map (0 :: ·)
  | .pick p :: r, i :: ix => if i = p then selDst r ix else none
  | .keep ps :: r, i :: ix => if i ∈ ps then (selDst r ix).map (ps.idxOf i :: ·) else none
  | _ :: _, [] => none

/-- The shape of a value without its leading axes of size 1. -/
def stripOnes : List Nat → List Nat
  | 1 :: r => stripOnes r
  | s => s

/-- A shape, read from the last axis, can be expanded to another one. -/
def expandsR : List Nat → List Nat → Bool
  | [], _ => true
  | _ :: _, [] => false
  | a :: as, b :: bs => (decide (a = b) || decide (a = 1)) && expandsR as bs

/-- The entry of a value of the given shape that is written to the entry `ix` of the part. -/
def valueIx (shape ix : List Nat) : List Nat :=
  List.replicate (shape.length - (stripOnes shape).length) 0 ++ operandIx' (stripOnes shape) ix
where
  /-- As in broadcasting from the last axis. -/
  operandIx' (s ix : List Nat) : List Nat := bix s (ix.drop (ix.length - s.length))

/-- What is written to a part with the given shape and names. A tensor of the same shape is copied, with its names unified into those of the part (they must stay the same unless the part has none); a tensor without axes is written
to all entries; any other tensor is first viewed without its leading axes of size 1, which torch refuses for named tensors, and then expanded. -/
def written (shape : List Nat) (names : List (Option String)) : Val α → Py (List Nat → α)
  | .num a => .ok fun _ => a
  | .ten o =>
    let u := o.ten
    if u.shape = shape then do
      let n ← unifyNames names u.names
      if n = names ∨ names.all Option.isNone then .ok u.val else .error .runtimeError
    else if u.shape = [] then .ok fun _ => u.val []
    else if u.names.any Option.isSome then .error .runtimeError
    else if expandsR (stripOnes u.shape).reverse shape.reverse then .ok fun ix => u.val (valueIx u.shape ix)
    else .error .runtimeError

/-- The entries after the assignment: those of the part are new. -/
def overwrite (sels : List Sel) (w val : List Nat → α) (ix : List Nat) : α :=
  match selDst sels ix with
  | some ox => w ox
  | none => val ix

/-- `t[indices] = value` of a named tensor: the tensor afterwards. IndexError for too many indices; RuntimeError for index lists and tensors (`index_put_` does not support names). -/
def assignTen (t : Ten α) (top : Top) (v : Val α) : Py (Ten α) :=
  if t.shape.length < specified top.entries then .error .indexError
  else do
    let sels ← setSels (t.shape.length - specified top.entries) t.shape top.entries
    if top.entries.any Ix.adv then .error .runtimeError
    else do
      let w ← written (selShape sels) (selNames sels t.names) v
      .ok { t with val := overwrite sels w t.val }

/-! ## `default_valid` -/

/-- The StreamTensors among the arguments besides `x`. -/
def Val.streams : Val α → List (STen α)
  | .num _ => []
  | .ten (.stream y) => [y]
  | .ten (.plain _) => []

/-- `x[indices] = value`: the data of `x` afterwards and the outcome. torch works first (tensor.py:818), then the metadata are compared (820-829); the assignment itself returns `None`, which is returned
(836). -/
def setitem (x : STen α) (top : Top) (v : Val α) : Ten α × Py Unit :=
  match assignTen x.t top v with
  | .error e => (x.t, .error e)
  | .ok t => (t, do
      let same ← allEq x.md (v.streams.map (·.md))
      if same then .ok () else .error .runtimeError)

end
end DS.Tn
