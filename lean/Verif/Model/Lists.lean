import Verif.Model.Overrides
import Verif.Model.Reduce
/-!
# Model of arguments that are tuples or lists: `split` with a tuple of sections, functions of lists of StreamTensors

Simplification: lists of tensors are not nested.
-/

namespace DS.Tn
open Meta

section
variable {α : Type}

/-- `split_batch` with a tuple of sections, tensor.py:647-676: a tuple is neither a list (656, no check of the sum) nor an int (659); `[0] + split_size_or_sections` (663) is a TypeError. -/
def splitBatchTuple (_ : Meta) (_ : List Int) : Py (List Meta) := .error .typeError

/-- `split_length` with a tuple of sections, tensor.py:678-698: no check of the sum (688), `np.cumsum` takes a tuple (695). -/
def splitLengthTuple (m : Meta) (ss : List Int) : Py (List Meta) := do
  let _ ← m.maxLength
  lengthPieces m (sectionBounds 0 ss)

/-- `split`, overrides.py:124-139, with a tuple of sections (torch takes lists and tuples alike). -/
def splitTuple (x : STen α) (ss : List Int) (dim : Int) : Py (List (STen α)) := do
  let n ← pyGet x.t.names dim
  let a ← normDim x.t.ndim dim
  let ts ← x.t.split a (.sections ss)
  if n = LENGTH then do
    let ms ← splitLengthTuple x.md ss
    .ok (zipStream ts ms)
  else if n = BATCH then do
    let ms ← splitBatchTuple x.md ss
    .ok (zipStream ts ms)
  else .ok (ts.map fun t => ⟨t, x.md⟩)

/-- A positional or keyword argument of a torch function. -/
inductive FArg (α : Type) where
  | tensor (o : Opd α)
  | list (os : List (Opd α))
  | other

/-- `[x.meta for x in [*args, *kwargs.values()] if isinstance(x, StreamTensor)]`, tensor.py:820: lists are not searched. -/
def topMetas : List (FArg α) → List Meta
  | .tensor (.stream x) :: as => x.md :: topMetas as
  | _ :: as => topMetas as
  | [] => []

/-- What a torch function returns. -/
inductive FRes (α : Type) where
  | tensor (t : Ten α)
  | tensors (ts : List (Ten α))
  | other

/-- What the caller gets: a StreamTensor, StreamTensors without metadata (torch converts the members of a tuple or list, tensor.py:818), or something else. -/
inductive FOut (α : Type) where
  | stream (x : STen α)
  | bare (ts : List (RawTen α))
  | other

/-- `default_valid`, tensor.py:816-836, for any arguments; `res` is what the torch function returns. `metas[0]` is evaluated only if there is something to compare (821) or the result is a tensor (830-834). -/
def defaultValidArgs (args : List (FArg α)) (res : Py (FRes α)) : Py (FOut α) := do
  let out ← res
  match topMetas args with
  | [] =>
    match out with
    | .tensor _ => .error .indexError
    | .tensors ts => .ok (.bare (ts.map fun t => ⟨t, none⟩))
    | .other => .ok .other
  | m :: ms => do
    let same ← allEq m ms
    if same then
      match out with
      | .tensor t => .ok (.stream ⟨t, m⟩)
      | .tensors ts => .ok (.bare (ts.map fun t => ⟨t, none⟩))
      | .other => .ok .other
    else .error .runtimeError

/-- `torch.stack(tensors, dim=0)` on unnamed tensors (torch): equal shapes, a new first axis; RuntimeError otherwise and for an empty list. -/
def stackTen (ts : List (Ten α)) : Py (Ten α) :=
  match ts with
  | [] => .error .runtimeError
  | t :: us =>
    if us.all fun u => decide (u.shape = t.shape) then
      .ok { shape := ts.length :: t.shape, names := none :: t.shape.map fun _ => none, val := fun ix => (ts.getD (ix.headD 0) t).val ix.tail }
    else .error .runtimeError

/-- `torch.stack(tensors)` with StreamTensors in the list: in no table of func_coverage.py, so `default_valid` (tensor.py:807-814). torch has no named version of it: RuntimeError if one of the tensors has a name. -/
def stackStream (os : List (Opd α)) : Py (FOut α) :=
  defaultValidArgs [.list os]
    (if os.all fun o => o.ten.names.all (· == none) then (stackTen (os.map Opd.ten)).map .tensor else .error .runtimeError)

end
end DS.Tn
