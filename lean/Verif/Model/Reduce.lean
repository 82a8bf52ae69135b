import Verif.Model.Overrides
/-!
# Model of functions without an override: reductions and functions that return several tensors (dreamstream/tensor.py:807-836)

`torch.sum`, `mean`, `max`, `sort`, `topk`, `chunk`, … are in none of the tables of func_coverage.py; they are called with a warning (tensor.py:807-814, warnings are not modelled) and go through `default_valid`.
-/

namespace DS.Tn

section
variable {α : Type}

/-- The entries on the line through `ix` along axis `a` of size `n`. -/
def lineOf (t : Ten α) (a : Nat) (ix : List Nat) : List α := (List.range (t.shape.getD a 0)).map fun j => t.val (ix.set a j)

/-- A torch reduction along one axis (trusted description): `keepdim` leaves an axis of size 1 with its name, otherwise the axis disappears with its name. IndexError for an axis that does not exist. `f` computes the result from the entries on a line. -/
def reduceTen (f : List α → α) (t : Ten α) (dim : Int) (keepdim : Bool) : Py (Ten α) := do
  let a ← normDim t.ndim dim
  if keepdim then .ok { t with shape := t.shape.set a 1, val := fun ix => f (lineOf t a ix) }
  else .ok { shape := t.shape.eraseIdx a, names := t.names.eraseIdx a, val := fun ix => f (lineOf t a (ix.insertIdx a 0)) }

/-- `torch.sum(x, dim, keepdim)` and the other reductions that return one tensor: `default_valid`, tensor.py:816-836. -/
def reduceStream (f : List α → α) (x : STen α) (dim : Int) (keepdim : Bool) : Py (STen α) := defaultValid [x] (reduceTen f x.t dim keepdim)

/-- A function along one axis that keeps the shape, such as `softmax` or `cumsum` (trusted description): `f` maps the entries on a line to the new entries. -/
def alongTen (f : List α → Nat → α) (t : Ten α) (dim : Int) : Py (Ten α) := do
  let a ← normDim t.ndim dim
  .ok { t with val := fun ix => f (lineOf t a ix) (ix.getD a 0) }

/-- `torch.softmax(x, dim)` (in `DEFAULT_VALID_FUNCTIONS`, default-valid-pointwise-ops:softmax) and `torch.cumsum` etc. (in no table): `default_valid`, tensor.py:816-836. -/
def alongStream (f : List α → Nat → α) (x : STen α) (dim : Int) : Py (STen α) := defaultValid [x] (alongTen f x.t dim)

/-- An object of class `StreamTensor`, whose attribute `meta` need not exist (`none`). -/
structure RawTen (α : Type) where
  t : Ten α
  md : Option Meta

/-- `x.meta`. -/
def RawTen.meta (x : RawTen α) : Py Meta :=
  match x.md with
  | some m => .ok m
  | none => .error .attributeError

/-- A function in `VALID_FUNCTIONS` that returns a new tensor, such as reading `x.data` or `x.mT` (`GET_METHODS`, func_coverage.py:16, 56): tensor.py:792-793 returns what
`super().__torch_function__` made a StreamTensor (`as_subclass`, the constructor is not run). -/
def validNew (res : Py (Ten α)) : Py (RawTen α) := res.map fun t => ⟨t, none⟩

/-- `default_valid`, tensor.py:816-836, for a torch function that returns a tuple of tensors: `super().__torch_function__` makes each of them a StreamTensor (`as_subclass`, the constructor is not run), the tuple itself is no tensor and is returned as it is (836).
The metadata of the arguments are compared before that (819-828). -/
def defaultValidMany (args : List (STen α)) (res : Py (List (Ten α))) : Py (List (RawTen α)) := do
  let outs ← res
  match args with
  | [] => .ok (outs.map fun t => ⟨t, none⟩)
  | x :: xs => do
    let same ← allEq x.md (xs.map (·.md))
    if same then .ok (outs.map fun t => ⟨t, none⟩) else .error .runtimeError

/-- `t.chunk(n, dim)` for an axis of size `s > 0` and `n > 0` (trusted description): pieces of `⌈s/n⌉` positions, the last may be smaller. -/
def chunkTen (t : Ten α) (n : Nat) (dim : Int) : Py (List (Ten α)) := do
  let a ← normDim t.ndim dim
  let s := t.shape.getD a 0
  let c := (s + n - 1) / n
  .ok ((List.range ((s + c - 1) / c)).map fun k => { t with shape := t.shape.set a (min c (s - k * c)), val := fun ix => t.val (ix.modify a (· + k * c)) })

/-- `x.chunk(n, dim)`: in no table, so `default_valid`. -/
def chunkStream (x : STen α) (n : Nat) (dim : Int) : Py (List (RawTen α)) := defaultValidMany [x] (chunkTen x.t n dim)

end
end DS.Tn
