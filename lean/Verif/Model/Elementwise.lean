import Verif.Model.Overrides
/-!
# Elementwise functions on StreamTensors

How `StreamTensor.__torch_function__` treats elementwise torch functions of two tensors: out of place (default-valid or recoupled) and in
place (valid, in-place recoupled, or unlisted operators). The torch function itself is an arbitrary function `f` on entries; broadcasting and
name unification are trusted descriptions of torch.
-/

namespace DS.Tn

section
variable {α : Type}

/-- torch broadcasting of two shapes, both read from the last axis (trusted description of torch). -/
def bshapeR : List Nat → List Nat → Option (List Nat)
  | [], ys => some ys
  | xs, [] => some xs
  | x :: xs, y :: ys =>
    match bsize x y, bshapeR xs ys with
    | some s, some r => some (s :: r)
    | _, _ => none

/-- torch name unification from the right, both read from the last axis (trusted description of torch). -/
def unifyR : List (Option String) → List (Option String) → Py (List (Option String))
  | [], ys => .ok ys
  | xs, [] => .ok xs
  | x :: xs, y :: ys => do
    let c ← unifyName x y
    let cs ← unifyR xs ys
    .ok (c :: cs)

/-- The multi-index at which an operand of the given shape is read for the entry `ix` of a broadcast result. -/
def operandIx (shape ix : List Nat) : List Nat := bix shape (ix.drop (ix.length - shape.length))

/-- An elementwise torch function of two tensors with broadcasting: RuntimeError if the shapes or the names do not go together (a name at two different axes included). Trusted
description of torch; dtypes are not modelled. -/
def ewise (f : α → α → α) (t u : Ten α) : Py (Ten α) :=
  match bshapeR t.shape.reverse u.shape.reverse with
  | none => .error .runtimeError
  | some r => do
    let n ← unifyR t.names.reverse u.names.reverse
    if namesOK n.reverse then
      .ok { shape := r.reverse, names := n.reverse, val := fun ix => f (t.val (operandIx t.shape ix)) (u.val (operandIx u.shape ix)) }
    else .error .runtimeError

/-- `torch.add(p, q)` and the other functions of two tensors in `DEFAULT_VALID_FUNCTIONS` (func_coverage.py:60-77): `default_valid`, tensor.py:816-836,
which calls torch on the named data. -/
def ewiseValid (f : α → α → α) (p q : Opd α) : Py (STen α) := defaultValid (streams [p, q]) (ewise f p.ten q.ten)

/-- An argument of a recoupled function, tensor.py:1037: StreamTensors lose their names, plain tensors stay as they are. -/
def Opd.decoupled : Opd α → Ten α
  | .stream x => x.t.unnamed
  | .plain t => t

/-- `torch.remainder(p, q)` and the other functions of two tensors in `RECOUPLE_FUNCTIONS` (func_coverage.py:93-120), tensor.py:1042-1050. They do not support names in torch, so
that a plain tensor with names raises RuntimeError. -/
def ewiseRecouple (f : α → α → α) (p q : Opd α) : Py (STen α) :=
  recouple (streams [p, q])
    (if (p.decoupled.names ++ q.decoupled.names).any Option.isSome then .error .runtimeError else ewise f p.decoupled q.decoupled)

/-- An in-place elementwise torch function `t.add_(u)`: the broadcast shape must be that of `t` (RuntimeError otherwise); the names of the result are written
to `t`. Trusted description of torch. -/
def ewiseInto (f : α → α → α) (t u : Ten α) : Py (Ten α) := do
  let out ← ewise f t u
  if out.shape = t.shape then .ok out else .error .runtimeError

/-- `x.add_(q)` and the other in-place methods in `VALID_FUNCTIONS` (func_coverage.py:24-56), tensor.py:792-793: torch is called, `x` (with its metadata) is
returned. The result is `x` after the call. -/
def ewiseInplace (f : α → α → α) (x : STen α) (q : Opd α) : Py (STen α) := do
  let out ← ewiseInto f x.t q.ten
  .ok ⟨out, x.md⟩

/-- `x.remainder_(q)` and the other methods in `INPLACE_RECOUPLE_FUNCTIONS` (func_coverage.py:122-125), tensor.py:1053-1056: torch works in place on the unnamed view of the
data (1037; `torch.Tensor(self)` shares storage), `x` is returned with its names and metadata. -/
def ewiseInplaceRecouple (f : α → α → α) (x : STen α) (q : Opd α) : Py (STen α) :=
  if q.decoupled.names.any Option.isSome then .error .runtimeError
  else do
    let out ← ewiseInto f x.t.unnamed q.decoupled
    .ok ⟨{ out with names := x.t.names }, x.md⟩

/-- `x += q` (`Tensor.__iadd__`, in no list of func_coverage.py): `default_valid` after a warning, tensor.py:807-836. First component: the
result of the statement; second: the data of `x` afterwards (torch has worked in place before the metadata are compared, 818-829). -/
def ewiseIadd (f : α → α → α) (x : STen α) (q : Opd α) : Py (STen α) × Ten α :=
  (defaultValid (streams [.stream x, q]) (ewiseInto f x.t q.ten),
   match ewiseInto f x.t q.ten with
   | .ok out => out
   | .error _ => x.t)

end
end DS.Tn
