/-!
# Python and torch primitives

Exceptions are values: `Py α` is either a result or the class of the raised exception.
The definitions below model CPython 3.10+ and torch 2.x built-ins that the code in `/repo` calls; they are
part of the trusted base (DESIGN.md section 2).
-/

namespace DS

/-- Exception classes that the modelled code can raise. Messages are not modelled. -/
inductive PyErr where
  | valueError
  | indexError
  | typeError
  | attributeError
  | runtimeError
  | notImplementedError
  | assertionError
  | zeroDivisionError
  | unboundLocalError
  | keyError
  deriving DecidableEq, Repr

/-- A Python computation: a value or a raised exception. -/
abbrev Py (α : Type) : Type := Except PyErr α

deriving instance DecidableEq for Except

/-- A Python `slice(start, stop, step)`; `none` is Python's `None`. -/
structure Slice where
  start : Option Int := none
  stop : Option Int := none
  step : Option Int := none
  deriving DecidableEq, Repr

/-- Adjust one explicit slice bound `x` for a sequence of length `n`
(CPython `PySlice_AdjustIndices`): negative bounds count from the end, then clamp to `[lo, hi]`. -/
def adjustBound (n lo hi x : Int) : Int :=
  let y := if x < 0 then x + n else x
  if y < lo then lo else if hi < y then hi else y

/-- `slice.indices(n)` of CPython. Raises `ValueError` for a zero step or a negative length. -/
def Slice.indices (s : Slice) (n : Int) : Py (Int × Int × Int) :=
  let step := s.step.getD 1
  if n < 0 then .error .valueError
  else if step = 0 then .error .valueError
  else
    let lo : Int := if step < 0 then -1 else 0
    let hi : Int := if step < 0 then n - 1 else n
    let start := match s.start with
      | none => if step < 0 then hi else lo
      | some x => adjustBound n lo hi x
    let stop := match s.stop with
      | none => if step < 0 then lo else hi
      | some x => adjustBound n lo hi x
    .ok (start, stop, step)

/-- The positions `start, start+step, ...` strictly before `stop` (strictly after it for a negative step), as
CPython's `range(start, stop, step)`. -/
def rangePositions (start stop step : Int) : List Int :=
  if 0 < step then
    (List.range ((stop - start + step - 1) / step).toNat).map fun (k : Nat) => start + step * (k : Int)
  else
    (List.range ((start - stop - step - 1) / (-step)).toNat).map fun (k : Nat) => start + step * (k : Int)

/-- Look up position `i` that is already known to be meant as non-negative (no wrap-around). -/
def getNonneg {α : Type} (xs : List α) (i : Int) : Option α :=
  if 0 ≤ i then xs[i.toNat]? else none

/-- `xs[i]` for a Python list or a 1-D tensor: negative indices count from the end, `IndexError` out of range. -/
def pyGet {α : Type} (xs : List α) (i : Int) : Py α :=
  let j := if i < 0 then i + xs.length else i
  match getNonneg xs j with
  | some x => .ok x
  | none => .error .indexError

/-- `[xs[i] for i in is]`, and also torch indexing of a 1-D tensor by a list / 1-D tensor of integers. -/
def pyGather {α : Type} (xs : List α) : List Int → Py (List α)
  | [] => .ok []
  | i :: is => do
    let x ← pyGet xs i
    let ys ← pyGather xs is
    .ok (x :: ys)

/-- `xs[a:b:c]` for a Python list. -/
def pySlice {α : Type} (xs : List α) (s : Slice) : Py (List α) := do
  let (start, stop, step) ← s.indices xs.length
  .ok ((rangePositions start stop step).filterMap (getNonneg xs))

/-- `t[a:b:c]` for a 1-D tensor: as for lists, but torch rejects every non-positive step with `ValueError`. -/
def torchSlice {α : Type} (xs : List α) (s : Slice) : Py (List α) :=
  if s.step.getD 1 ≤ 0 then .error .valueError else pySlice xs s

/-- `t[mask]` for a 1-D tensor and a 1-D bool tensor: `IndexError` unless the sizes agree. -/
def torchMask {α : Type} (xs : List α) (mask : List Bool) : Py (List α) :=
  if mask.length = xs.length then
    .ok ((xs.zip mask).filterMap fun p => if p.2 then some p.1 else none)
  else .error .indexError

/-- torch `clip(min=lo, max=hi)`: documented as `min(max(x, lo), hi)`, so `hi` wins when `lo > hi`. -/
def clip (lo hi x : Int) : Int := min (max x lo) hi

/-- torch `t.min().item()` of a 1-D tensor: RuntimeError if empty. -/
def torchMin : List Int → Py Int
  | [] => .error .runtimeError
  | x :: xs => .ok (xs.foldl min x)

/-- torch `t.max().item()` of a 1-D tensor: RuntimeError if empty. -/
def torchMax : List Int → Py Int
  | [] => .error .runtimeError
  | x :: xs => .ok (xs.foldl max x)

/-- Ceiling division for a positive divisor (`div(k).ceil()` on integers). -/
def ceilDiv (a b : Int) : Int := -((-a) / b)

/-- Sum of a list of integers (Python `sum`). -/
def isum : List Int → Int
  | [] => 0
  | x :: xs => x + isum xs

end DS
