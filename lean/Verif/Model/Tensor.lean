import Verif.Model.MetaCat
/-!
# Named tensors of any rank, and the torch operations that the overrides call

A tensor is its shape, its axis names and the entry at every multi-index (entries outside the shape mean nothing). The
torch functions below are trusted descriptions of torch (DESIGN.md section 2), not models of code in `/repo`: what an operation does to the
data is described by the source multi-index of every output entry. Not modelled: dtypes, strides, storage sharing, the special
treatment of 0-d tensors in axis arguments (`dim=0` and `dim=-1` of a 0-d tensor), the validity of names as identifiers
other than the empty string.
-/

namespace DS.Tn

/-- A torch tensor with axis names (`None` for an unnamed axis). -/
structure Ten (α : Type) where
  shape : List Nat
  names : List (Option String)
  val : List Nat → α

/-- `BATCH`, utils/flags.py:1. -/
def BATCH : Option String := some "B"
/-- `LENGTH`, utils/flags.py:2. -/
def LENGTH : Option String := some "L"

/-- A `StreamTensor`: a tensor with metadata, tensor.py:756-765. -/
structure STen (α : Type) where
  t : Ten α
  md : Meta

/-- A torch tensor that may be a `StreamTensor`. -/
inductive Opd (α : Type) where
  | stream (x : STen α)
  | plain (t : Ten α)

section
variable {α : Type}

/-- `t.ndim`. -/
def Ten.ndim (t : Ten α) : Nat := t.shape.length

/-- The data without names (`StreamTensor.tensor()`, tensor.py:880-885). -/
def Ten.unnamed (t : Ten α) : Ten α := { t with names := t.shape.map fun _ => none }

/-- `names.index(name)` of a Python tuple. -/
def nameIndex (names : List (Option String)) (n : Option String) : Py Nat :=
  if n ∈ names then .ok (names.idxOf n) else .error .valueError

/-- torch axis normalisation for a tensor with `n` axes. -/
def normDim (n : Nat) (d : Int) : Py Nat :=
  if 0 ≤ d ∧ d < n then .ok d.toNat
  else if d < 0 ∧ 0 ≤ d + n then .ok (d + n).toNat
  else .error .indexError

/-- What torch requires of names: no name twice, no empty name. -/
def namesOK (names : List (Option String)) : Bool :=
  decide ((names.filterMap id).Nodup) && !(names.contains (some ""))

/-- `t.rename(*names)`: RuntimeError for a wrong number of names or invalid names; the single name `None` drops all names. -/
def Ten.rename (t : Ten α) (names : List (Option String)) : Py (Ten α) :=
  if names = [none] then .ok t.unnamed
  else if names.length = t.ndim ∧ namesOK names = true then .ok { t with names }
  else .error .runtimeError

/-- `t.refine_names(*names)` of an unnamed tensor: RuntimeError for a wrong number of names or invalid names. -/
def Ten.refine (t : Ten α) (names : List (Option String)) : Py (Ten α) :=
  if names.length = t.ndim ∧ namesOK names = true then .ok { t with names }
  else .error .runtimeError

/-- `t.permute(*dims)` of an unnamed tensor: every axis exactly once, RuntimeError otherwise; entry `ix` comes from the multi-index
whose coordinate on axis `dims[j]` is `ix[j]`. -/
def Ten.permute (t : Ten α) (dims : List Int) : Py (Ten α) := do
  let ds ← dims.mapM (normDim t.ndim)
  if ds.length = t.ndim ∧ ds.Nodup then
    .ok { shape := ds.map fun d => t.shape.getD d 0
          names := ds.map fun _ => none
          val := fun ix => t.val ((List.range t.ndim).map fun a => ix.getD (ds.idxOf a) 0) }
  else .error .runtimeError

/-- Swap two entries of a list. -/
def swap {β : Type} (xs : List β) (i j : Nat) : List β :=
  match xs[i]?, xs[j]? with
  | some a, some b => (xs.set i b).set j a
  | _, _ => xs

/-- `torch.transpose(t, i, j)`: the axes change places, with their names. -/
def Ten.transpose (t : Ten α) (i j : Int) : Py (Ten α) := do
  let a ← normDim t.ndim i
  let b ← normDim t.ndim j
  .ok { shape := swap t.shape a b, names := swap t.names a b, val := fun ix => t.val (swap ix a b) }

/-- `t.select(d, p)` for an axis and position in range: names and sizes of the other axes stay. -/
def Ten.pickAt (t : Ten α) (d p : Nat) : Ten α :=
  { shape := t.shape.eraseIdx d, names := t.names.eraseIdx d, val := fun ix => t.val (ix.insertIdx d p) }

/-- `t.narrow(d, start, n)`: IndexError if `start` is out of range, RuntimeError if `n` is negative or does not fit. Names stay. -/
def Ten.narrow (t : Ten α) (d start n : Int) : Py (Ten α) := do
  let a ← normDim t.ndim d
  let size : Int := t.shape.getD a 0
  if n < 0 then .error .runtimeError
  else if start < -size ∨ size < start then .error .indexError
  else
    let s := if start < 0 then start + size else start
    if size < s + n then .error .runtimeError
    else .ok { t with shape := t.shape.set a n.toNat, val := fun ix => t.val (ix.modify a (· + s.toNat)) }

/-- `torch.index_select(t, d, index)` on an unnamed tensor: positions must be in `0..size-1`, IndexError otherwise. -/
def Ten.indexSelect (t : Ten α) (d : Int) (index : List Int) : Py (Ten α) := do
  let a ← normDim t.ndim d
  if index.all fun i => decide (0 ≤ i ∧ i < t.shape.getD a 0) then
    .ok { t with shape := t.shape.set a index.length, val := fun ix => t.val (ix.modify a fun k => (index.getD k 0).toNat) }
  else .error .indexError

/-- `torch.unsqueeze(t, d)` on an unnamed tensor: a new axis of size 1 at `d`, counted among the axes of the result. -/
def Ten.unsqueeze (t : Ten α) (d : Int) : Py (Ten α) := do
  let a ← normDim (t.ndim + 1) d
  .ok { shape := t.shape.insertIdx a 1, names := t.names.insertIdx a none, val := fun ix => t.val (ix.eraseIdx a) }

/-- `torch.squeeze(t, d)` on an unnamed tensor: removes the axis if its size is 1. -/
def Ten.squeezeAt (t : Ten α) (d : Int) : Py (Ten α) := do
  let a ← normDim t.ndim d
  if t.shape.getD a 0 = 1 then .ok (t.pickAt a 0) else .ok t

/-- Put back coordinate 0 on every axis of size 1. -/
def unsqueezeIx : List Nat → List Nat → List Nat
  | [], _ => []
  | 1 :: ss, ix => 0 :: unsqueezeIx ss ix
  | _ :: ss, ix => ix.headD 0 :: unsqueezeIx ss ix.tail

/-- `torch.squeeze(t)` on an unnamed tensor: removes all axes of size 1. -/
def Ten.squeezeAll (t : Ten α) : Ten α :=
  { shape := t.shape.filter (· ≠ 1), names := (t.shape.filter (· ≠ 1)).map fun _ => none
    val := fun ix => t.val (unsqueezeIx t.shape ix) }

/-- Product of sizes. -/
def prod : List Nat → Nat
  | [] => 1
  | s :: ss => s * prod ss

/-- The multi-index at linear position `k` of a row-major array of the given sizes. -/
def unravel : List Nat → Nat → List Nat
  | [], _ => []
  | _ :: ss, k => k / prod ss :: unravel ss (k % prod ss)

/-- `torch.flatten(t, s, e)` on an unnamed tensor with at least one axis: axes `s..e` become one axis in row-major order. RuntimeError if
`s` comes after `e`. -/
def Ten.flatten (t : Ten α) (s e : Int) : Py (Ten α) := do
  let a ← normDim t.ndim s
  let b ← normDim t.ndim e
  if b < a then .error .runtimeError
  else
    let merged := (t.shape.drop a).take (b + 1 - a)
    let shape := t.shape.take a ++ [prod merged] ++ t.shape.drop (b + 1)
    .ok { shape, names := shape.map fun _ => none
          val := fun ix => t.val (ix.take a ++ unravel merged (ix.getD a 0) ++ ix.drop (a + 1)) }

/-- Unify two axis names: equal names, or one of them `None`; RuntimeError otherwise. -/
def unifyName : Option String → Option String → Py (Option String)
  | none, b => .ok b
  | a, none => .ok a
  | some a, some b => if a = b then .ok (some a) else .error .runtimeError

/-- Unify the names of two tensors of equal rank. -/
def unifyNames : List (Option String) → List (Option String) → Py (List (Option String))
  | a :: as, b :: bs => do
    let c ← unifyName a b
    let cs ← unifyNames as bs
    .ok (c :: cs)
  | _, _ => .ok []

/-- Names of a concatenation. -/
def unifyAll (acc : List (Option String)) : List (Ten α) → Py (List (Option String))
  | [] => .ok acc
  | t :: ts => do
    let n ← unifyNames acc t.names
    unifyAll n ts

/-- The entry of a concatenation along axis `a`. -/
def catVal (a : Nat) (t : Ten α) : List (Ten α) → List Nat → α
  | [], ix => t.val ix
  | u :: us, ix =>
    if ix.getD a 0 < t.shape.getD a 0 then t.val ix
    else catVal a u us (ix.modify a (· - t.shape.getD a 0))

/-- `torch.cat([t, *ts], dim=d)`: equal rank and equal sizes on the other axes, names that unify; RuntimeError otherwise. (The legacy
exception for 1-D tensors of size 0 is not modelled.) -/
def catTen (t : Ten α) (ts : List (Ten α)) (d : Int) : Py (Ten α) := do
  let a ← normDim t.ndim d
  if ts.all fun u => decide (u.shape.length = t.shape.length ∧ u.shape.eraseIdx a = t.shape.eraseIdx a) then do
    let names ← unifyAll t.names ts
    if namesOK names then
      .ok { shape := t.shape.set a ((t :: ts).map fun u => u.shape.getD a 0).sum, names, val := catVal a t ts }
    else .error .runtimeError                                          -- a name at two different axes
  else .error .runtimeError

/-- The piece `[i, j)` of axis `a`. -/
def Ten.piece (t : Ten α) (a : Nat) (i j : Int) : Ten α :=
  { t with shape := t.shape.set a (j - i).toNat, val := fun ix => t.val (ix.modify a (· + i.toNat)) }

/-- `t.split(arg, dim)` at axis `a`: pieces of a size (RuntimeError if negative, or 0 unless the axis is empty; an empty axis gives one empty piece), or
of the given sections, which must be non-negative and add up (RuntimeError otherwise). Names stay. -/
def Ten.split (t : Ten α) (a : Nat) : Meta.SplitArg → Py (List (Ten α))
  | .size k =>
    let n := t.shape.getD a 0
    if k < 0 ∨ k = 0 ∧ n ≠ 0 then .error .runtimeError
    else if n = 0 then .ok [t]
    else .ok ((Meta.sizeBounds n k).map fun b => t.piece a b.1 b.2)
  | .sections ss =>
    if ss.any (fun s => decide (s < 0)) ∨ isum ss ≠ t.shape.getD a 0 then .error .runtimeError
    else .ok ((Meta.sectionBounds 0 ss).map fun b => t.piece a b.1 b.2)

/-- `t.unbind(dim)` at axis `a`. -/
def Ten.unbind (t : Ten α) (a : Nat) : List (Ten α) := (List.range (t.shape.getD a 0)).map (t.pickAt a)

/-- `torch.gather(t, d, index)` on unnamed tensors: equal rank, `index` not larger than `t` on the other axes; RuntimeError
otherwise. The positions in `index` are assumed to be in range. -/
def gatherTen (t : Ten α) (d : Int) (index : Ten Nat) : Py (Ten α) := do
  let a ← normDim t.ndim d
  if index.ndim = t.ndim ∧ (∀ b < t.ndim, b ≠ a → index.shape.getD b 0 ≤ t.shape.getD b 0) then
    .ok { shape := index.shape, names := index.shape.map fun _ => none, val := fun ix => t.val (ix.set a (index.val ix)) }
  else .error .runtimeError

/-- Broadcast size of two axes, if compatible. -/
def bsize (m n : Nat) : Option Nat :=
  if m = n then some m else if m = 1 then some n else if n = 1 then some m else none

/-- Coordinate within an axis that may have been broadcast. -/
def bcoord (n k : Nat) : Nat := if n = 1 then 0 else k

/-- Restrict a multi-index of a broadcast result to an operand of the given shape. -/
def bix (shape ix : List Nat) : List Nat := List.zipWith bcoord shape ix

/-- `torch.take_along_dim(t, index, d)` on unnamed tensors of equal rank: on the other axes the two shapes broadcast against each
other; RuntimeError if they do not. -/
def takeAlongTen (t : Ten α) (d : Int) (index : Ten Nat) : Py (Ten α) := do
  let a ← normDim t.ndim d
  if index.ndim ≠ t.ndim then .error .runtimeError
  else
    match ((List.range t.ndim).map fun b =>
        if b = a then some (index.shape.getD b 0) else bsize (t.shape.getD b 0) (index.shape.getD b 0)).mapM id with
    | none => .error .runtimeError
    | some shape =>
      .ok { shape, names := shape.map fun _ => none
            val := fun ix => t.val ((bix t.shape ix).set a (index.val (bix index.shape ix))) }

end
end DS.Tn
