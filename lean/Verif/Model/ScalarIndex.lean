import Verif.Model.Index
/-!
# Model of indexing a StreamTensor with integer tensors without axes

`x[torch.tensor(i)]`, alone or in a tuple. torch treats such an entry as the int `i` (trusted description). `determine_dims_affected_by_indexing` does not: the entry is no `int`, and as a tensor with
`ndim = 0` it reaches the last branch for tensors (dreamstream/overrides.py:416-421), where `(None,) * (0 - 1)` is empty, so that the axis is affected and its name stays, as for an index tensor with
one axis. Simplifications: those of `Model/Index`; boolean tensors without axes are not modelled.
-/

namespace DS.Tn
open Meta

/-- An index entry: as in `Model/Index`, or an integer tensor without axes. -/
inductive ZIx where
  | ix (e : Ix)
  | zero (i : Int)
  deriving DecidableEq, Repr

/-- What torch makes of it. -/
def ZIx.torch : ZIx → Ix
  | .ix e => e
  | .zero i => .int i

/-- What the override makes of it when it determines axes and names: overrides.py:404-421. -/
def ZIx.code : ZIx → Ix
  | .ix e => e
  | .zero i => .ints [i]

/-- An index: one entry, or a tuple. -/
inductive ZTop where
  | bare (e : ZIx)
  | tup (es : List ZIx)
  deriving DecidableEq, Repr

/-- What torch makes of the index. -/
def ZTop.torch : ZTop → Top
  | .bare e => .bare e.torch
  | .tup es => .tup (es.map ZIx.torch)

/-- What the override makes of the index: overrides.py:343-459. -/
def ZTop.code : ZTop → Top
  | .bare e => .bare e.code
  | .tup es => .tup (es.map ZIx.code)

/-- `__getitem__` for such an index, overrides.py:476-572. In the metadata an entry without axes counts as the list of its one position here; that does not matter, because the names have been refused before
(`C188_refused_partial`). -/
def getitemZ {α : Type} (junk : Int) (x : STen α) (top : ZTop) : Py (STen α) := do
  let out ← torchGetitem x.t.unnamed top.torch
  let d ← describe x.t.names top.code
  let b ← nameIndex x.t.names BATCH
  let l ← nameIndex x.t.names LENGTH
  if (top.torch.entries.filter Ix.adv).length ≥ 2 then .error .runtimeError  -- see Model/Index
  else if b ∉ d.affected ∧ l ∉ d.affected then do
    let out ← out.refine d.names
    .ok ⟨out, x.md⟩
  else do
    let out ← out.refine d.names
    let m ← x.md.index2 junk (entryAt d b).toB (entryAt d l).toL
    .ok ⟨out, m⟩

end DS.Tn
