import Verif.Model.Warn
import Verif.Model.MaskIndex
import Verif.Model.Take
/-!
# Model of the warnings that are given when a function of a StreamTensor gives a plain tensor

The functions are those of `Model/Overrides`, `Model/MaskIndex` and `Model/Take`, together with the warnings they give. The text of a warning is its operation and description; the wording around them
(warnings.py:16-25) is left out. What Python does with a warning is in `Model/Warn`.
-/

namespace DS.Fall
open Tn Warn

section
variable {α : Type}

/-- `fallback_operation_warning(operation, description)`, warnings.py:30-35, called from the given line of overrides.py: because of `stacklevel=2` it is attributed to that line. -/
def fallback (line : Nat) (operation description : String) : Warning := ⟨"dreamstream.overrides", line, operation ++ " " ++ description, .fallback⟩

/-- overrides.py:556-560. -/
def indexWarning : Warning := fallback 556 "multidimensional boolean tensor indexing" "when the batch and length dimensions are affected by the indexing operation. This would create a mismatch with the StreamMetadata"
/-- overrides.py:729-732. -/
def maskedSelectWarning : Warning := fallback 729 "masked_select" "since the StreamTensor becomes 1D which invalidates the link with the StreamMetadata."
/-- overrides.py:753. -/
def addAxisWarning : Warning := fallback 753 "scatter_add" "when applied on the batch or length dimensions"
/-- overrides.py:757-759. -/
def addMetaWarning : Warning := fallback 757 "scatter_add" "when more than one of input, index and src are StreamTensor with different StreamMetadata"
/-- overrides.py:789. -/
def reduceAxisWarning : Warning := fallback 789 "scatter_reduce" "when applied on the batch or length dimensions"
/-- overrides.py:793-796. -/
def reduceMetaWarning : Warning := fallback 793 "scatter_reduce" "when more than one of input, index and src are StreamTensor with different StreamMetadata"
/-- overrides.py:818. -/
def flattenWarning : Warning := fallback 818 "flatten" "when applied on the batch and/or length dimensions"

/-- `__getitem__`, overrides.py:476-572, with its warning. -/
def getitemW (junk : Int) (x : STen α) (top : MTop) : Py (Opd α × List Warning) := do
  let out ← mGetitem x.t.unnamed top
  let d ← mDescribe x.t.names top
  let b ← nameIndex x.t.names BATCH
  let l ← nameIndex x.t.names LENGTH
  if b ∉ d.affected.flatten ∧ l ∉ d.affected.flatten then do             -- 527-529
    let out ← out.refine d.names
    .ok (.stream ⟨out, x.md⟩, [])
  else
    match findMask 0 d.indices d.affected with
    | some (i, dims, m) =>
      if b ∈ dims ∧ l ∈ dims then .ok (.plain out, [indexWarning])       -- 554-561
      else do
        let out ← out.refine d.names
        let bi := if b ∈ dims then .mask (anyBut m (b - i)) else (mEntryAt d b).toB
        let li := if l ∈ dims then .mask (anyBut m (l - i)) else (mEntryAt d l).toL
        let md ← x.md.index2 junk bi li
        .ok (.stream ⟨out, md⟩, [])
    | none => do
      let out ← out.refine d.names
      let md ← x.md.index2 junk (mEntryAt d b).toB (mEntryAt d l).toL
      .ok (.stream ⟨out, md⟩, [])

/-- `flatten`, overrides.py:810-823, with its warning. -/
def flattenW (x : STen α) (s e : Int) : Py (Opd α × List Warning) := do
  let out ← x.t.unnamed.flatten s e
  let affected ← pySlice x.t.names { start := some s, stop := some (e + 1) }
  if BATCH ∈ affected ∨ LENGTH ∈ affected then .ok (.plain out, [flattenWarning])  -- 817-819
  else do
    let joined ← joinNames affected
    let pre ← pySlice x.t.names { stop := some s }
    let post ← pySlice x.t.names { start := some (e + 1) }
    let out ← out.rename (pre ++ [some joined] ++ post)
    .ok (.stream ⟨out, x.md⟩, [])

/-- `masked_select`, overrides.py:725-733, with its warning. -/
def maskedSelectW (x : STen α) (mask : Opd Bool) : Py (Opd α × List Warning) := do
  let out ← inner maskedSelectTen x.t.unnamed mask
  .ok (.plain out, [maskedSelectWarning])                                -- 728-733

/-- `scatter_add` / `scatter_reduce`, overrides.py:736-763, 771-800, with their warnings: `axis` for the batch and length axes, `other` for different metadata. See `Tn.scatter` for the arguments. -/
def scatterW (axis other : Warning) (args : List (STen α)) (dim : Int) (res : Py (Ten α)) : Py (Opd α × List Warning) := do
  let out ← res
  match args with
  | [] => .error .indexError
  | x :: _ => do
    let b ← nameIndex x.t.names BATCH
    if dim = b then .ok (.plain out, [axis])                             -- 752-754, 788-790
    else do
      let l ← nameIndex x.t.names LENGTH
      if dim = l then .ok (.plain out, [axis])
      else do
        let same ← allEq x.md (args.map (·.md))
        if same then do
          let out ← out.rename x.t.names
          .ok (.stream ⟨out, x.md⟩, [])
        else .ok (.plain out, [other])                                   -- 756-760, 792-797

/-- A call of one of the functions that can give a plain tensor. -/
inductive Call (α : Type) where
  /-- `x[top]`. -/
  | getitem (junk : Int) (x : STen α) (top : MTop)
  /-- `torch.flatten(x, s, e)`. -/
  | flatten (x : STen α) (s e : Int)
  /-- `torch.masked_select(x, mask)`. -/
  | maskedSelect (x : STen α) (mask : Opd Bool)
  /-- `torch.scatter_add`. -/
  | scatterAdd (args : List (STen α)) (dim : Int) (res : Py (Ten α))
  /-- `torch.scatter_reduce`. -/
  | scatterReduce (args : List (STen α)) (dim : Int) (res : Py (Ten α))
  /-- A function of `DECOUPLE_FUNCTIONS` (func_coverage.py:80-90: `argmax`, `argmin`, `argsort`, ...), or one of the overrides for quantisation: `res` is what torch gives on the tensors without names and metadata. -/
  | decoupled (res : Py (Ten α))

/-- What a call gives, with its warnings. `decouple`, tensor.py:1035-1039, and the overrides for quantisation, overrides.py:166-180, give no warning. -/
def Call.run : Call α → Py (Opd α × List Warning)
  | .getitem junk x top => getitemW junk x top
  | .flatten x s e => flattenW x s e
  | .maskedSelect x mask => maskedSelectW x mask
  | .scatterAdd args dim res => scatterW addAxisWarning addMetaWarning args dim res
  | .scatterReduce args dim res => scatterW reduceAxisWarning reduceMetaWarning args dim res
  | .decoupled res => res.map fun t => (.plain t, [])

/-- What a call does: it gives a tensor, raises an exception, or raises a warning that is to be raised as an exception (filter "error"). -/
inductive Outcome (α : Type) where
  | gives (o : Opd α)
  | raises (e : PyErr)
  | warningRaised

/-- The warnings of a call one after the other, up to one that is raised: the effects, whether one was raised, and the state of the `warnings` module. -/
def emitAll (s : Warn.State) : List Warning → List Effect × Bool × Warn.State
  | [] => ([], false, s)
  | w :: ws =>
    match emit w s with
    | (.raised, s) => ([.raised], true, s)
    | (f, s) => let r := emitAll s ws; (f :: r.1, r.2)

/-- One call under the state of the `warnings` module: what it does, the effects of its warnings, and the new state. -/
def callStep (s : Warn.State) (c : Call α) : Outcome α × List Effect × Warn.State :=
  match c.run with
  | .error e => (.raises e, [], s)
  | .ok (o, ws) =>
    match emitAll s ws with
    | (fs, true, s) => (.warningRaised, fs, s)
    | (fs, false, s) => (.gives o, fs, s)

/-- A program of calls: for each what it does and the effects of its warnings. -/
def program (s : Warn.State) : List (Call α) → List (Outcome α × List Effect)
  | [] => []
  | c :: cs => let r := callStep s c; (r.1, r.2.1) :: program r.2.2 cs

end
end DS.Fall
