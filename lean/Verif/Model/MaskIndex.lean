import Verif.Model.Index
/-!
# Model of `x[...]` with an index tensor of two or more axes (dreamstream/overrides.py:404-421, 435-456, 462-470, 509-572)

The index is a tensor of bools or of integers with at least two axes, alone or as an entry of a tuple whose other entries are ints, slices, `None` and at most one
Ellipsis. Not modelled: a second index list or tensor in the tuple, more than one Ellipsis.
-/

namespace DS.Tn
open Meta

/-- An index tensor with two or more axes. -/
inductive Multi where
  | mask (m : Ten Bool)
  | ints (m : Ten Int)

/-- One entry of an index tuple. -/
inductive Ent where
  | one (e : Ix)
  | multi (m : Multi)

/-- What is written between the brackets. -/
inductive MTop where
  | bare (m : Multi)
  | tup (es : List Ent)

/-- The entries between the brackets, a single index being a tuple of one. -/
def MTop.entries : MTop → List Ent
  | .bare m => [.multi m]
  | .tup es => es

/-! ## torch's own indexing (trusted description) -/

/-- All multi-indices of an array in row-major order. -/
def allIx : List Nat → List (List Nat)
  | [] => [[]]
  | s :: ss => (List.range s).flatMap fun i => (allIx ss).map fun r => i :: r

/-- `mask.nonzero()`: the positions of `True` in row-major order. -/
def trueAt (m : Ten Bool) : List (List Nat) := (allIx m.shape).filter m.val

/-- What one entry of the index does. -/
inductive MSel where
  | one (s : Sel)
  | merged (ps : List (List Nat))                          -- several axes become one, with these positions
  | spread (shape : List Nat) (pos : List Nat → Nat)       -- one axis becomes several

/-- Position of index `i` on an axis of size `n`, if it is in range. -/
def wrapPos (n : Nat) (i : Int) : Nat := (if i < 0 then i + n else i).toNat

/-- The index tuple against the remaining axes; an Ellipsis stands for `k` axes. A mask must have the sizes of the axes that it indexes; integers must be in range. -/
def mSels (k : Nat) : List Nat → List Ent → Py (List MSel)
  | dims, [] => .ok (dims.map fun n => .one (fullSel n))
  | dims, .one .none :: r => do
    let rest ← mSels k dims r
    .ok (.one .new :: rest)
  | dims, .one .ellipsis :: r => do
    let rest ← mSels k (dims.drop k) r
    .ok ((dims.take k).map (fun n => .one (fullSel n)) ++ rest)
  | dims, .multi (.mask m) :: r =>
    if dims.take m.ndim = m.shape then do
      let rest ← mSels k (dims.drop m.ndim) r
      .ok (.merged (trueAt m) :: rest)
    else .error .indexError
  | [], _ :: _ => .error .indexError
  | n :: dims, .multi (.ints m) :: r =>
    if (allIx m.shape).all fun p => decide (-n ≤ m.val p ∧ m.val p < n) then do
      let rest ← mSels k dims r
      .ok (.spread m.shape (fun ix => wrapPos n (m.val ix)) :: rest)
    else .error .indexError
  | n :: dims, .one e :: r => do
    let s ← torchSel n e
    let rest ← mSels k dims r
    .ok (.one s :: rest)

/-- Number of axes that the entries other than `None` and Ellipsis index. -/
def mSpecified : List Ent → Nat
  | [] => 0
  | .one .none :: r => mSpecified r
  | .one .ellipsis :: r => mSpecified r
  | .multi (.mask m) :: r => m.ndim + mSpecified r
  | _ :: r => 1 + mSpecified r

/-- Shape of the result. -/
def mShape : List MSel → List Nat
  | [] => []
  | .one .new :: r => 1 :: mShape r
  | .one (.pick _) :: r => mShape r
  | .one (.keep ps) :: r => ps.length :: mShape r
  | .merged ps :: r => ps.length :: mShape r
  | .spread s _ :: r => s ++ mShape r

/-- The source multi-index of an output multi-index. -/
def mSrc : List MSel → List Nat → List Nat
  | [], _ => []
  | .one .new :: r, ix => mSrc r ix.tail
  | .one (.pick p) :: r, ix => p :: mSrc r ix
  | .one (.keep ps) :: r, ix => ps.getD (ix.headD 0) 0 :: mSrc r ix.tail
  | .merged ps :: r, ix => ps.getD (ix.headD 0) [] ++ mSrc r ix.tail
  | .spread s f :: r, ix => f (ix.take s.length) :: mSrc r (ix.drop s.length)

/-- `tensor[indices]` of an unnamed tensor. -/
def mGetitem {α : Type} (t : Ten α) (top : MTop) : Py (Ten α) := do
  let sels ← mSels (t.shape.length - mSpecified top.entries) t.shape top.entries
  .ok { shape := mShape sels, names := (mShape sels).map fun _ => none, val := fun ix => t.val (mSrc sels ix) }

/-! ## The override -/

/-- `number_of_indexed_dimensions`, overrides.py:272-274: every entry but `None` counts as one. -/
def mNumIndexed : List Ent → Nat
  | [] => 0
  | .one .none :: r => mNumIndexed r
  | _ :: r => 1 + mNumIndexed r

/-- An entry that is Ellipsis. -/
def Ent.isEllipsis : Ent → Bool
  | .one .ellipsis => true
  | _ => false

/-- `replace_ellipsis`, overrides.py:277-321, for at most one Ellipsis: it becomes as many full slices as axes are missing, every entry counting as one axis (317). -/
def mReplaceEllipsis (es : List Ent) (ndim : Nat) : List Ent :=
  if es.any Ent.isEllipsis then
    let p := es.findIdx Ent.isEllipsis
    es.take p ++ List.replicate (ndim - mNumIndexed es + 1 : Int).toNat (.one (.slice {})) ++ es.drop (p + 1)
  else es

/-- The recursive call for entry number `i`, overrides.py:379-431 with `join_dim_names` 324-326: affected axes and names contributed. A mask is taken to index the axes from number `i` on (413-415),
an integer tensor the axis number `i` (419-420). -/
def mDescribeEntry (names : List (Option String)) (i : Nat) : Ent → Py (List Nat × List (Option String))
  | .one e => describeEntry names i e
  | .multi (.mask m) => do
    let j ← joinNames ((names.drop i).take m.ndim)
    .ok (List.range' i m.ndim, [some j])
  | .multi (.ints m) => do
    let n ← pyGet names i
    .ok ([i], List.replicate (m.ndim - 1) none ++ [n])

/-- The loop of overrides.py:440-445; the affected axes stay grouped by entry. -/
def mDescribeEntries (names : List (Option String)) : Nat → List Ent → Py (List (List Nat) × List (Option String))
  | _, [] => .ok ([], [])
  | i, e :: r => do
    let d ← mDescribeEntry names i e
    let rest ← mDescribeEntries names (i + 1) r
    .ok (d.1 :: rest.1, d.2 ++ rest.2)

/-- `indices[-1].ndim - 1` if the last entry is a bool tensor, overrides.py:450-451. -/
def lastSurplus (es : List Ent) : Nat :=
  match es.getLast? with
  | some (.multi (.mask m)) => m.ndim - 1
  | _ => 0

/-- `IndexingDescription`, overrides.py:334-340, with a single index wrapped in a list (519-520). -/
structure MDesc where
  indices : List Ent
  affected : List (List Nat)
  names : List (Option String)
  multi : Bool

/-- `determine_dims_affected_by_indexing`, overrides.py:343-459, called without `recursive_dim`. -/
def mDescribe (names : List (Option String)) : MTop → Py MDesc
  | .bare (.mask m) => do                                              -- 409-415
    let j ← joinNames (names.take m.ndim)
    .ok ⟨[.multi (.mask m)], [List.range' 0 m.ndim], some j :: names.drop m.ndim, false⟩
  | .bare (.ints m) =>                                                 -- 416-421
    .ok ⟨[.multi (.ints m)], [[0]], List.replicate (m.ndim - 1) none ++ names, false⟩
  | .tup es => do                                                      -- 435-456
    let es := mReplaceEllipsis es names.length
    let d ← mDescribeEntries names 0 es
    if es.length = 0 then .error .indexError
    else
      let missing : Int := (names.length : Int) - mNumIndexed es - lastSurplus es
      .ok ⟨es, d.1, if missing > 0 then d.2 ++ names.drop (names.length - missing.toNat) else d.2, true⟩

/-- `any_along_dims`, overrides.py:462-470, when exactly the axis `a` is left: which positions on `a` have a `True`. -/
def anyBut (m : Ten Bool) (a : Nat) : List Bool :=
  (List.range (m.shape.getD a 0)).map fun i => (trueAt m).any fun p => decide (p.getD a 0 = i)

/-- The multidimensional mask among the indices, its number and the axes it is taken to index, overrides.py:536-542. -/
def findMask : Nat → List Ent → List (List Nat) → Option (Nat × List Nat × Ten Bool)
  | i, .multi (.mask m) :: _, d :: _ => some (i, d, m)
  | i, _ :: es, _ :: ds => findMask (i + 1) es ds
  | _, _, _ => none

/-- An entry as batch index of the metadata; index tensors with more axes are refused (tensor.py:412-413). -/
def Ent.toB : Ent → BIx
  | .one e => e.toB
  | .multi _ => .multi

/-- An entry as length index of the metadata; index tensors with more axes are refused (tensor.py:457-458). -/
def Ent.toL : Ent → LIx
  | .one e => e.toL
  | .multi _ => .multi

/-- `indices[dim] if is_multidim_indexing else indices[0]`, or `None` if the axis is not affected, overrides.py:564-570. -/
def mEntryAt (d : MDesc) (a : Nat) : Ent :=
  if a ∈ d.affected.flatten then (if d.multi then d.indices.getD a (.one .none) else d.indices.getD 0 (.one .none)) else .one .none

/-- `__getitem__`, overrides.py:476-572. The result is a plain tensor if a mask covers both the batch and the length axis (554-561). -/
def getitemM {α : Type} (junk : Int) (x : STen α) (top : MTop) : Py (Opd α) := do
  let out ← mGetitem x.t.unnamed top
  let d ← mDescribe x.t.names top
  let b ← nameIndex x.t.names BATCH
  let l ← nameIndex x.t.names LENGTH
  if b ∉ d.affected.flatten ∧ l ∉ d.affected.flatten then do             -- 527-529
    let out ← out.refine d.names
    .ok (.stream ⟨out, x.md⟩)
  else
    match findMask 0 d.indices d.affected with
    | some (i, dims, m) =>
      if b ∈ dims ∧ l ∈ dims then .ok (.plain out)                      -- 554-561
      else do
        let out ← out.refine d.names
        let bi := if b ∈ dims then .mask (anyBut m (b - i)) else (mEntryAt d b).toB  -- 544-547, 568-570
        let li := if l ∈ dims then .mask (anyBut m (l - i)) else (mEntryAt d l).toL  -- 549-552, 564-566
        let md ← x.md.index2 junk bi li
        .ok (.stream ⟨out, md⟩)
    | none => do
      let out ← out.refine d.names
      let md ← x.md.index2 junk (mEntryAt d b).toB (mEntryAt d l).toL
      .ok (.stream ⟨out, md⟩)

end DS.Tn
