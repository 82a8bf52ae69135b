import Verif.Model.Overrides
/-!
# Model of indexing a StreamTensor: `x[...]` (dreamstream/overrides.py:259-572) and `select` (700-707)

Indices are ints, slices, `None`, Ellipsis, Python lists of ints, 1-D integer tensors and 1-D bool tensors. Not modelled: multidimensional index
tensors, Python lists of bools, nested tuples and mixed Python lists in place of the index tuple. With two or more index lists/tensors in one
tuple torch merges the indexed axes into one, so that there are more names than axes; `refine_names` then raises RuntimeError
(or torch raised IndexError before): the model raises RuntimeError at once.
-/

namespace DS.Tn
open Meta

/-- One entry of an index tuple. -/
inductive Ix where
  | int (i : Int)
  | slice (s : Slice)
  | none
  | ellipsis
  | list (is : List Int)
  | ints (is : List Int)
  | mask (bs : List Bool)
  deriving DecidableEq, Repr

/-- What is written between the brackets: a single index or a tuple. -/
inductive Top where
  | bare (e : Ix)
  | tup (es : List Ix)
  deriving DecidableEq, Repr

/-- An index list or index tensor. -/
def Ix.adv : Ix → Bool
  | .list _ => true
  | .ints _ => true
  | .mask _ => true
  | _ => false

/-! ## torch's own indexing (trusted description) -/

/-- What one entry of the index does to an axis of the output. -/
inductive Sel where
  | new                      -- a new axis of size 1
  | pick (p : Nat)           -- the axis disappears, position `p`
  | keep (ps : List Nat)     -- the axis stays, with these positions
  deriving DecidableEq, Repr

/-- Position of index `i` on an axis of size `n`. -/
def torchPos (n : Nat) (i : Int) : Py Nat :=
  let j := if i < 0 then i + n else i
  if 0 ≤ j ∧ j < n then .ok j.toNat else .error .indexError

/-- Positions named by a list of indices. -/
def torchPoss (n : Nat) : List Int → Py (List Nat)
  | [] => .ok []
  | i :: is => do
    let p ← torchPos n i
    let ps ← torchPoss n is
    .ok (p :: ps)

/-- One entry on an axis of size `n`. -/
def torchSel (n : Nat) : Ix → Py Sel
  | .int i => do
    let p ← torchPos n i
    .ok (.pick p)
  | .slice s =>
    if s.step.getD 1 ≤ 0 then .error .valueError
    else do
      let (start, stop, step) ← s.indices n
      .ok (.keep ((rangePositions start stop step).map Int.toNat))
  | .list is => do
    let ps ← torchPoss n is
    .ok (.keep ps)
  | .ints is => do
    let ps ← torchPoss n is
    .ok (.keep ps)
  | .mask bs =>
    if bs.length = n then .ok (.keep ((nonzeroFrom 0 bs).map Int.toNat)) else .error .indexError
  | .none => .ok .new
  | .ellipsis => .ok .new

/-- All of an axis. -/
def fullSel (n : Nat) : Sel := .keep (List.range n)

/-- The index tuple against the remaining axes; an Ellipsis stands for `k` axes. -/
def torchSels (k : Nat) : List Nat → List Ix → Py (List Sel)
  | dims, [] => .ok (dims.map fullSel)
  | dims, .none :: r => do
    let rest ← torchSels k dims r
    .ok (.new :: rest)
  | dims, .ellipsis :: r => do
    let rest ← torchSels k (dims.drop k) r
    .ok ((dims.take k).map fullSel ++ rest)
  | [], _ :: _ => .error .indexError                                   -- too many indices
  | n :: dims, e :: r => do
    let s ← torchSel n e
    let rest ← torchSels k dims r
    .ok (s :: rest)

/-- Number of axes that the entries of the tuple (other than `None` and Ellipsis) index. -/
def specified (es : List Ix) : Nat := (es.filter fun e => decide (e ≠ .none ∧ e ≠ .ellipsis)).length

/-- Shape of the result. -/
def selShape : List Sel → List Nat
  | [] => []
  | .new :: r => 1 :: selShape r
  | .pick _ :: r => selShape r
  | .keep ps :: r => ps.length :: selShape r

/-- The source multi-index of an output multi-index. -/
def selSrc : List Sel → List Nat → List Nat
  | [], _ => []
  | .new :: r, ix => selSrc r ix.tail
  | .pick p :: r, ix => p :: selSrc r ix
  | .keep ps :: r, ix => ps.getD (ix.headD 0) 0 :: selSrc r ix.tail

/-- The entries between the brackets, a single index being a tuple of one. -/
def Top.entries : Top → List Ix
  | .bare e => [e]
  | .tup es => es

/-- `tensor[indices]` of an unnamed tensor. -/
def torchGetitem {α : Type} (t : Ten α) (top : Top) : Py (Ten α) := do
  let sels ← torchSels (t.shape.length - specified top.entries) t.shape top.entries
  .ok { shape := selShape sels, names := (selShape sels).map fun _ => none, val := fun ix => t.val (selSrc sels ix) }

/-! ## The override -/

/-- `number_of_indexed_dimensions`, overrides.py:272-274. -/
def numIndexed (es : List Ix) : Int := ((es.filter fun e => decide (e ≠ .none)).length : Nat)

/-- Positions of Ellipsis, overrides.py:292. -/
def ellipsisAt (k : Nat) : List Ix → List Nat
  | [] => []
  | .ellipsis :: r => k :: ellipsisAt (k + 1) r
  | _ :: r => ellipsisAt (k + 1) r

/-- The collapsing loop of overrides.py:293-295, for `i = n-1, …, 0`: `pos` are the positions before the loop. -/
def collapse (pos : List Nat) : Nat → List Ix → List Ix
  | 0, es => es
  | i + 1, es =>
    collapse pos i (if pos.getD i 0 + 1 = pos.getD (i + 1) 0 then es.eraseIdx (pos.getD (i + 1) 0) else es)

/-- `new_indices[ellipsis_indices[i]] = slice(None)` for the first `n` recorded positions (positions before collapsing), overrides.py:310-311. -/
def replaceAt (pos : List Nat) : Nat → List Ix → Py (List Ix)
  | 0, es => .ok es
  | i + 1, es => do
    let es ← replaceAt pos i es
    if pos.getD i 0 < es.length then .ok (es.set (pos.getD i 0) (.slice {})) else .error .indexError

/-- The end of `replace_ellipsis`, overrides.py:315-321: the first Ellipsis stands for the missing full slices. -/
def expandFirst (es : List Ix) (ndim : Nat) : List Ix :=
  let p := es.idxOf .ellipsis
  let missing := ndim - numIndexed es + 1
  es.take p ++ List.replicate missing.toNat (.slice {}) ++ es.drop (p + 1)

/-- `replace_ellipsis`, overrides.py:277-321, for an index tuple. -/
def replaceEllipsis (es : List Ix) (ndim : Nat) : Py (List Ix) :=
  if .ellipsis ∉ es then .ok es
  else
    let n := es.count .ellipsis
    if n > 1 then
      let pos := ellipsisAt 0 es
      let es' := collapse pos (n - 1) es
      if es'.count .ellipsis > 1 then
        if numIndexed es' ≠ ndim then .error .indexError
        else replaceAt pos (es'.count .ellipsis) es'
      else .ok (expandFirst es' ndim)
    else .ok (expandFirst es ndim)

/-- `IndexingDescription`, overrides.py:334-340, with the affected axes flattened (516-518) and a single index wrapped in a list (519-520). -/
structure Desc where
  indices : List Ix
  affected : List Nat
  names : List (Option String)
  multi : Bool
  deriving DecidableEq, Repr

/-- The recursive call for entry number `i`, overrides.py:379-431: affected axes and names contributed. -/
def describeEntry (names : List (Option String)) (i : Nat) : Ix → Py (List Nat × List (Option String))
  | .none => .ok ([], [none])                                          -- 383-385
  | .slice s => do                                                     -- 388-390, 400-402
    let n ← pyGet names i
    .ok (if s = {} then [] else [i], [n])
  | .ellipsis => .ok ([], names)                                       -- 392-393
  | .int _ => .ok ([i], [])                                            -- 396-398
  | .list _ => one                                                     -- 427-431
  | .ints _ => one                                                     -- 404-408
  | .mask _ => one
where
  /-- an index list or 1-D tensor -/
  one : Py (List Nat × List (Option String)) := do
    let n ← pyGet names i
    .ok ([i], [n])

/-- The loop of overrides.py:440-445. -/
def describeEntries (names : List (Option String)) : Nat → List Ix → Py (List Nat × List (Option String))
  | _, [] => .ok ([], [])
  | i, e :: r => do
    let d ← describeEntry names i e
    let rest ← describeEntries names (i + 1) r
    .ok (d.1 ++ rest.1, d.2 ++ rest.2)

/-- The tuple case of `determine_dims_affected_by_indexing`, overrides.py:435-456; `indices[-1]` of an empty tuple raises IndexError (450). -/
def describeTuple (names : List (Option String)) (es : List Ix) : Py Desc := do
  let es ← replaceEllipsis es names.length
  let d ← describeEntries names 0 es
  if es.length = 0 then .error .indexError
  else
    let missing : Int := names.length - numIndexed es
    .ok ⟨es, d.1, if missing > 0 then d.2 ++ names.drop (names.length - missing.toNat) else d.2, true⟩

/-- `determine_dims_affected_by_indexing`, overrides.py:343-459, called without `recursive_dim`. -/
def describe (names : List (Option String)) : Top → Py Desc
  | .bare .none => .ok ⟨[.none], [], none :: names, false⟩             -- 383-385
  | .bare .ellipsis => .ok ⟨[.ellipsis], [], names, false⟩             -- 392-393
  | .bare (.int i) => .ok ⟨[.int i], [0], names.tail, false⟩           -- 396-398
  | .bare (.slice s) => .ok ⟨[.slice s], if s = {} then [] else [0], names, false⟩
  | .bare e => .ok ⟨[e], [0], names, false⟩                            -- 404-408, 427-431
  | .tup es => describeTuple names es

/-- An entry as the batch index of the metadata. -/
def Ix.toB : Ix → BIx
  | .int i => .int i
  | .slice s => .slice s
  | .list is => .list is
  | .ints is => .ints is
  | .mask bs => .mask bs
  | .none => .none
  | .ellipsis => .none

/-- An entry as the length index of the metadata. -/
def Ix.toL : Ix → LIx
  | .int i => .int i
  | .slice s => .slice s
  | .list is => .list is
  | .ints is => .list is
  | .mask bs => .mask bs
  | .none => .none
  | .ellipsis => .none

/-- `indices[dim] if is_multidim_indexing else indices[0]`, or `None` if the axis is not affected, overrides.py:564-570. -/
def entryAt (d : Desc) (a : Nat) : Ix :=
  if a ∈ d.affected then (if d.multi then d.indices.getD a .none else d.indices.getD 0 .none) else .none

/-- `__getitem__`, overrides.py:476-572. -/
def getitem {α : Type} (junk : Int) (x : STen α) (top : Top) : Py (STen α) := do
  let out ← torchGetitem x.t.unnamed top
  let d ← describe x.t.names top
  let b ← nameIndex x.t.names BATCH
  let l ← nameIndex x.t.names LENGTH
  if (top.entries.filter Ix.adv).length ≥ 2 then .error .runtimeError  -- see the head of this file
  else if b ∉ d.affected ∧ l ∉ d.affected then do
    let out ← out.refine d.names
    .ok ⟨out, x.md⟩
  else do
    let out ← out.refine d.names
    let m ← x.md.index2 junk (entryAt d b).toB (entryAt d l).toL
    .ok ⟨out, m⟩

/-- `select`, overrides.py:700-707, for an int index. -/
def select {α : Type} (junk : Int) (x : STen α) (dim i : Int) : Py (STen α) :=
  let dim := if dim ≥ 0 then dim else x.t.ndim + dim
  getitem junk x (.tup (List.replicate dim.toNat (.slice {}) ++ [.int i]))

end DS.Tn
