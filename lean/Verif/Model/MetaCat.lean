import Verif.Model.Meta
/-!
# Model of `StreamMetadata`: cat, split, unbind, equality, 2-D masks (dreamstream/tensor.py)
-/

namespace DS.Meta

/-- `torch.cat([s.chunk_indices for s in metas])` if all are present, else `None`; tensor.py:597-600. -/
def catChunksBatch : List Meta → Option (List Int)
  | [] => some []
  | m :: ms => do
    let c ← m.chunk
    let r ← catChunksBatch ms
    some (c ++ r)

/-- `cat_batch`, tensor.py:580-601. The empty list reaches `torch.cat([])` (RuntimeError). -/
def catBatch : List Meta → Py Meta
  | [] => .error .runtimeError
  | [m] => .ok m                                                    -- 590-591
  | ms =>
    init (ms.flatMap (·.ids)) (ms.flatMap (·.sos)) (ms.flatMap (·.eos)) (ms.flatMap (·.lengths)) (catChunksBatch ms)

/-- Elementwise sum of two equally long columns (tensor `+`). Columns of different length do not occur for metadata with
equal ids and equally long columns; the broadcast error is not modelled. -/
def addCols (a b : List Int) : List Int := List.zipWith (· + ·) a b

/-- The checks of `cat_length` on operand `i` of `0..j`, tensor.py:617-623; `first` is `metas[0].ids`. -/
def catLengthCheck (first : List String) (i j : Nat) (s : Meta) : Py Unit :=
  if i ≠ 0 ∧ s.ids ≠ first then .error .valueError
  else if i ≠ 0 ∧ s.anyStarting = true then .error .valueError
  else if i ≠ j ∧ s.anyEnding = true then .error .valueError
  else .ok ()

/-- The loop of tensor.py:617-623. -/
def catLengthChecks (first : List String) (j : Nat) : Nat → List Meta → Py Unit
  | _, [] => .ok ()
  | i, s :: r => do
    catLengthCheck first i j s
    catLengthChecks first j (i + 1) r

/-- `cat_length`, tensor.py:603-637. -/
def catLength : List Meta → Py Meta
  | [] => .error .indexError                                        -- `metas[0]` of an empty list (625)
  | [m] => .ok m                                                    -- 613-614
  | m :: n :: r => do
    let ms := m :: n :: r
    catLengthChecks m.ids (ms.length - 1) 0 ms
    let last := (n :: r).getLast (by simp)
    let lengths := (n :: r).foldl (fun acc s => addCols acc s.lengths) m.lengths
    if ms.all (fun s => s.chunk.isSome) then init m.ids m.sos last.eos lengths last.chunk
    else if ms.all (fun s => s.chunk.isNone) then init m.ids m.sos last.eos lengths none
    else .error .valueError

/-- `split_size_or_sections`: an int or a list of ints. -/
inductive SplitArg where
  | size (k : Int)
  | sections (ss : List Int)
  deriving DecidableEq, Repr

/-- `[xs[i : i + k] for i in range(0, len(xs), k)]` for `k ≥ 1`, tensor.py:660-661; `fuel` bounds the number of chunks. -/
def chunksFuel {α : Type} (k : Nat) : Nat → List α → List (List α)
  | 0, _ => []
  | _, [] => []
  | fuel + 1, x :: xs => (x :: xs).take k :: chunksFuel k fuel ((x :: xs).drop k)

/-- Python chunks of a list by positive size; at most `len(xs)` chunks. -/
def chunks {α : Type} (k : Nat) (xs : List α) : List (List α) := chunksFuel k xs.length xs

/-- `tensor.split(k)` for `k ≥ 1`: like `chunks`, but an empty tensor gives one empty chunk. -/
def torchSplitSize {α : Type} (k : Nat) (xs : List α) : List (List α) :=
  match xs with
  | [] => [[]]
  | _ => chunks k xs

/-- Pieces of consecutive sizes `ss` (all non-negative): `ids[i:j]` for the cumulative sums (tensor.py:663-664) and
`tensor.split(ss)`. -/
def splitSections {α : Type} : List α → List Int → List (List α)
  | _, [] => []
  | xs, s :: ss => xs.take s.toNat :: splitSections (xs.drop s.toNat) ss

/-- `zip(split_ids, split_sos, split_eos, split_lengths, split_chunk_indices)` and construction, tensor.py:674-676. -/
def zipMetas : List (List String) → List (List Bool) → List (List Bool) → List (List Int) →
    List (Option (List Int)) → Py (List Meta)
  | i :: is, s :: ss, e :: es, l :: ls, c :: cs => do
    let m ← init i s e l c
    let r ← zipMetas is ss es ls cs
    .ok (m :: r)
  | _, _, _, _, _ => .ok []

/-- The chunk-index pieces, tensor.py:669-673: pieces of the tensor, or `None` for each of the `n` id pieces. -/
def splitChunkCol (f : List Int → List (List Int)) (n : Nat) : Option (List Int) → List (Option (List Int))
  | some c => (f c).map some
  | none => List.replicate n none

/-- `split_batch`, tensor.py:647-676. A zero size raises ValueError in `range` (660), a negative size or section
RuntimeError in `tensor.split` (666). -/
def splitBatch (m : Meta) : SplitArg → Py (List Meta)
  | .size k =>
    if k = 0 then .error .valueError
    else if k < 0 then .error .runtimeError
    else
      let ids := chunks k.toNat m.ids
      zipMetas ids (torchSplitSize k.toNat m.sos) (torchSplitSize k.toNat m.eos) (torchSplitSize k.toNat m.lengths)
        (splitChunkCol (torchSplitSize k.toNat) ids.length m.chunk)
  | .sections ss =>
    if isum ss ≠ m.size then .error .valueError                      -- 656-657
    else if ss.any (fun s => decide (s < 0)) then .error .runtimeError
    else
      let ids := splitSections m.ids ss
      zipMetas ids (splitSections m.sos ss) (splitSections m.eos ss) (splitSections m.lengths ss)
        (splitChunkCol (splitSections · ss) ids.length m.chunk)

/-- `unbind_batch`, tensor.py:700-706. -/
def unbindBatch (m : Meta) : Py (List Meta) := m.splitBatch (.size 1)

/-- `np.cumsum` starting from `acc`: the `(start, end)` pairs of consecutive sections, tensor.py:695-696. -/
def sectionBounds (acc : Int) : List Int → List (Int × Int)
  | [] => []
  | s :: ss => (acc, acc + s) :: sectionBounds (acc + s) ss

/-- `start = arange(0, max, k)`, `end = (start + k).clip(max=max)`, tensor.py:692-693, for `k > 0`. -/
def sizeBounds (ml k : Int) : List (Int × Int) :=
  (rangePositions 0 ml k).map fun i => (i, min (i + k) ml)

/-- `[self.index_length(slice(i, j)) for i, j in ...]`, tensor.py:698. -/
def lengthPieces (m : Meta) : List (Int × Int) → Py (List Meta)
  | [] => .ok []
  | (i, j) :: r => do
    let p ← m.indexLengthSlice { start := some i, stop := some j }
    let ps ← lengthPieces m r
    .ok (p :: ps)

/-- `split_length`, tensor.py:678-698. `np.arange` with step 0 raises ZeroDivisionError; a negative step gives no pieces. -/
def splitLength (m : Meta) : SplitArg → Py (List Meta)
  | .size k => do
    let ml ← m.maxLength
    if k = 0 then .error .zeroDivisionError
    else if k < 0 then .ok []
    else lengthPieces m (sizeBounds ml k)
  | .sections ss => do
    let ml ← m.maxLength
    if isum ss < ml then .error .valueError
    else lengthPieces m (sectionBounds 0 ss)

/-- `__eq__`, tensor.py:321-330. Python parses `A and … and (both None) or C` as `(A and …) or C`, where `C` is
`self._chunk_indices.equal(other.lengths)`: AttributeError when `self._chunk_indices` is `None`.
(torch `equal` on tensors of different dtype is treated as comparison of values.) -/
def eqMeta (a b : Meta) : Py Bool :=
  if a.ids = b.ids ∧ a.sos = b.sos ∧ a.eos = b.eos ∧ a.lengths = b.lengths ∧ (a.chunk = none ∧ b.chunk = none) then
    .ok true
  else
    match a.chunk with
    | none => .error .attributeError
    | some c => .ok (decide (c = b.lengths))

/-- Broadcast a binary elementwise operation over two 1-D tensors: equal sizes, or one of them of size 1; otherwise
RuntimeError. -/
def bcast {α β γ : Type} (f : α → β → γ) (xs : List α) (ys : List β) : Py (List γ) :=
  if xs.length = ys.length then .ok (List.zipWith f xs ys)
  else match xs, ys with
    | [x], ys => .ok (ys.map (f x))
    | xs, [y] => .ok (xs.map (f · y))
    | _, _ => .error .runtimeError

/-- Cumulative counts of `True` in a mask row (`indices.cumsum(dim=1)`, tensor.py:467). -/
def cumCounts (acc : Int) : List Bool → List Int
  | [] => []
  | b :: bs => (acc + if b then 1 else 0) :: cumCounts (acc + if b then 1 else 0) bs

/-- `indices.size(-1) - fliplr(indices).argmax(-1)` for a row with some `True`, tensor.py:496: one past the last `True`.
(For a row without `True` argmax is 0 and the result is the row size; such rows have been dropped before.) -/
def lastTrueStop (row : List Bool) : Int :=
  row.length - (if row.reverse.findIdx id < row.length then (row.reverse.findIdx id : Int) else 0)

/-- `cumsum[keep_ids, lengths - 1]`, tensor.py:499: row `r` of the kept rows at column `lengths[r] - 1`, negative columns
count from the end; the kept rows and the lengths broadcast against each other. -/
def cumAt (rows : List (List Bool)) (lengths : List Int) : Py (List Int) := do
  let cells ← bcast (fun row l => pyGet (cumCounts 0 row) (l - 1)) rows lengths
  cells.mapM id

/-- The columns that `index_batch_and_length` works on, tensor.py:478-490: filtered by `keep` unless all rows are kept. -/
def maskCols (m : Meta) (keep : List Bool) : Py Meta :=
  if keep.all id then .ok m                                          -- 485-490
  else do                                                            -- 478-483
    let ids ← idsByMask m.ids keep
    let sos ← torchMask m.sos keep
    let eos ← torchMask m.eos keep
    let lengths ← torchMask m.lengths keep
    let chunk ← onChunk (torchMask · keep) m.chunk
    .ok { ids, sos, eos, lengths, chunk }

/-- `broadcast_length`, tensor.py:474 (`max_length` is read only if the mask has width 1). -/
def maskBroadcastLength (m : Meta) (w : Nat) : Py Bool :=
  if w = 1 then do
    let ml ← m.maxLength
    .ok (decide (ml > 1))
  else .ok false

/-- The end of `index_batch_and_length`, tensor.py:492-502. `krows` are the kept rows of the mask, `c` the columns
of the kept rows. `chunk_indices[keep_ids]` (500) filters a second time. -/
def maskFinish (c : Meta) (keep : List Bool) (krows : List (List Bool)) (bl : Bool) : Py Meta := do
  let sos ← bcast (fun a b => a && b) c.sos (krows.map fun r => r.head?.getD false)           -- 492
  if bl then init c.ids sos c.eos c.lengths c.chunk
  else                                                               -- 493-500
    let start := krows.map fun r => if r.head?.getD false then (1 : Int) else 0
    let stop := krows.map lastTrueStop
    let c1 ← bcast (fun s l => decide (s < l)) start c.lengths
    let c2 ← bcast (fun l t => decide (l ≤ t)) c.lengths stop
    let eos ← bcast (fun a b => a && b) c.eos c1
    let eos ← bcast (fun a b => a && b) eos c2
    let lengths ← cumAt krows c.lengths
    let chunk ← onChunk (torchMask · keep) c.chunk
    init c.ids sos eos lengths chunk

/-- `index_batch_and_length`, tensor.py:462-502, for a 2-D bool tensor given as its rows, all of width `w`. -/
def indexBatchAndLength (m : Meta) (rows : List (List Bool)) (w : Nat) : Py Meta :=
  if w = 0 then .error .indexError                                   -- 468: `cumsum[:, -1]` of an empty axis
  else
    let keep := rows.map fun r => r.any id                           -- 468
    if keep.any id then do
      let bl ← maskBroadcastLength m w                               -- 474
      if decide (rows.length = 1) && decide (m.ids.length > 1) && bl then .ok m       -- 473, 475-476
      else do
        let c ← maskCols m keep
        maskFinish c keep (rows.filter fun r => r.any id) bl         -- 484: `indices[keep_ids]`
    else .ok { ids := [], sos := [], eos := [], lengths := [], chunk := none }        -- 470-471

end DS.Meta
