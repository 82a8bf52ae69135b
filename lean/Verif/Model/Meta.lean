import Verif.Model.Numba
/-!
# Model of `StreamMetadata` (dreamstream/tensor.py:97-718): columns, batch and length indexing

A metadata object is its columns. `chunk` is `_chunk_indices`. Objects are immutable values here: assignments, caches
and sharing of tensor storage are modelled separately (`Model/Cache.lean`, `Model/Heap.lean`).
The lazily executed constructor is modelled as executed at once, so an invalid object raises where it is built and not where it is first used.
-/

namespace DS

/-- The columns of a `StreamMetadata` object (slots `ids`, `_sos`, `_eos`, `_lengths`, `_chunk_indices`, tensor.py:100-105). -/
structure Meta where
  ids : List String
  sos : List Bool
  eos : List Bool
  lengths : List Int
  chunk : Option (List Int)
  deriving DecidableEq, Repr

namespace Meta

/-- `StreamMetadata.__init__`, tensor.py:119-178: the columns except `chunk_indices` must have equal length (139-140).
Scalars are not modelled (they are wrapped in one-element lists by 130-137). -/
def init (ids : List String) (sos eos : List Bool) (lengths : List Int) (chunk : Option (List Int)) : Py Meta :=
  if ids.length = lengths.length ∧ lengths.length = sos.length ∧ sos.length = eos.length then
    .ok { ids, sos, eos, lengths, chunk }
  else .error .valueError

/-- `__len__` / `size`, tensor.py:332-334, 716-718. -/
def size (m : Meta) : Nat := m.ids.length

/-- `min_length`, tensor.py:215-219 with 235-239 (fresh value). -/
def minLength (m : Meta) : Py Int := torchMin m.lengths

/-- `max_length`, tensor.py:225-229 with 235-239 (fresh value). -/
def maxLength (m : Meta) : Py Int := torchMax m.lengths

/-- `any_starting`, tensor.py:259-262, 291. -/
def anyStarting (m : Meta) : Bool := m.sos.any id
/-- `any_ending`, tensor.py:264-267, 292. -/
def anyEnding (m : Meta) : Bool := m.eos.any id
/-- `all_starting`, tensor.py:269-272, 293. -/
def allStarting (m : Meta) : Bool := m.sos.all id
/-- `all_ending`, tensor.py:274-277, 294. -/
def allEnding (m : Meta) : Bool := m.eos.all id

/-- Apply a tensor-column operation to `chunk_indices` if present
(`self._chunk_indices[...] if self._chunk_indices is not None else None`, e.g. tensor.py:420). -/
def onChunk (f : List Int → Py (List Int)) : Option (List Int) → Py (Option (List Int))
  | none => .ok none
  | some c => do
    let c' ← f c
    .ok (some c')

/-- Index objects accepted (or received) by `index_batch`. `list` is a Python list of ints, `ints` a 1-D integer
tensor, `mask` a 1-D bool tensor, `bools` a Python list of bools, `tuple` a Python tuple of ints, `scalar` a 0-d tensor,
`multi` a tensor with more than one axis. -/
inductive BIx where
  | none
  | int (i : Int)
  | slice (s : Slice)
  | list (is : List Int)
  | ints (is : List Int)
  | mask (bs : List Bool)
  | bools (bs : List Bool)
  | tuple (is : List Int)
  | scalar (i : Int)
  | multi
  deriving DecidableEq, Repr

/-- `[id for i, id in enumerate(self.ids) if indices[i]]`, tensor.py:416: IndexError when the mask is shorter than `ids`,
surplus mask entries are not looked at. -/
def idsByMask : List String → List Bool → Py (List String)
  | [], _ => .ok []
  | _ :: _, [] => .error .indexError
  | x :: xs, b :: bs => do
    let r ← idsByMask xs bs
    .ok (if b then x :: r else r)

/-- A 1-D tensor indexed by a Python tuple of ints (a multi-axis index): the empty tuple selects the whole tensor,
one entry gives a 0-d tensor whose `len` raises TypeError in the constructor (tensor.py:139), more entries are too many
indices (IndexError). -/
def tupleIndex {α : Type} (xs : List α) : List Int → Py (List α)
  | [] => .ok xs
  | [i] => do
    let _ ← pyGet xs i
    .error .typeError
  | _ => .error .indexError

/-- `index_batch`, tensor.py:404-440. -/
def indexBatch (m : Meta) : BIx → Py Meta
  | .none => .ok m                                                   -- 409-410
  | .multi => .error .indexError                                     -- 412-413
  | .mask bs => do                                                   -- 415-421
    let ids ← idsByMask m.ids bs
    let sos ← torchMask m.sos bs
    let eos ← torchMask m.eos bs
    let lengths ← torchMask m.lengths bs
    let chunk ← onChunk (torchMask · bs) m.chunk
    init ids sos eos lengths chunk
  | .int i => do                                                     -- 423-429
    let id ← pyGet m.ids i
    let sos ← pyGather m.sos [i]
    let eos ← pyGather m.eos [i]
    let lengths ← pyGather m.lengths [i]
    let chunk ← onChunk (pyGather · [i]) m.chunk
    init [id] sos eos lengths chunk
  | .slice s => do                                                   -- 431-432, 436-440
    let ids ← pySlice m.ids s
    let sos ← torchSlice m.sos s
    let eos ← torchSlice m.eos s
    let lengths ← torchSlice m.lengths s
    let chunk ← onChunk (torchSlice · s) m.chunk
    init ids sos eos lengths chunk
  | .list is => gather is                                            -- 433-440
  | .ints is => gather is
  | .scalar _ => .error .typeError                                   -- 434: iterating a 0-d tensor
  | .tuple is => do                                                  -- 433-440 with a tuple
    let ids ← pyGather m.ids is
    let sos ← tupleIndex m.sos is
    let eos ← tupleIndex m.eos is
    let lengths ← tupleIndex m.lengths is
    let chunk ← onChunk (tupleIndex · is) m.chunk
    init ids sos eos lengths chunk
  | .bools bs => do                                                  -- 433-440 with bools: `ids[True]` is `ids[1]`
    let ids ← pyGather m.ids (bs.map fun b => if b then 1 else 0)
    let sos ← torchMask m.sos bs
    let eos ← torchMask m.eos bs
    let lengths ← torchMask m.lengths bs
    let chunk ← onChunk (torchMask · bs) m.chunk
    init ids sos eos lengths chunk
where
  gather (is : List Int) : Py Meta := do
    let ids ← pyGather m.ids is
    let sos ← pyGather m.sos is
    let eos ← pyGather m.eos is
    let lengths ← pyGather m.lengths is
    let chunk ← onChunk (pyGather · is) m.chunk
    init ids sos eos lengths chunk

/-- `drop_empty`, tensor.py:708-710. -/
def dropEmpty (m : Meta) : Py Meta := m.indexBatch (.mask (m.lengths.map fun l => decide (0 < l)))

/-- Index objects accepted by `index_length`. `list` stands for Python lists, tuples and 1-D integer tensors
(tensor.py:453-454, 567-568), `mask` for a 1-D bool tensor (564-565), `multi` for tensors with more axes. -/
inductive LIx where
  | none
  | int (i : Int)
  | slice (s : Slice)
  | list (is : List Int)
  | mask (bs : List Bool)
  | multi
  deriving DecidableEq, Repr

/-- `sos.clone() if cond else zeros_like(sos)`, e.g. tensor.py:511. -/
def keepSos (cond : Bool) (sos : List Bool) : List Bool :=
  if cond then sos else sos.map fun _ => false

/-- `_index_length_int`, tensor.py:504-516. -/
def indexLengthInt (m : Meta) (index : Int) : Py Meta := do
  let index ← if index < 0 then (do let ml ← m.maxLength; .ok (ml + index)) else .ok index
  let lengths := m.lengths.map fun l => clip 0 1 (l - index)
  let sos := keepSos (decide (index = 0)) m.sos
  let eos := Numba.updateEosFromInteger m.eos m.lengths index
  init m.ids sos eos lengths m.chunk

/-- `_index_length_slice`, tensor.py:518-538. `div(stride).ceil()` is exact integer ceiling (no float rounding). -/
def indexLengthSlice (m : Meta) (s : Slice) : Py Meta := do
  let ml ← m.maxLength
  let (start, stop, stride) ← s.indices ml
  if stride < 0 then .error .notImplementedError
  else if stride = 1 then
    let lengths := m.lengths.map fun l => clip 0 (stop - start) (l - start)
    finish start stop lengths
  else
    let stop := ml - (ml - 1 - start) % stride
    let lengths := m.lengths.map fun l => ceilDiv (clip 0 (stop - start) (l - start)) stride
    finish start stop lengths
where
  /-- tensor.py:535-538 -/
  finish (start stop : Int) (lengths : List Int) : Py Meta :=
    let sos := keepSos (decide (start = 0) && decide (stop > 0)) m.sos
    let eos := Numba.updateEosFromSlice m.eos m.lengths start stop
    init m.ids sos eos lengths m.chunk

/-- `_index_length_list`, tensor.py:540-557. `junk` is the value of the unchecked read `array[0]` when the list is
empty (see `Numba.minmax`). -/
def indexLengthList (junk : Int) (m : Meta) (indices : List Int) : Py Meta := do
  let ml ← m.maxLength
  let is := Numba.makeIndicesPositive indices ml
  if !Numba.isSortedAscending is then .error .indexError
  else
    let (minI, maxI) := Numba.minmax junk is
    let lengths := Numba.updateLengthsFromList m.lengths is
    let sos := keepSos (decide (minI = 0)) m.sos
    let eos := Numba.updateEosFromSlice m.eos m.lengths minI maxI
    init m.ids sos eos lengths m.chunk

/-- `indices.nonzero().squeeze(1).tolist()`, tensor.py:565: the ascending positions of `True`, counted from `k`. -/
def nonzeroFrom (k : Int) : List Bool → List Int
  | [] => []
  | b :: bs => if b then k :: nonzeroFrom (k + 1) bs else nonzeroFrom (k + 1) bs

/-- `index_length`, tensor.py:442-460. -/
def indexLength (junk : Int) (m : Meta) : LIx → Py Meta
  | .none => .ok m
  | .int i => m.indexLengthInt i
  | .slice s => m.indexLengthSlice s
  | .list is => m.indexLengthList junk is
  | .mask bs => m.indexLengthList junk (nonzeroFrom 0 bs)
  | .multi => .error .indexError

/-- `index` with a pair `(batch_indices, length_indices)`, tensor.py:382-398. When both are ints, or exactly one is
`None`, or anything else, every branch computes `index_batch` followed by `index_length`. -/
def index2 (junk : Int) (m : Meta) (b : BIx) (l : LIx) : Py Meta := do
  let m' ← m.indexBatch b
  m'.indexLength junk l

end Meta
end DS
