import Verif.Model.Tensor
/-!
# Model of the torch overrides (dreamstream/overrides.py) and of recoupling (dreamstream/tensor.py)

Every override first runs the torch operation and then decides names and metadata, in the order of the code, so that the
exception of the first failing step is the one raised. `meta.clone()` is the identity here (copies and sharing: `Model/Heap`). `junk` is the unchecked
read of `Meta.indexLengthList`.
-/

namespace DS.Tn
open Meta

section
variable {α : Type}

/-- `all_stream_tensors`, overrides.py:23-25, keeping the operands. -/
def allStream : List (Opd α) → Option (List (STen α))
  | [] => some []
  | .stream x :: r => (allStream r).map (x :: ·)
  | .plain _ :: _ => none

/-- The StreamTensors among the operands. -/
def streams : List (Opd α) → List (STen α)
  | [] => []
  | .stream x :: r => x :: streams r
  | .plain _ :: r => streams r

/-- The underlying tensor, with names (`named_tensor`, tensor.py:898-900). -/
def Opd.ten : Opd α → Ten α
  | .stream x => x.t
  | .plain t => t

/-- `[t.names[dim] == name for t in tensors if isinstance(t, StreamTensor)]`, overrides.py:63, 72 with tensor.py:866-871. -/
def dimIs (name : Option String) (dim : Int) : List (STen α) → Py (List Bool)
  | [] => .ok []
  | x :: r => do
    let n ← pyGet x.t.names dim
    let bs ← dimIs name dim r
    .ok (decide (n = name) :: bs)

/-- The padding check of overrides.py:74-76 on one operand. -/
def padCheck : Opd α → Py Unit
  | .plain _ => .ok ()
  | .stream x => do
    let ml ← torchMin x.md.lengths
    let l ← nameIndex x.t.names LENGTH
    if ml < (x.t.shape.getD l 0 : Nat) then .error .notImplementedError else .ok ()

/-- The loop of overrides.py:74-76. -/
def padChecks : List (Opd α) → Py Unit
  | [] => .ok ()
  | o :: r => do
    padCheck o
    padChecks r

/-- `t.size(dim)`. -/
def sizeAt (t : Ten α) (dim : Int) : Py Int := do
  let a ← normDim t.ndim dim
  .ok (t.shape.getD a 0 : Nat)

/-- `sum([t.size(dim) for t in tensors if not isinstance(t, StreamTensor)])`, overrides.py:80. -/
def plainSizes (dim : Int) : List (Opd α) → Py Int
  | [] => .ok 0
  | .stream _ :: r => plainSizes dim r
  | .plain t :: r => do
    let s ← sizeAt t dim
    let rest ← plainSizes dim r
    .ok (s + rest)

/-- `t.meta == tensors[0].meta` on one operand, overrides.py:85; a plain tensor has no `meta`. -/
def metaCheck (m0 : Meta) : Opd α → Py Unit
  | .plain _ => .error .attributeError
  | .stream x => do
    let b ← eqMeta x.md m0
    if b then .ok () else .error .valueError

/-- The loop of overrides.py:84-86. -/
def metaChecks (m0 : Meta) : List (Opd α) → Py Unit
  | [] => .ok ()
  | o :: r => do
    metaCheck m0 o
    metaChecks m0 r

/-- overrides.py:62-69. -/
def catBatchDim (o : Opd α) (os : List (Opd α)) (dim : Int) : Py (Opd α) :=
  match allStream (o :: os) with
  | none => .error .valueError
  | some xs => do
    let t ← catTen o.ten (os.map Opd.ten) dim
    let m ← catBatch (xs.map (·.md))
    .ok (.stream ⟨t, m⟩)

/-- overrides.py:71-81. -/
def catLengthDim (o : Opd α) (os : List (Opd α)) (dim : Int) : Py (Opd α) := do
  padChecks ((o :: os).dropLast)
  let t ← catTen o.ten (os.map Opd.ten) dim
  let m ← catLength ((streams (o :: os)).map (·.md))
  let extra ← plainSizes dim (o :: os)
  .ok (.stream ⟨t, { m with lengths := m.lengths.map (· + extra) }⟩)

/-- overrides.py:83-90. -/
def catOther (o : Opd α) (os : List (Opd α)) (dim : Int) : Py (Opd α) :=
  match o with
  | .plain _ => .error .attributeError
  | .stream x => do
    metaChecks x.md ((o :: os).dropLast)
    let t ← catTen o.ten (os.map Opd.ten) dim
    .ok (.stream ⟨t, x.md⟩)

/-- `cat`, overrides.py:52-90, for a non-empty list with at least one StreamTensor (otherwise torch does not dispatch here); `out` is not
modelled. -/
def cat (o : Opd α) (os : List (Opd α)) (dim : Int) : Py (Opd α) :=
  match os with
  | [] => .ok o                                                        -- 59-60
  | _ :: _ => do
    let bs ← dimIs BATCH dim (streams (o :: os))
    if bs.any id then catBatchDim o os dim
    else do
      let ls ← dimIs LENGTH dim (streams (o :: os))
      if ls.any id then catLengthDim o os dim
      else catOther o os dim

/-- `permute`, overrides.py:93-103 (`rename` is default-valid, so the result keeps the metadata). -/
def permute (x : STen α) (dims : List Int) : Py (STen α) := do
  let out ← x.t.unnamed.permute dims
  let names ← dims.mapM (pyGet x.t.names)
  let out ← out.rename names
  .ok ⟨out, x.md⟩

/-- `zip(tensors, metas)` and construction, overrides.py:134, 158. -/
def zipStream : List (Ten α) → List Meta → List (STen α)
  | t :: ts, m :: ms => ⟨t, m⟩ :: zipStream ts ms
  | _, _ => []

/-- `split`, overrides.py:124-139, with `StreamMetadata.split`, tensor.py:639-645. -/
def split (x : STen α) (arg : SplitArg) (dim : Int) : Py (List (STen α)) := do
  let n ← pyGet x.t.names dim
  let a ← normDim x.t.ndim dim
  let ts ← x.t.split a arg
  if n = LENGTH then do
    let ms ← x.md.splitLength arg
    .ok (zipStream ts ms)
  else if n = BATCH then do
    let ms ← x.md.splitBatch arg
    .ok (zipStream ts ms)
  else .ok (ts.map fun t => ⟨t, x.md⟩)

/-- `unbind`, overrides.py:142-163. -/
def unbind (x : STen α) (dim : Int) : Py (List (STen α)) := do
  let n ← pyGet x.t.names dim
  if n = LENGTH then .error .valueError
  else do
    let a ← normDim x.t.ndim dim
    if n = BATCH then do
      let ms ← x.md.unbindBatch
      let ts := x.t.unbind a
      if ts.length ≠ ms.length then .error .assertionError             -- 157
      else .ok (zipStream ts ms)
    else .ok ((x.t.unbind a).map fun t => ⟨t, x.md⟩)

/-- `narrow`, overrides.py:576-589. -/
def narrow (junk : Int) (x : STen α) (dim start n : Int) : Py (STen α) := do
  let out ← x.t.narrow dim start n
  let nm ← pyGet x.t.names dim
  if nm = BATCH then do
    let m ← x.md.indexBatch (.slice { start := some start, stop := some (start + n) })
    .ok ⟨out, m⟩
  else if nm = LENGTH then do
    let m ← x.md.index2 junk (.slice {}) (.slice { start := some start, stop := some (start + n) })
    .ok ⟨out, m⟩
  else .ok ⟨out, x.md⟩

/-- The index tensor of `index_select`: 1-D, or 0-d (which torch treats as one position). -/
inductive IdxT where
  | vec (is : List Int)
  | zero (i : Int)
  deriving DecidableEq, Repr

/-- The positions of an index tensor. -/
def IdxT.list : IdxT → List Int
  | .vec is => is
  | .zero i => [i]

/-- As the batch index of the metadata (tensor.py:412-440). -/
def IdxT.bix : IdxT → BIx
  | .vec is => .ints is
  | .zero i => .scalar i

/-- `index_select`, overrides.py:710-722. `meta[:, index]` with a 0-d tensor falls through the cases of
`index_length` (tensor.py:459-460): IndexError. -/
def indexSelect (junk : Int) (x : STen α) (dim : Int) (index : IdxT) : Py (STen α) := do
  let out ← x.t.unnamed.indexSelect dim index.list
  let b ← nameIndex x.t.names BATCH
  if dim = b then do
    let m ← x.md.indexBatch index.bix
    let out ← out.rename x.t.names
    .ok ⟨out, m⟩
  else do
    let l ← nameIndex x.t.names LENGTH
    if dim = l then
      match index with
      | .zero _ => .error .indexError
      | .vec is => do
        let m ← x.md.index2 junk (.slice {}) (.list is)
        let out ← out.rename x.t.names
        .ok ⟨out, m⟩
    else do
      let out ← out.rename x.t.names
      .ok ⟨out, x.md⟩

/-- `StreamTensor.drop_empty`, tensor.py:887-896; `none` is Python's `None`. `lengths.nonzero().squeeze()` is 0-d when exactly one length
is not zero. -/
def dropEmpty (junk : Int) (x : STen α) : Py (Option (STen α)) := do
  let mn ← x.md.minLength
  if mn > 0 then .ok (some x)
  else do
    let mx ← x.md.maxLength
    if mx = 0 then .ok none
    else if x.md.size = 1 ∧ mx > 0 then .ok (some x)
    else do
      let b ← nameIndex x.t.names BATCH
      let r ← indexSelect junk x b (nonzeroIdx x.md.lengths)
      .ok (some r)
where
  /-- `lengths.nonzero().squeeze()` -/
  nonzeroIdx (ls : List Int) : IdxT :=
    match nonzeroFrom 0 (ls.map fun l => decide (l ≠ 0)) with
    | [i] => .zero i
    | is => .vec is

/-- The entries of an index's shape that decide the metadata of `gather`, overrides.py:636-655: `None` if the index has the tensor's
size on the axis or there is no such axis, else the leading slice. -/
def leadSlice (x : STen α) (index : Ten Nat) (name : Option String) : Option Slice :=
  if name ∈ x.t.names then
    let a := x.t.names.idxOf name
    if index.shape.getD a 0 = x.t.shape.getD a 0 then none else some { stop := some (index.shape.getD a 0 : Nat) }
  else none

/-- As a batch index. -/
def bOf : Option Slice → BIx
  | none => .none
  | some s => .slice s
/-- As a length index. -/
def lOf : Option Slice → LIx
  | none => .none
  | some s => .slice s

/-- The end of `_gather_and_take_along_dim`, overrides.py:629-661, on the result `out` of the torch function. -/
def gatherFinish (junk : Int) (x : STen α) (dim : Int) (index : Ten Nat) (out : Ten α) : Py (STen α) := do
  let nm ← pyGet x.t.names dim
  if nm = LENGTH ∨ nm = BATCH then .error .indexError
  else do
    let out ← out.rename x.t.names
    let m ← x.md.index2 junk (bOf (leadSlice x index BATCH)) (lOf (leadSlice x index LENGTH))
    .ok ⟨out, m⟩

/-- `gather`, overrides.py:592-601. -/
def gather (junk : Int) (x : STen α) (dim : Int) (index : Ten Nat) : Py (STen α) := do
  let out ← gatherTen x.t.unnamed dim index
  gatherFinish junk x dim index out

/-- `take_along_dim`, overrides.py:604-615. -/
def takeAlongDim (junk : Int) (x : STen α) (dim : Int) (index : Ten Nat) : Py (STen α) := do
  let out ← takeAlongTen x.t.unnamed dim index
  gatherFinish junk x dim index out

/-- `"_".join(names)`: TypeError if one of them is `None`. -/
def joinNames (names : List (Option String)) : Py String :=
  match names.mapM id with
  | some ns => .ok ("_".intercalate ns)
  | none => .error .typeError

/-- `flatten`, overrides.py:810-823. -/
def flatten (x : STen α) (s e : Int) : Py (Opd α) := do
  let out ← x.t.unnamed.flatten s e
  let affected ← pySlice x.t.names { start := some s, stop := some (e + 1) }
  if BATCH ∈ affected ∨ LENGTH ∈ affected then .ok (.plain out)
  else do
    let joined ← joinNames affected
    let pre ← pySlice x.t.names { stop := some s }
    let post ← pySlice x.t.names { start := some (e + 1) }
    let out ← out.rename (pre ++ [some joined] ++ post)
    .ok (.stream ⟨out, x.md⟩)

/-- `del names[dim]` of a Python list. -/
def pyDel {β : Type} (xs : List β) (i : Int) : Py (List β) :=
  let j := if i < 0 then i + xs.length else i
  if 0 ≤ j ∧ j < xs.length then .ok (xs.eraseIdx j.toNat) else .error .indexError

/-- The names of the axes of size 1, overrides.py:840. -/
def singletonNames : List (Option String) → List Nat → List (Option String)
  | n :: ns, s :: ss => if s = 1 then n :: singletonNames ns ss else singletonNames ns ss
  | _, _ => []

/-- `squeeze(dim)`, overrides.py:826-848, with an axis. -/
def squeezeDim (x : STen α) (dim : Int) : Py (STen α) := do
  let out ← x.t.unnamed.squeezeAt dim
  let size ← pyGet x.t.shape dim
  let names ← if size = 1 then pyDel x.t.names dim else .ok x.t.names
  let out ← out.rename names
  .ok ⟨out, x.md⟩

/-- `squeeze()`, overrides.py:826-848, without an axis. -/
def squeezeNone (x : STen α) : Py (STen α) := do
  let names := x.t.names.filter fun n => !((singletonNames x.t.names x.t.shape).contains n)
  let out ← x.t.unnamed.squeezeAll.rename names
  .ok ⟨out, x.md⟩

/-- `names.insert(dim, None)` of a Python list: a negative position counts from the end of the old list, then clamps. -/
def pyInsert {β : Type} (xs : List β) (i : Int) (x : β) : List β :=
  let j := if i < 0 then max 0 (i + xs.length) else min i xs.length
  xs.insertIdx j.toNat x

/-- `unqsqueeze`, overrides.py:851-859. -/
def unsqueeze (x : STen α) (dim : Int) : Py (STen α) := do
  let out ← x.t.unnamed.unsqueeze dim
  let out ← out.rename (pyInsert x.t.names dim none)
  .ok ⟨out, x.md⟩

/-- `all(meta == metas[0] for meta in metas)`: stops at the first difference. -/
def allEq (m0 : Meta) : List Meta → Py Bool
  | [] => .ok true
  | m :: ms => do
    let b ← eqMeta m m0
    if b then allEq m0 ms else .ok false

/-- `scatter_add` / `scatter_reduce`, overrides.py:736-763, 771-800. The torch function is a parameter: `res` is what it returns on the decoupled
arguments; `args` are the StreamTensors among `input, index, src, out`, in that order (the override is reached only if there is
one; without any `names[0]` raises IndexError). -/
def scatter (args : List (STen α)) (dim : Int) (res : Py (Ten α)) : Py (Opd α) := do
  let out ← res
  match args with
  | [] => .error .indexError
  | x :: _ => do
    let b ← nameIndex x.t.names BATCH
    if dim = b then .ok (.plain out)
    else do
      let l ← nameIndex x.t.names LENGTH
      if dim = l then .ok (.plain out)
      else do
        let same ← allEq x.md (args.map (·.md))
        if same then do
          let out ← out.rename x.t.names
          .ok (.stream ⟨out, x.md⟩)
        else .ok (.plain out)

/-- `recouple`, tensor.py:1042-1050. `res` is what the torch function returns on the decoupled arguments, `args` the
StreamTensor arguments (without any, `meta_list[0]` raises IndexError after the call). -/
def recouple (args : List (STen α)) (res : Py (Ten α)) : Py (STen α) :=
  match args with
  | [] => do
    let _ ← res
    .error .indexError
  | x :: xs => do
    let same ← allEq x.md (xs.map (·.md))
    if same && xs.all (fun y => decide (y.t.names = x.t.names)) then do
      let out ← res
      let out ← out.rename x.t.names
      .ok ⟨out, x.md⟩
    else .error .runtimeError

/-- `default_valid`, tensor.py:816-836, for a torch function that returns a tensor; `res` has the names torch gives it. -/
def defaultValid (args : List (STen α)) (res : Py (Ten α)) : Py (STen α) := do
  let out ← res
  match args with
  | [] => .error .indexError
  | x :: xs => do
    let same ← allEq x.md (xs.map (·.md))
    if same then .ok ⟨out, x.md⟩ else .error .runtimeError

/-- `torch.transpose(x, i, j)`: in `RECOUPLE_FUNCTIONS` (func_coverage.py:97), which is consulted before the default-valid functions
(tensor.py:801). -/
def torchTranspose (x : STen α) (i j : Int) : Py (STen α) := recouple [x] (x.t.unnamed.transpose i j)

/-- `torch.adjoint(x)` of real data: the last two axes change places; recoupled (func_coverage.py:94). RuntimeError with fewer than two axes. -/
def torchAdjoint (x : STen α) : Py (STen α) :=
  recouple [x] (if x.t.ndim < 2 then .error .runtimeError else x.t.unnamed.transpose (-2) (-1))

/-- `x.transpose(i, j)`: default-valid (func_coverage.py:63). -/
def tensorTranspose (x : STen α) (i j : Int) : Py (STen α) := defaultValid [x] (x.t.transpose i j)

/-- `unpad_sequence`, tensor.py:902-908. `lengths.item()` of a row's metadata: RuntimeError unless there is exactly one. -/
def unpadSequence (junk : Int) (x : STen α) : Py (List (STen α)) := do
  let b ← nameIndex x.t.names BATCH
  let l ← nameIndex x.t.names LENGTH
  let l' := if b < l then l - 1 else l
  let rows ← unbind x b
  rows.mapM (unpadRow l')
where
  /-- one row, 908 -/
  unpadRow (l' : Nat) (r : STen α) : Py (STen α) :=
    match r.md.lengths with
    | [n] => narrow junk r l' 0 n
    | _ => .error .runtimeError

end

/-- The tables of func_coverage.py in the order in which `__torch_function__` consults them, tensor.py:792-814. -/
inductive Category where
  | valid | customized | decouple | recouple | inplaceRecouple | defaultValid
  deriving DecidableEq, Repr

/-- The keyword arguments that the underlying function (torch function or override) receives, tensor.py:789-814, 1035-1056, where `dec` removes
names and metadata of a value: unchanged for overrides and default-valid functions, values decoupled for the three (re)coupled categories, and
none at all for valid functions (793). -/
def passedKwargs {V : Type} (dec : V → V) (kw : List (String × V)) : Category → List (String × V)
  | .valid => []
  | .customized => kw
  | .defaultValid => kw
  | .decouple => kw.map fun p => (p.1, dec p.2)
  | .recouple => kw.map fun p => (p.1, dec p.2)
  | .inplaceRecouple => kw.map fun p => (p.1, dec p.2)

/-- `sequence_mask`, utils/operations.py:8-43, for integer lengths: the rows of the mask. `max_len or ceil(max)`: `None` and 0 both mean the largest
length. -/
def sequenceMask (lens : List Int) (maxLen : Option Int) (invert : Bool) : Py (List (List Bool)) := do
  let T ← match maxLen with
    | none => torchMax lens
    | some m => if m = 0 then torchMax lens else .ok m
  if T < 0 then .error .runtimeError
  else .ok (lens.map fun l => (List.range T.toNat).map fun (j : Nat) => if invert then decide ((j : Int) ≥ l) else decide ((j : Int) < l))

end DS.Tn
