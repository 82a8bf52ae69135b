import Verif.Model.Meta
/-!
# Model of storage sharing between metadata objects

Tensor storage is a heap of cells; a tensor is a reference to a cell together with the positions it shows (a slice of a
tensor is a *view* of the same cell, tensor indexing by list, int list or mask copies). Bool columns hold 0/1.
Metadata objects are created lazily (`LazyProxy`, tensor.py:35-87): a proxy keeps the constructor arguments until the first
use. The list `ids` is not modelled (it is never written by the library). An object without chunk indices has an empty `chunk` view.
-/

namespace DS.Heap

/-- A tensor: which cell, and which positions of it, in order. -/
structure Ref where
  cell : Nat
  pos : List Nat
  deriving DecidableEq, Repr

/-- Tensor storage: contents per cell, and the first unused cell. -/
structure Mem where
  data : Nat → List Int
  next : Nat

/-- The tensor columns of a metadata object. -/
inductive Col where
  | sos | eos | lengths | chunk
  deriving DecidableEq, Repr

/-- The tensor-valued slots of a metadata object. -/
abbrev Obj := Col → Ref

/-- Values shown by a tensor. -/
def Mem.read (h : Mem) (r : Ref) : List Int := r.pos.map fun p => ((h.data r.cell)[p]?).getD 0

/-- A new tensor with its own storage. -/
def Mem.alloc (h : Mem) (v : List Int) : Mem × Ref :=
  (⟨fun c => if c = h.next then v else h.data c, h.next + 1⟩, ⟨h.next, List.range v.length⟩)

/-- In-place element write `t[k] = v`; a write out of range raises and changes nothing. -/
def Mem.write (h : Mem) (r : Ref) (k : Nat) (v : Int) : Mem :=
  match r.pos[k]? with
  | some p => ⟨fun c => if c = r.cell then (h.data c).set p v else h.data c, h.next⟩
  | none => h

/-- A lazily created object: `forced` has run its constructor, `pending copy` still holds the constructor arguments, with
the `_copy_on_init` flag (tensor.py:126, 146-152, 310-319). -/
inductive Proxy where
  | forced (o : Obj)
  | pending (copy : Bool) (o : Obj)

/-- The tensors a proxy holds. -/
def Proxy.obj : Proxy → Obj
  | .forced o => o
  | .pending _ o => o

/-- `_copy_on_init`, tensor.py:146-152: `sos`, `eos` and `lengths` are cloned, `chunk_indices` (161) is not. -/
def copyOnInit (h : Mem) (o : Obj) : Mem × Obj :=
  let (h, s) := h.alloc (h.read (o .sos))
  let (h, e) := h.alloc (h.read (o .eos))
  let (h, l) := h.alloc (h.read (o .lengths))
  (h, fun | .sos => s | .eos => e | .lengths => l | .chunk => o .chunk)

/-- First use of a proxy: run the constructor (tensor.py:83-86, 119-178; `as_tensor` shares storage). -/
def force (h : Mem) : Proxy → Mem × Obj
  | .forced o => (h, o)
  | .pending true o => copyOnInit h o
  | .pending false o => (h, o)

/-- `clone` / `__deepcopy__`, tensor.py:310-319, 712-714, of a forced object: a lazy proxy over the *same* tensors. -/
def clone (o : Obj) : Proxy := .pending true o

/-- Two metadata objects over one heap. -/
structure State where
  mem : Mem
  a : Proxy
  b : Proxy

/-- Uses of a metadata object: read a column, write an element of a column in place, assign a new tensor to a column. -/
inductive Act where
  | read (c : Col)
  | write (c : Col) (k : Nat) (v : Int)
  | assign (c : Col) (v : List Int)

/-- Effect of a use on the heap and on the (forced) object used. -/
def act (h : Mem) (o : Obj) : Act → Mem × Obj
  | .read _ => (h, o)
  | .write c k v => (h.write (o c) k v, o)
  | .assign c v =>
    let (h, r) := h.alloc v
    (h, fun x => if x = c then r else o x)

/-- One use of the first (`true`) or second (`false`) object; a use forces the proxy. -/
def step (s : State) (who : Bool) (x : Act) : State :=
  if who then
    let (h, o) := force s.mem s.a
    let (h, o) := act h o x
    { s with mem := h, a := .forced o }
  else
    let (h, o) := force s.mem s.b
    let (h, o) := act h o x
    { s with mem := h, b := .forced o }

/-- A history of uses of the two objects. -/
def run (s : State) (ops : List (Bool × Act)) : State := ops.foldl (fun s x => step s x.1 x.2) s

/-- What an object would report for a column if read now. -/
def State.report (s : State) (who : Bool) (c : Col) : List Int :=
  if who then s.mem.read (s.a.obj c) else s.mem.read (s.b.obj c)

/-- Indexing of one column tensor by a batch index, tensor.py:415-440: slices give views, everything else copies. -/
def indexCol (h : Mem) (r : Ref) : Meta.BIx → Py (Mem × Ref)
  | .slice s => do
    let p ← torchSlice r.pos s
    .ok (h, ⟨r.cell, p⟩)
  | .mask bs => do
    let p ← torchMask r.pos bs
    .ok (h.alloc (h.read ⟨r.cell, p⟩))
  | .int i => do
    let p ← pyGather r.pos [i]
    .ok (h.alloc (h.read ⟨r.cell, p⟩))
  | .list is => do
    let p ← pyGather r.pos is
    .ok (h.alloc (h.read ⟨r.cell, p⟩))
  | .ints is => do
    let p ← pyGather r.pos is
    .ok (h.alloc (h.read ⟨r.cell, p⟩))
  | .bools bs => do
    let p ← torchMask r.pos bs
    .ok (h.alloc (h.read ⟨r.cell, p⟩))
  | _ => .error .indexError

/-- `index_batch` of a forced object on the heap (tensor.py:404-440), for objects with chunk indices: `None` gives a clone, the other
kinds index the four columns and build a lazy object from the results. Tuples and 0-d or multi-axis tensors are not modelled here (error). -/
def indexBatch (h : Mem) (o : Obj) (ix : Meta.BIx) : Py (Mem × Proxy) :=
  if ix = .none then .ok (h, clone o)
  else do
    let (h, s) ← indexCol h (o .sos) ix
    let (h, e) ← indexCol h (o .eos) ix
    let (h, l) ← indexCol h (o .lengths) ix
    let (h, c) ← indexCol h (o .chunk) ix
    .ok (h, .pending false (fun | .sos => s | .eos => e | .lengths => l | .chunk => c))

end DS.Heap
