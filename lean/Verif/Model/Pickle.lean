import Verif.Model.Lazy
import Verif.Model.Tensor
import Verif.Model.Heap
/-!
# Model of copying and pickling (dreamstream/tensor.py:35-93, 299-308, 767-773)

Python's `pickle` is described as far as it touches the methods of the library; the byte stream itself is left out.
-/

namespace DS.Pickle

open DS.Lazy

/-- What `pickle.dumps(meta)` writes for a `LazyProxy`: its `__dict__` (39-42). The wrapped object is written as a `StreamMetadata` of its own. -/
structure Dump where
  args : Args
  obj : Option Slots
  deriving DecidableEq, Repr

/-- `pickle.dumps(meta)`. Up to Python 3.10 (`old`) pickle asks the object for `__getstate__`, which `LazyProxy.__getattr__`, tensor.py:44-48, answers by running the constructor and looking at the wrapped
object (which has none); an error of the constructor comes through. Since 3.11 every object has the method. -/
def dumps (old : Bool) (p : Proxy) : Py Dump :=
  if old then
    match initObj p with
    | (_, .error e) => .error e
    | (p, .ok _) => .ok ⟨p.args, p.obj⟩
  else .ok ⟨p.args, p.obj⟩

/-- `StreamMetadata()`, as `pickle` calls `__new__`, tensor.py:93-94: a `LazyProxy` without arguments. Looking up `__setstate__` on it runs the constructor, which lacks its
arguments: TypeError (tensor.py:45-46, 83-86). -/
def loadObj : Slots → Py Slots := fun _ => .error .typeError

/-- `pickle.loads`. The contents of `__dict__` are loaded first, among them the wrapped object. Then `__setstate__` is looked up on a new `LazyProxy` whose `__dict__` is still empty: `__getattr__` raises
KeyError (tensor.py:45). -/
def loads (d : Dump) : Py Proxy :=
  match d.obj with
  | some s => do
    let _ ← loadObj s
    .error .keyError
  | none => .error .keyError

/-- `pickle.loads(pickle.dumps(meta))`. -/
def metaTrip (old : Bool) (p : Proxy) : Py Proxy := do
  let d ← dumps old p
  loads d

/-- `pickle.dumps(x)` of a StreamTensor with metadata, tensor.py:767-773 with `torch.Tensor.__reduce_ex__` (trusted description of torch 2). Torch refuses tensors with names (RuntimeError). Otherwise the call goes through
`default_valid`, tensor.py:816-836, whose first line makes every tensor in the returned tuple a StreamTensor; this includes the plain tensor that `__getstate__` gave (769), now a StreamTensor without `meta`, and its own
`__getstate__` raises AttributeError (912). -/
def dumpsTensor {α : Type} (x : Tn.STen α) : Py Unit :=
  if x.t.names.any Option.isSome then .error .runtimeError else .error .attributeError

end DS.Pickle

namespace DS.Heap

/-- `copy.copy(meta)`, tensor.py:60-64, 299-308, of an object that has been used: a lazy object over the same `sos`, `eos` and `lengths`; `chunk_indices` is not passed on (306). The wrapped object keeps its
values in slots, so its `__dict__` is empty and 307 changes nothing. -/
def copy (o : Obj) : Proxy := .pending false (fun | .chunk => ⟨(o .chunk).cell, []⟩ | c => o c)

end DS.Heap
