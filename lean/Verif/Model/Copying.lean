import Verif.Model.Grad
import Verif.Model.Modes
/-!
# Model of copying, saving and moving a patched model (patches/modes.py:21-26, patches/conv.py:60-73)

`patch` keeps the state of a stream in a plain attribute (`module.stream_buffer = {}`, patches/conv.py:64) and binds `online` and `offline` to each module object (patches/modes.py:23-24).
What `copy.deepcopy`, `pickle` and `module.to` do with such attributes is described here; they are Python's and torch's and trusted.
-/

namespace DS.Grad

open Classical in
/-- `copy.deepcopy(model)` between two calls: it copies the tensors of every `stream_buffer` (patches/conv.py:64). Torch copies a tensor that does not require gradients, and refuses one that was computed
from parameters (RuntimeError: "Only Tensors created explicitly by the user (graph leaves) support the deepcopy protocol"). The bound methods (patches/modes.py:23-24) are copied with the object that they are bound
to, and the hooks are functions, which get the module as an argument (patches/conv.py:13, 45); so the copy has the state of the model.
Under `torch.no_grad()` no weights count as trained (`Layer.conv kw false`). -/
noncomputable def deepcopy (s : List (Layer × Buf)) : Py (List (Layer × Buf)) :=
  if ∃ l ∈ s, ∃ a n, l.2 a = some (some n) then .error .runtimeError else .ok s

end DS.Grad

namespace DS.Modes

variable {α : Type}

/-- What `pickle` writes of a model: make an object of its class without attributes; look up an attribute of an object; give an object its attributes. Numbers, strings, functions, parameters and
tensors are left out: reading them back does not look at module objects. -/
inductive Op where
  | new (i : Nat)
  | lookup (i : Nat) (name : String)
  | build (i : Nat)
  deriving DecidableEq, Repr

/-- A bound method is written as the call `getattr(object, name)` (`method.__reduce__`); `online` and `offline` are bound to the module itself, patches/modes.py:23-24. -/
def writeMethods (i : Nat) (n : Node α) : List Op := if n.methods then [.lookup i "online", .lookup i "offline"] else []

mutual
/-- `pickle.dumps(model)` (`torch.save(model)` does the same): an object that was written before is only referred to; otherwise the object is made, then its attributes are written, first its children
(`_modules`, made by `nn.Module.__init__`) and then what `patch` added (patches/modes.py:23-25), and at the end it gets them. `memo` are the objects written so far. -/
def dump (σ : Store α) : Tree → List Nat → List Op × List Nat
  | .node i cs, memo =>
    if i ∈ memo then ([], memo)
    else
      let a := dumpAll σ cs (i :: memo)
      (.new i :: (a.1 ++ writeMethods i (σ i) ++ [.build i]), a.2)
/-- The children, one after the other. -/
def dumpAll (σ : Store α) : List Tree → List Nat → List Op × List Nat
  | [], memo => ([], memo)
  | t :: ts, memo =>
    let a := dump σ t memo
    let b := dumpAll σ ts a.2
    (a.1 ++ b.1, b.2)
end

/-- `pickle.loads`: `built` are the objects that have their attributes. Looking up `online` on a module that has none raises AttributeError (`nn.Module.__getattr__`; the class does not define it). -/
def run : List Op → List Nat → Py (List Nat)
  | [], built => .ok built
  | .new _ :: ops, built => run ops built
  | .lookup i _ :: ops, built => if i ∈ built then run ops built else .error .attributeError
  | .build i :: ops, built => run ops (i :: built)

/-- `pickle.loads(pickle.dumps(model))`: the objects of the model that is read back. -/
def reload (t : Tree) (σ : Store α) : Py (List Nat) := run (dump σ t []).1 []

end DS.Modes
