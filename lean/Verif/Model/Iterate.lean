import Verif.Model.Overrides
/-!
# Model of iterating over a StreamTensor

`for row in x` calls `torch.Tensor.__iter__`, which is not dispatched to `__torch_function__` itself: it refuses tensors without axes and otherwise gives an iterator over `self.unbind(0)`, which is
dispatched (dreamstream/overrides.py:142-163). Simplification: the iterator is the list of its items.
-/

namespace DS.Tn

/-- `list(iter(x))`, i.e. `x.unbind(0)`, overrides.py:142-163. -/
def iter {α : Type} (x : STen α) : Py (List (STen α)) :=
  if x.t.shape = [] then .error .typeError else unbind x 0

end DS.Tn
