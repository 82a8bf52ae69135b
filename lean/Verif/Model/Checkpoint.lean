import Verif.Model.ConvMem
/-!
# Model of checkpoints of patched models

`patch_conv_1d` makes `stream_buffer` a plain dict (dreamstream/patches/conv.py:63-64), which is neither a parameter nor a buffer in the sense of torch: `state_dict()` does not contain it, and
`load_state_dict()` does not touch it. Simplification: a layer stands for its parameters, so saving keeps the layers and loading takes them over; shapes fit.
-/

namespace DS.Conv

variable {α : Type} [Zero α]

/-- `model.state_dict()`: the parameters, patches/conv.py:63-64. -/
def stateDict (s : List (Layer α × Buf α)) : List (Layer α) := s.map (·.1)

/-- `model.load_state_dict(saved)`: the parameters that were saved, the stream buffers that the model has, patches/conv.py:63-64. -/
def loadState (saved : List (Layer α)) (s : List (Layer α × Buf α)) : List (Layer α × Buf α) := List.zipWith (fun l a => (l, a.2)) saved s

/-- A model that was just patched: empty stream buffers, patches/conv.py:64. -/
def patched (ls : List (Layer α)) : List (Layer α × Buf α) := ls.map fun l => (l, fun _ => none)

end DS.Conv
