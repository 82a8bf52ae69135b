import Verif.Model.ConvTen
import Verif.Model.Reduce
/-!
# Model of a patched sequential model on named tensors: convolutions with any numbers of channels, entrywise functions and functions along the channels

`patch` gives every `Conv1d` of a model its own `stream_buffer` (patches/general.py:12-28, patches/conv.py:60-73) and leaves `nn.Sequential`, `nn.ReLU`, `nn.LogSoftmax`, … as they are; these go through
`__torch_function__` (tensor.py:807-836). This is the form of the model of examples/wav2letter.py (torchaudio's `Wav2Letter`: `Conv1d` and `ReLU` in turn, then `log_softmax(dim=1)`). Functions that work in place are taken as
functions that return a new tensor.
-/

namespace DS.ConvT
open DS.Tn DS.Conv

section
variable {α : Type} [AddCommMonoid α] [Mul α]

/-- A layer: an online `Conv1d`, a function of each entry (such as `relu`), or a function along axis 1 (such as `log_softmax(x, dim=1)`). -/
inductive LayerT (α : Type) where
  | conv (k : Kern α) (c : Cfg)
  | act (f : α → α)
  | chan (f : List α → Nat → α)

/-- An entrywise torch function (trusted description): shape and names are kept. -/
def mapTen (f : α → α) (t : Ten α) : Ten α := { t with val := fun ix => f (t.val ix) }

/-- One layer on one batch: the hooks and `overrides.conv1d` (Model/ConvTen), or `default_valid` (tensor.py:816-836). -/
def LayerT.step (l : LayerT α) (buf : BufT α) (x : STen α) : Py (STen α × BufT α) :=
  match l with
  | .conv k c => forwardT k c buf x
  | .act f => (defaultValid [x] (.ok (mapTen f x.t))).map fun y => (y, buf)
  | .chan f => (alongStream f x 1).map fun y => (y, buf)

/-- The stack on one batch (torch.nn.Sequential.forward), each layer with its `stream_buffer`. -/
def chainStepT : List (LayerT α × BufT α) → STen α → Py (STen α × List (LayerT α × BufT α))
  | [], x => .ok (x, [])
  | (l, b) :: s, x => do
    let (y, b') ← l.step b x
    let (z, s') ← chainStepT s y
    .ok (z, (l, b') :: s')

/-- A sequence of calls. -/
def chainRunT (s : List (LayerT α × BufT α)) : List (STen α) → Py (List (STen α) × List (LayerT α × BufT α))
  | [] => .ok ([], s)
  | x :: xs => do
    let (y, s') ← chainStepT s x
    let (ys, s'') ← chainRunT s' xs
    .ok (y :: ys, s'')

/-- A freshly patched stack: `stream_buffer = {}`, patches/conv.py:67. -/
def freshT (ls : List (LayerT α)) : List (LayerT α × BufT α) := ls.map fun l => (l, fun _ => none)

/-- One layer of the ordinary model on an ordinary tensor (torch; examples/wav2letter.py:36). -/
def LayerT.whole (l : LayerT α) (t : Ten α) : Py (Ten α) :=
  match l with
  | .conv k c => torchConv k c c.padding t
  | .act f => .ok (mapTen f t)
  | .chan f => alongTen f t 1

/-- The ordinary model on an ordinary tensor. -/
def wholeT : List (LayerT α) → Ten α → Py (Ten α)
  | [], t => .ok t
  | l :: ls, t => do
    let y ← l.whole t
    wholeT ls y

end
end DS.ConvT
