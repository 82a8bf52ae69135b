import Verif.Model.Conv
/-!
# Model of online convolution where the padding is zeroed by multiplication (dreamstream/overrides.py:193-256)

`Model/Conv` puts zeros where the mask is False. The code multiplies with the mask, and in floating point numbers infinity times 0 is NaN. Here `z` is multiplication by 0 (`fun _ => 0` gives back `Model/Conv`);
multiplication by 1 changes nothing. Everything else is as in `Model/Conv`.
-/

namespace DS.Conv

section
variable {α β : Type} [Zero α]

/-- `output *= mask.unsqueeze(1)` for one row, overrides.py:254-255, utils/operations.py:34-43. -/
def maskRowZ (z : β → β) (l : Int) (r : List β) : List β := r.mapIdx fun j y => if (j : Int) < l then y else z y

/-- `overrides.conv1d`, overrides.py:193-256. -/
def conv1dZ (z : β → β) (c : Cfg) (g : List α → β) (x : ST α) : Py (ST β × List (String × List α)) := do
  let (m, p, w, rows) ← applyPadding c x
  let outs := m.lengths.map (outLen c)
  let buffer := tempBuffer c m rows
  let (n, ys) ← torchConv1d c g p w rows
  .ok ({ md := { m with lengths := outs }, width := n, rows := List.zipWith (maskRowZ z) outs ys }, buffer)

/-- One call of a patched online `Conv1d`, patches/conv.py:13-73. -/
def forwardZ (z : β → β) (c : Cfg) (g : List α → β) (buf : Buf α) (x : ST α) : Py (Out α β) := do
  let (x', shared) ← preHook c buf x
  let (y, items) ← conv1dZ z c g x'
  .ok { y, buf := postHook buf y.md items, caller := if shared then y.md else x.md }

/-- One layer on one batch, patches/conv.py:13-73, tensor.py:816-836. -/
def Layer.stepZ (z : α → α) (l : Layer α) (buf : Buf α) (x : ST α) : Py (ST α × Buf α) :=
  match l with
  | .conv c g => (forwardZ z c g buf x).map fun o => (o.y, o.buf)
  | .act f => .ok ({ x with rows := x.rows.map (·.map f) }, buf)

/-- A stack of layers on one batch (torch.nn.Sequential.forward; each layer as in patches/conv.py:13-73). -/
def chainStepZ (z : α → α) : List (Layer α × Buf α) → ST α → Py (ST α × List (Layer α × Buf α))
  | [], x => .ok (x, [])
  | (l, b) :: s, x => do
    let (y, b') ← l.stepZ z b x
    let (v, s') ← chainStepZ z s y
    .ok (v, (l, b') :: s')

/-- A sequence of calls of the stack (examples/wav2letter.py:56-58). -/
def chainRunZ (z : α → α) (s : List (Layer α × Buf α)) : List (ST α) → Py (List (ST α) × List (Layer α × Buf α))
  | [] => .ok ([], s)
  | x :: xs => do
    let (y, s') ← chainStepZ z s x
    let (ys, s'') ← chainRunZ z s' xs
    .ok (y :: ys, s'')

end
end DS.Conv
