import Verif.Model.ConvMem
/-!
# Model of a residual connection around a patched convolution: `conv(x) + x`

The result of the convolution is added to its input (`+` stands for any elementwise function `f` among `DEFAULT_VALID_FUNCTIONS`, func_coverage.py:60-77). Frames have the same type before and after the
convolution (equal numbers of channels). Both tensors have the same rows, so only the widths have to be broadcast.
-/

namespace DS.Conv
section
variable {α : Type} [Zero α]

/-- `f(y, x)` of two StreamTensors of shape (batch, channels, length) with equal numbers of rows: torch's function first (RuntimeError if the widths cannot be broadcast), then the
comparison of the metadata, `default_valid`, tensor.py:816-836. The result has the metadata object of the first. -/
def addST (f : α → α → α) (y x : ST α) : Py (ST α) :=
  if y.width = x.width ∨ y.width = 1 ∨ x.width = 1 then do
    let w := if y.width = 1 then x.width else y.width
    let same ← Meta.eqMeta x.md y.md
    if same then
      .ok { md := y.md, width := w,
            rows := List.zipWith (fun r s => (List.range w).map fun j => f (r.getD (if y.width = 1 then 0 else j) 0) (s.getD (if x.width = 1 then 0 else j) 0)) y.rows x.rows }
    else .error .runtimeError
  else .error .runtimeError

/-- `conv(x) + x` for a patched online `Conv1d`: the call leaves metadata (`Out.caller`) and frames (`forwardRowsAfter`) of `x` as in `Model/Conv`, `Model/ConvMem`. -/
def resStep (c : Cfg) (g : List α → α) (f : α → α → α) (buf : Buf α) (x : ST α) : Py (ST α × Buf α) := do
  let o ← forward c g buf x
  let z ← addST f o.y { md := o.caller, width := x.width, rows := forwardRowsAfter c x }
  .ok (z, o.buf)

/-- A sequence of calls of the block, threading `stream_buffer`. -/
def resRun (c : Cfg) (g : List α → α) (f : α → α → α) (buf : Buf α) : List (ST α) → Py (List (ST α) × Buf α)
  | [] => .ok ([], buf)
  | x :: xs => do
    let (z, b) ← resStep c g f buf x
    let (zs, b') ← resRun c g f b xs
    .ok (z :: zs, b')

end
end DS.Conv
