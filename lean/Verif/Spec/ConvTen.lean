import Verif.Spec.Conv
import Verif.Spec.Tensor
import Verif.Model.ConvTen
/-!
# Specification vocabulary: named tensors with channels as batches of frames

Only the data types (`Kern`, `BufT`) come from the model.
-/

namespace DS.ConvT
open DS.Tn DS.Conv

section
variable {α : Type} [Zero α]

/-- Row `b` of a tensor with axes batch, channels, time: one frame per time step, which holds the entries of all `ch` channels (and 0 elsewhere, so that frames with different numbers of channels have one type). -/
def rowOf (ch w : Nat) (t : Ten α) (b : Nat) : List (Nat → α) := (List.range w).map fun j c => if c < ch then t.val [b, c, j] else 0

/-- All rows. -/
def rowsOf (n ch w : Nat) (t : Ten α) : List (List (Nat → α)) := (List.range n).map (rowOf ch w t)

/-- `x` has the axes (B, channels, L), in this order, with `ch` channels and one row of metadata per sequence. -/
structure BCL (ch : Nat) (x : STen α) : Prop where
  names : ∃ f, x.t.names = [BATCH, f, LENGTH] ∧ f ≠ BATCH ∧ f ≠ LENGTH ∧ f ≠ some ""
  shape : ∃ w, x.t.shape = [x.md.ids.length, ch, w]
  mdwf : x.md.WF

/-- Such a tensor as a batch of frames. -/
def asBatch (ch : Nat) (x : STen α) : ST (Nat → α) :=
  { md := x.md, width := x.t.shape.getD 2 0, rows := rowsOf x.md.ids.length ch (x.t.shape.getD 2 0) x.t }

/-- A tensor with axes channels, time as a list of frames. -/
def asFrames (ch : Nat) (t : Ten α) : List (Nat → α) := (List.range (t.shape.getD 1 0)).map fun j c => if c < ch then t.val [c, j] else 0

end

section
variable {α : Type} [AddCommMonoid α] [Mul α]

/-- The weighted sum of a `Conv1d` on the frames under the kernel: in output channel `o` the bias, plus the weight times the entry for each of the `k.ins` input channels that belong to `o` and each frame. -/
def Kern.frames (k : Kern α) (ws : List (Nat → α)) : Nat → α := fun o =>
  if o < k.outs then
    k.bias o + ((List.range k.ins).map fun c => ((List.range ws.length).map fun i => k.weight o c i * ws.getD i 0 (o / (k.outs / k.groups) * k.ins + c)).sum).sum
  else 0

/-- A layer that torch accepts for inputs with `ch` channels. -/
def Kern.Fits (k : Kern α) (ch : Nat) : Prop := ch = k.ins * k.groups ∧ 1 ≤ k.groups ∧ k.outs % k.groups = 0

/-- The `stream_buffer` holds tensors with axes channels, time, and shows the frames of `buf`. -/
def Shows (ch : Nat) (b : BufT α) (buf : Buf (Nat → α)) : Prop :=
  (∀ i t, b i = some t → ∃ w, t.shape = [ch, w] ∧ t.names = [none, none]) ∧ ∀ i, buf i = (b i).map (asFrames ch)

end
end DS.ConvT
