import Verif.Model.ConvStack
import Verif.Spec.ConvTen
/-!
# Specification vocabulary: stacks of layers on named tensors as stacks of layers on frames
-/

namespace DS.ConvT
open DS.Tn DS.Conv

section
variable {α : Type} [AddCommMonoid α] [Mul α]

/-- The number of channels after a layer. -/
def LayerT.outs (ch : Nat) : LayerT α → Nat
  | .conv k _ => k.outs
  | .act _ => ch
  | .chan _ => ch

/-- The number of channels after a stack. -/
def outsAll (ch : Nat) : List (LayerT α) → Nat
  | [] => ch
  | l :: ls => outsAll (l.outs ch) ls

/-- The layer as a function of frames with `ch` channels. -/
def LayerT.frames (ch : Nat) : LayerT α → Layer (Nat → α)
  | .conv k c => .conv c k.frames
  | .act f => .act fun v o => if o < ch then f (v o) else 0
  | .chan f => .act fun v o => if o < ch then f ((List.range ch).map v) o else 0

/-- The stack on frames. -/
def framesAll (ch : Nat) : List (LayerT α) → List (Layer (Nat → α))
  | [] => []
  | l :: ls => l.frames ch :: framesAll (l.outs ch) ls

/-- The numbers of channels fit: torch accepts every layer for the channels that come in. -/
def FitsAll (ch : Nat) : List (LayerT α) → Prop
  | [] => True
  | .conv k c :: ls => k.Fits ch ∧ FitsAll k.outs ls
  | .act _ :: ls => FitsAll ch ls
  | .chan _ :: ls => FitsAll ch ls

/-- Every `stream_buffer` of the stack shows the frames of the corresponding buffer. -/
def ShowsAll (ch : Nat) : List (LayerT α × BufT α) → List (Layer (Nat → α) × Buf (Nat → α)) → Prop
  | [], [] => True
  | (l, b) :: s, (l', b') :: s' => l' = l.frames ch ∧ Shows ch b b' ∧ ShowsAll (l.outs ch) s s'
  | _, _ => False

end
end DS.ConvT
