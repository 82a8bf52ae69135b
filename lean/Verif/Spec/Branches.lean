import Verif.Spec.ConvTen
/-!
# Specification vocabulary: parts of the channels of a frame, convolutions that keep lengths
-/

namespace DS.ConvT

section
variable {α : Type} [Zero α]

/-- The `n` channels of a frame from channel `s` on. -/
def chans (s n : Nat) (v : Nat → α) : Nat → α := fun c => if c < n then v (s + c) else 0

end

/-- A configuration with which an ordinary `Conv1d` keeps the length of every sequence. -/
def Cfg.Keeps (c : Conv.Cfg) : Prop := c.Valid ∧ c.stride = 1 ∧ Conv.span c = 2 * c.padding + 1

instance (c : Conv.Cfg) : Decidable (Cfg.Keeps c) := by unfold Cfg.Keeps; infer_instance

end DS.ConvT
