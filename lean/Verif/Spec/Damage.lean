import Verif.Model.Conv
import Verif.Spec.Conv
/-!
# Which outputs some frames of the input reach
-/

namespace DS.Conv

section
variable {α : Type}

/-- Sequences of the same length, equal but for the frames from `p` up to `q`. -/
def SameOutside (p q : Nat) (x y : List α) : Prop := x.length = y.length ∧ ∀ k, k < p ∨ q ≤ k → x[k]? = y[k]?

/-- `n / s`, rounded up. -/
def up (n s : Nat) : Nat := (n + s - 1) / s

/-- The first output of a stack that can depend on frame `p` of the input: output `k` of a convolution sees the frames from `k * stride - padding` on, as many as the kernel spans. -/
def firstReached : List (Layer α) → Nat → Nat
  | [], p => p
  | .conv c _ :: ls, p => firstReached ls (up (p + c.padding + 1 - span c) c.stride)
  | .act _ :: ls, p => firstReached ls p

/-- The first output of a stack that sees nothing of the frames before `q`, nor does any output after it. -/
def pastReached : List (Layer α) → Nat → Nat
  | [], q => q
  | .conv c _ :: ls, q => pastReached ls (up (q + c.padding) c.stride)
  | .act _ :: ls, q => pastReached ls q

/-- How many outputs of a stack `w` neighbouring frames can reach. -/
def reachCount : List (Layer α) → Nat → Nat
  | [], w => w
  | .conv c _ :: ls, w => reachCount ls (up (w + span c - 1) c.stride)
  | .act _ :: ls, w => reachCount ls w

end
end DS.Conv
