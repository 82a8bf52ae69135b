import Verif.Spec.Conv
import Verif.Model.Conv
/-!
# Batches without sequences
-/

namespace DS.Conv

section
variable {α : Type}

/-- A StreamTensor of shape `(0, C, T)`. -/
def NoRows (x : ST α) : Prop := x.rows = [] ∧ x.md.ids = [] ∧ x.md.sos = [] ∧ x.md.eos = [] ∧ x.md.lengths = []

/-- The width of an ordinary tensor of width `w` after the layers, if every kernel fits into what it is given. -/
def widthAfter : List (Layer α) → Nat → Option Nat
  | [], w => some w
  | .act _ :: ls, w => widthAfter ls w
  | .conv c _ :: ls, w => if span c ≤ w + 2 * c.padding then widthAfter ls (fits c (w + 2 * c.padding)).length else none

end
end DS.Conv
