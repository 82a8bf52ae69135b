import Verif.Spec.Tensor
/-!
# Specification vocabulary: axes by their names
-/

namespace DS.Tn
variable {α : Type}

/-- The size of the axis with name `n`. -/
def Ten.along (t : Ten α) (n : String) : Option Nat := ((t.names.zip t.shape).find? fun p => p.1 == some n).map (·.2)

/-- If there is a batch axis it has one position per sequence, and if there is a length axis no sequence is longer than it. -/
def STen.Holds (x : STen α) : Prop :=
  (∀ s, x.t.along "B" = some s → s = x.md.ids.length) ∧ ∀ s, x.t.along "L" = some s → ∀ l ∈ x.md.lengths, l ≤ s

end DS.Tn
