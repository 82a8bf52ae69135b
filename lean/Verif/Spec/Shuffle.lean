import Verif.Spec.Data
/-!
# Which files can meet
-/

namespace DS.Data

section
variable {α : Type}

/-- Both files are in the first batch. -/
def Together (x y : String) (out : List (List (Sample α))) : Prop := ∃ b rest, out = b :: rest ∧ x ∈ b.map Sample.id ∧ y ∈ b.map Sample.id

/-- `orders` gives every worker its files in some order. -/
def Shuffles (orders : List (List String) → List (List String)) : Prop := ∀ ls, List.Forall₂ List.Perm (orders ls) ls

end
end DS.Data
