import Verif.Spec.Conv
/-! Terms for C230. -/

namespace DS.Conv
section
variable {α : Type}

/-- Every stream that is open after a batch is in the next batch. -/
def Unbroken (xs : List (ST α)) : Prop :=
  ∀ pre x y post, xs = pre ++ x :: y :: post → ∀ i ∈ x.md.ids, (i, true) ∉ x.md.ids.zip x.md.eos → i ∈ y.md.ids

end
end DS.Conv
