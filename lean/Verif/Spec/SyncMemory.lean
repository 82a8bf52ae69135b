import Verif.Spec.Data
/-!
# Streams whose files stay in consecutive batches
-/

namespace DS.Data

section
variable {α : Type}

/-- A file that is in a batch and does not end there is in the next batch, if there is one. -/
def Steady (stream : List (List (Sample α))) : Prop :=
  ∀ pre b b' post, stream = pre ++ b :: b' :: post → ∀ s ∈ b, s.eos = false → ∃ s' ∈ b', s'.id = s.id

end
end DS.Data
