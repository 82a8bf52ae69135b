import Verif.Spec.Data
/-!
# What has been read
-/

namespace DS.Data

section
variable {α : Type}

/-- The last chunk of file `x` is among the batches `read`. -/
def ReadToEnd (x : String) (read : List (List (Sample α))) : Prop := ∃ t ∈ read.flatten, t.id = x ∧ t.eos = true

end
end DS.Data
