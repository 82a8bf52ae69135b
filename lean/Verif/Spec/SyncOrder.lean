import Verif.Spec.Data
/-!
# The order in which files start
-/

namespace DS.Data

section
variable {α : Type}

/-- The files in the order of their first chunks. -/
def starts (l : List (Sample α)) : List String := (l.filter fun s => s.sos).map Sample.id

end
end DS.Data
