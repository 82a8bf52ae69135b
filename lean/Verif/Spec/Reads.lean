import Verif.Model.Reads
/-!
# Specification vocabulary: what is seen while a dataset is iterated
-/

namespace DS.Data

section
variable {α : Type}

/-- The files loaded, in order. -/
def loaded (t : List (Obs α)) : List String := t.filterMap fun | .loads x => some x | _ => none

/-- The batches yielded, in order. -/
def yielded (t : List (Obs α)) : List (List (Sample α)) := t.filterMap fun | .yields b => some b | _ => none

/-- The exceptions raised. -/
def raised (t : List (Obs α)) : List PyErr := t.filterMap fun | .raises e => some e | _ => none

end
end DS.Data
