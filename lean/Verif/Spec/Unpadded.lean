import Verif.Spec.Conv
/-!
# Specification vocabulary: streams in batches of any kind
-/

namespace DS.Conv
section
variable {α β : Type}

/-- The chunks of a stream of one sequence: only the first may be marked as start and only the last as end. -/
def Once (cs : List (Chunk α)) : Prop := ∀ p x q, cs = p ++ x :: q → (x.sos = true → p = []) ∧ (x.eos = true → q = [])

/-- `y` comes from `x`: the same stream, and no mark that `x` does not have. -/
def From (x : Chunk α) (y : Chunk β) : Prop := y.id = x.id ∧ (y.sos = true → x.sos = true) ∧ (y.eos = true → x.eos = true)

end
end DS.Conv
