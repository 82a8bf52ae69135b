import Verif.Model.CollectOrder
import Verif.Spec.Collector
/-!
# Specification vocabulary: the order of the outputs in a collector
-/

namespace DS.Coll
open Meta Conv

/-- The elements of a list that are not in `seen`, each once, in the order of their first occurrences. -/
def firstsFrom (seen : List String) : List String → List String
  | [] => []
  | x :: xs => if x ∈ seen then firstsFrom seen xs else x :: firstsFrom (x :: seen) xs

/-- The elements of a list, each once, in the order of their first occurrences. -/
def firsts (l : List String) : List String := firstsFrom [] l

/-- The collector with the order of its dictionary `o` and the one without `s` hold the same outputs and have closed the same ids; every id is listed once. -/
def SameColl {α : Type} (o : OColl α) (s : Coll α) : Prop :=
  o.keys.Nodup ∧ (∀ i, o.get i = s.entries i) ∧ ∀ i, i ∈ o.closed ↔ s.closed i = true

end DS.Coll
