import Verif.Model.CollectorDict
import Verif.Spec.Collector
/-!
# Specification vocabulary: programs that collect outputs and take them out
-/

namespace DS.Coll
open Meta Conv

section
variable {α : Type} [Zero α]

/-- All that the program collects are chunks. -/
def Chunks (as : List (Act α)) : Prop := ∀ e, Act.collect e ∈ as → ∃ c, IsChunk e c

/-- The program has collected, or tried to, a chunk of the stream `i` that is marked as its end. -/
def Ended (as : List (Act α)) (i : String) : Prop := ∃ e c, Act.collect e ∈ as ∧ IsChunk e c ∧ c.id = i ∧ c.eos = true

/-- Nothing is held for `i`: `i` was taken out, or nothing was ever collected, and no chunk of `i` came since. -/
def Absent (as : List (Act α)) (i : String) : Prop :=
  ∃ as₁ as₂, as = as₁ ++ as₂ ∧ (as₁ = [] ∨ ∃ as₀, as₁ = as₀ ++ [.clear] ∨ as₁ = as₀ ++ [.pop i]) ∧ ∀ e c, Act.collect e ∈ as₂ → IsChunk e c → c.id ≠ i

end

end DS.Coll
