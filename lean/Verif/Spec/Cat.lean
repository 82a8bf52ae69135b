import Verif.Spec.Length
/-!
# Specification vocabulary: concatenating and splitting metadata
-/

namespace DS

/-- A row without its chunk index. -/
def Row.noChunk (r : Row) : Row := { r with chunk := none }

namespace Meta

/-- All rows, in batch order. -/
def rows (m : Meta) : List Row := (List.range m.ids.length).filterMap m.row

/-- The operands are consecutive chunks of the same sequences: same ids, only the first has starting rows, only the last
has ending rows, and chunk indices are present in all or in none. -/
def Consecutive (ms : List Meta) : Prop :=
  (∀ (i : Nat) (m : Meta), ms[i]? = some m →
    (∀ m0 : Meta, ms[0]? = some m0 → m.ids = m0.ids) ∧
    (i ≠ 0 → ∀ r ∈ m.rows, r.sos = false) ∧
    (i + 1 ≠ ms.length → ∀ r ∈ m.rows, r.eos = false)) ∧
  ((∀ m ∈ ms, m.chunk.isSome = true) ∨ (∀ m ∈ ms, m.chunk.isSome = false))

/-- Length of row `k`, 0 if there is no such row. -/
def lenAt (m : Meta) (k : Nat) : Int := ((m.row k).map (·.len)).getD 0

end Meta

/-- Sum of a list of integers. -/
def total : List Int → Int
  | [] => 0
  | x :: xs => x + total xs

end DS
