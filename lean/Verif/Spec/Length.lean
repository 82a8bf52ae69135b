import Verif.Spec.Rows
/-!
# Specification vocabulary: indexing along length

An index along length keeps a list of source positions ("frames"). A row of length `len` has data at positions
`0 .. len-1` and padding from `len` on.
-/

namespace DS

/-- Number of kept positions that hold data of a row of length `len`. -/
def keptData (pos : List Nat) (len : Int) : Int := ((pos.filter fun (j : Nat) => decide ((j : Int) < len)).length : Int)

/-- Frame 0 is among the kept positions. -/
def keepsFirst (pos : List Nat) : Bool := decide (0 ∈ pos)

/-- The last data frame of a row of length `len` is among the kept positions. -/
def keepsLast (pos : List Nat) (len : Int) : Bool := pos.any fun (j : Nat) => decide ((j : Int) = len - 1)

/-- Some kept position is at or beyond the last data frame, and some kept position holds data. -/
def spansLast (pos : List Nat) (len : Int) : Bool :=
  (pos.any fun (j : Nat) => decide (len - 1 ≤ (j : Int))) && (pos.any fun (j : Nat) => decide ((j : Int) < len))

namespace Meta

/-- Every length is a number of frames, and the longest row has `n` of them. -/
def Longest (m : Meta) (n : Nat) : Prop := (n : Int) ∈ m.lengths ∧ ∀ l ∈ m.lengths, 0 ≤ l ∧ l ≤ n

instance (m : Meta) (n : Nat) : Decidable (m.Longest n) := by unfold Longest; infer_instance

/-- `m'` has the same sequences as `m`, each row being `f` of the original row. -/
def MapsRows (m : Meta) (f : Row → Row) (m' : Meta) : Prop :=
  m'.WF ∧ m'.ids.length = m.ids.length ∧ m'.chunk.isSome = m.chunk.isSome ∧
    ∀ k r, m.row k = some r → m'.row k = some (f r)

end Meta
end DS
