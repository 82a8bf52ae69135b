import Verif.Spec.Tensor
/-!
# Specification vocabulary: index tuples

What an index tuple means to its writer: entry number `a` indexes axis `a`.
-/

namespace DS.Tn

/-- The entry that indexes axis `a`: axes beyond the tuple are taken whole. -/
def axisEntry (es : List Ix) (a : Nat) : Ix := es.getD a (.slice {})

/-- Entries that index exactly one axis: everything but `None` and Ellipsis. -/
def Ix.OneAxis (e : Ix) : Prop := e ≠ .none ∧ e ≠ .ellipsis

instance (e : Ix) : Decidable e.OneAxis := by unfold Ix.OneAxis; infer_instance

/-- An int: its axis disappears. -/
def Ix.drops : Ix → Bool
  | .int _ => true
  | _ => false

/-- The names after indexing with the entries `es` followed by `k` times `None`: names of the axes that are not indexed by an int, in order, with the `k`
new unnamed axes after the indexed ones. -/
def keptNames (k : Nat) : List (Option String) → List Ix → List (Option String)
  | ns, [] => List.replicate k none ++ ns
  | [], _ :: _ => []
  | n :: ns, e :: es => if e.drops then keptNames k ns es else n :: keptNames k ns es

/-- The entry as the metadata see it: an axis taken whole leaves the metadata alone. -/
def mdEntry (e : Ix) : Ix := if e = .slice {} then .none else e

end DS.Tn
