import Verif.Spec.SyncOrder
/-!
# The order in which listed files start
-/

namespace DS.Data

section
variable {α : Type}

/-- How many chunks are read before the `i`-th listed file, if every `b`-th file is read by the same lane and `S x` are the chunks of `x`. -/
def readBefore (S : String → List (Sample α)) (b : Nat) (order : List String) (i : Nat) : Nat :=
  ((List.range (i / b)).map fun q => (S (order.getD (i % b + q * b) "")).length).sum

/-- The lane of the `i`-th listed file is ahead of that of the `j`-th, or both are equally far and the lane of `i` is earlier in the batch. -/
def Earlier (S : String → List (Sample α)) (b : Nat) (order : List String) (i j : Nat) : Prop :=
  readBefore S b order i < readBefore S b order j ∨ (readBefore S b order i = readBefore S b order j ∧ i % b < j % b)

end
end DS.Data
