import Verif.Model.Program
/-!
# Specification vocabulary: programs that do not use tensors with outdated metadata

Only the statements (`Ins`) come from the model.
-/

namespace DS.Conv
variable {α : Type}

/-- `kin[k]` names the family of variable `k`: a result belongs to the family of its (first) argument. After a convolution all members of the family of its argument are spent, except for the result.
A program is safe if no spent variable is used. -/
def Safe : List Nat → List Nat → List (Ins α) → Prop
  | _, _, [] => True
  | kin, spent, .unary _ i :: ps => i ∉ spent ∧ Safe (kin ++ [kin.getD i 0]) spent ps
  | kin, spent, .binary _ i j :: ps => i ∉ spent ∧ j ∉ spent ∧ Safe (kin ++ [kin.getD i 0]) spent ps
  | kin, spent, .conv _ i :: ps =>
    i ∉ spent ∧ Safe (kin ++ [kin.getD i 0]) (spent ++ (List.range kin.length).filter fun k => kin.getD k 0 == kin.getD i 0) ps

/-- The variables that are spent after the program. -/
def spentAfter : List Nat → List Nat → List (Ins α) → List Nat
  | _, spent, [] => spent
  | kin, spent, .unary _ i :: ps => spentAfter (kin ++ [kin.getD i 0]) spent ps
  | kin, spent, .binary _ i _ :: ps => spentAfter (kin ++ [kin.getD i 0]) spent ps
  | kin, spent, .conv _ i :: ps =>
    spentAfter (kin ++ [kin.getD i 0]) (spent ++ (List.range kin.length).filter fun k => kin.getD k 0 == kin.getD i 0) ps

/-- The variables that a statement uses. -/
def Ins.args : Ins α → List Nat
  | .unary _ i => [i]
  | .binary _ i j => if i = j then [i] else [i, j]
  | .conv _ i => [i]

/-- Every statement uses variables that are defined before it; `n` are defined at first. -/
def Defined : Nat → List (Ins α) → Prop
  | _, [] => True
  | n, q :: ps => (∀ i ∈ q.args, i < n) ∧ Defined (n + 1) ps

end DS.Conv
