import Verif.Model.Fallback
/-!
# Specification vocabulary: calls that lose the stream
-/

namespace DS.Fall
open Tn Warn

variable {α : Type}

/-- What a call gives, without warnings: the functions of the other properties (C38, C93, C122, C123, C126). -/
def Call.value : Call α → Py (Opd α)
  | .getitem junk x top => getitemM junk x top
  | .flatten x s e => Tn.flatten x s e
  | .maskedSelect x mask => (Tn.maskedSelect x mask).map .plain
  | .scatterAdd args dim res => scatter args dim res
  | .scatterReduce args dim res => scatter args dim res
  | .decoupled res => res.map .plain

/-- The call gives a tensor without metadata. -/
def Call.Loses (c : Call α) : Prop := ∃ t, c.value = .ok (.plain t)

/-- A function that removes the metadata without further ado. -/
def Call.Decoupled (c : Call α) : Prop := ∃ res, c = .decoupled res

/-- The warnings that the call gives. -/
def Call.warnings (c : Call α) : List Warning :=
  match c.run with
  | .ok r => r.2
  | .error _ => []

/-- What the call does if no warning is raised as an exception. -/
def Call.outcome (c : Call α) : Outcome α :=
  match c.value with
  | .ok o => .gives o
  | .error e => .raises e

/-- The scatter is along batch or length (positions from the front), by the names of the first argument. -/
def AlongStream (args : List (STen α)) (dim : Int) : Prop :=
  ∃ x, args.head? = some x ∧ (dim = (x.t.names.idxOf BATCH : Nat) ∨ dim = (x.t.names.idxOf LENGTH : Nat))

open Classical in
/-- The line of overrides.py to which the warning of a call is attributed, and the function it names. -/
noncomputable def Call.place : Call α → Nat × String
  | .getitem .. => (556, "multidimensional boolean tensor indexing")
  | .flatten .. => (818, "flatten")
  | .maskedSelect .. => (729, "masked_select")
  | .scatterAdd args dim _ => (if AlongStream args dim then 753 else 757, "scatter_add")
  | .scatterReduce args dim _ => (if AlongStream args dim then 789 else 793, "scatter_reduce")
  | .decoupled _ => (0, "")

end DS.Fall
