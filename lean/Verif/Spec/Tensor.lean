import Verif.Model.Index
import Verif.Spec.Cat
import Mathlib.Data.List.Forall2
/-!
# Specification vocabulary: StreamTensors

What it means for names and metadata to describe the data, without reference to how operations compute them.
-/

namespace DS.Tn

section
variable {α : Type}

/-- A tensor torch can hold: one name per axis, no name twice, no empty name. -/
def Ten.WF (t : Ten α) : Prop :=
  t.names.length = t.shape.length ∧ (t.names.filterMap id).Nodup ∧ some "" ∉ t.names

instance (t : Ten α) : Decidable t.WF := by unfold Ten.WF; infer_instance

/-- A multi-index within the sizes. -/
def Inside (p shape : List Nat) : Prop := List.Forall₂ (· < ·) p shape

/-- The position of a multi-index in row-major order. -/
def ravel : List Nat → List Nat → Nat
  | _ :: ss, i :: is => i * ss.prod + ravel ss is
  | _, _ => 0

/-- The metadata describe the data: axis `b` is the batch axis and has one row of metadata per position, axis `l` is the length axis and no sequence is
longer than it. -/
structure STen.Describes (x : STen α) (b l : Nat) : Prop where
  wf : x.t.WF
  batch : x.t.names[b]? = some BATCH
  length : x.t.names[l]? = some LENGTH
  mdwf : x.md.WF
  rows : x.t.shape[b]? = some x.md.ids.length
  fits : ∃ w : Nat, x.t.shape[l]? = some w ∧ ∀ n ∈ x.md.lengths, 0 ≤ n ∧ n ≤ w

/-- The entries of row `i` along length on the line through multi-index `ix`: the valid frames of the sequence, seen at the other coordinates
of `ix`. -/
def STen.line (x : STen α) (b l : Nat) (ix : List Nat) (i : Nat) : List α :=
  (List.range (x.md.lenAt i).toNat).map fun j => x.t.val ((ix.set b i).set l j)

/-- Exchange two axes. -/
def exch (a b k : Nat) : Nat := if k = a then b else if k = b then a else k

/-- The names of the axes whose size is not 1. -/
def surviving (names : List (Option String)) (shape : List Nat) : List (Option String) :=
  ((names.zip shape).filter fun p => decide (p.2 ≠ 1)).map (·.1)

end
end DS.Tn
