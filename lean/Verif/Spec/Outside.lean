import Verif.Model.Index
/-!
# What must not depend on memory outside the arrays
-/

namespace DS

/-- Metadata that are equal but for the start flags. -/
structure Meta.SameButSos (m m' : Meta) : Prop where
  ids : m'.ids = m.ids
  sos : m'.sos.length = m.sos.length
  eos : m'.eos = m.eos
  lengths : m'.lengths = m.lengths
  chunk : m'.chunk = m.chunk

/-- `None` on both sides, or metadata on both sides that are equal but for the start flags. -/
def Meta.OptSame (a b : Option Meta) : Prop := (a = none ∧ b = none) ∨ ∃ m m', a = some m ∧ b = some m' ∧ m.SameButSos m'

/-- Two runs end alike: with results related by `R`, or with the same exception. -/
def Alike {β : Type} (R : β → β → Prop) : Py β → Py β → Prop
  | .ok a, .ok b => R a b
  | .error e, .error f => e = f
  | _, _ => False

namespace Tn

/-- Tensors with the same data and names, and metadata that are equal but for the start flags. -/
def STen.SameButSos {α : Type} (x y : STen α) : Prop := y.t = x.t ∧ x.md.SameButSos y.md

/-- The entry of an index is not an empty list of positions, and not a mask without True. -/
def Ix.NotEmpty : Ix → Prop
  | .list is => is ≠ []
  | .ints is => is ≠ []
  | .mask bs => true ∈ bs
  | _ => True

end Tn
end DS
