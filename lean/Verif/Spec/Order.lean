import Verif.Model.ConvMem
/-!
# Specification vocabulary: batches that differ in the order of their rows, in the names of the streams or in chunk indices
-/

namespace DS.Conv
section
variable {α : Type}

/-- What a batch says about each of its rows: id, start, end, length and frames. Chunk indices are left out. -/
def seqs (x : ST α) : List (String × Bool × Bool × Int × List α) := x.md.ids.zip (x.md.sos.zip (x.md.eos.zip (x.md.lengths.zip x.rows)))

/-- The same rows in some order. -/
def Reordered (x x' : ST α) : Prop := x'.width = x.width ∧ (seqs x).Perm (seqs x')

/-- The same rows, with every stream renamed. -/
def Renamed (f : String → String) (x x' : ST α) : Prop := x'.width = x.width ∧ seqs x' = (seqs x).map fun s => (f s.1, s.2)

/-- The outcomes of two calls: both raise the same exception, or both return tensors in a given relation. -/
def Both (R : ST α → ST α → Prop) : Py (ST α) → Py (ST α) → Prop
  | .ok y, .ok y' => R y y'
  | .error e, .error e' => e = e'
  | _, _ => False

/-- Two states of the same stack; what one keeps for a stream, the other keeps for the renamed stream. -/
def RenamedStack (f : String → String) : List (Layer α × Buf α) → List (Layer α × Buf α) → Prop
  | (l, b) :: s, (l', b') :: s' => l' = l ∧ (∀ i, b' (f i) = b i) ∧ RenamedStack f s s'
  | [], [] => True
  | _, _ => False

end
end DS.Conv
