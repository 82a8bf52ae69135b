import Verif.Spec.Conv
import Verif.Model.Collector
/-!
# Specification vocabulary: collecting outputs

Only the data types (`Entry`, `Coll`, `Item`) and the observed operations come from the model.
-/

namespace DS.Coll
open Meta Conv

section
variable {α : Type} [Zero α]

/-- The StreamTensor (without batch axis) `e` is the chunk `c`: one row of metadata, exactly as wide as its length. -/
def IsChunk (e : Entry α) (c : Chunk α) : Prop := e.md.WF ∧ e.md.rows = [c.row] ∧ e.frames = c.frames

/-- `it` carries the chunks `cs`: a zero-padded batch of them, or a single one without batch axis. -/
def Carries (it : Item α) (cs : List (Chunk α)) : Prop :=
  match it with
  | .batch x => cs ≠ [] ∧ Packs x x.width cs
  | .single e => ∃ c, cs = [c] ∧ IsChunk e c

/-- States that a collector can get into by feeding it well-formed StreamTensors, some of which it may have refused. -/
inductive Reached : Coll α → Prop where
  | new : Reached Coll.new
  | step {s : Coll α} {it : Item α} {cs : List (Chunk α)} : Reached s → Carries it cs → Reached (updateItem s it).1

/-- Consecutive chunks put together: start flag of the first, end flag and index of the last, all frames. -/
def joined (id : String) (cs : List (Chunk α)) : Chunk α :=
  ⟨id, (cs.head?.map (·.sos)).getD false, (cs.getLast?.map (·.eos)).getD false, (cs.getLast?.map (·.index)).getD none, allFrames cs⟩

/-- The chunks of one stream as a collector wants them: the first one (only) is the start, only the last one may be the end, and
chunk indices are on all or none of them. -/
def Stream (cs : List (Chunk α)) : Prop :=
  StartsOnce cs ∧ (∀ k c, cs[k]? = some c → c.eos = true → k + 1 = cs.length) ∧
    ((∀ c ∈ cs, c.index.isSome = true) ∨ (∀ c ∈ cs, c.index.isSome = false))

/-- The chunks that have frames. -/
def nonEmpty (cs : List (Chunk α)) : List (Chunk α) := cs.filter fun c => decide (c.frames.length > 0)

end
end DS.Coll
