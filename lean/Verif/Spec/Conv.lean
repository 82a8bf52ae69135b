import Mathlib.Data.List.Forall2
import Verif.Spec.Cat
import Verif.Model.Conv
/-!
# Specification vocabulary: convolution, chunks and schedules

Only the data types (`Cfg`, `ST`, `Buf`) come from the model.
-/

namespace DS.Conv

/-- A configuration that torch accepts. -/
def Cfg.Valid (c : Cfg) : Prop := 1 ≤ c.ks ∧ 1 ≤ c.dil ∧ 1 ≤ c.stride

instance (c : Cfg) : Decidable c.Valid := by unfold Cfg.Valid; infer_instance

/-- The last frame that the kernel placed at 0 touches, plus one. -/
def span (c : Cfg) : Nat := (c.ks - 1) * c.dil + 1

section
variable {α β : Type} [Zero α] [Zero β]

/-- `n` zero frames. -/
def zeros (n : Nat) : List α := List.replicate n 0

/-- The kernel placed at frame `o` of `x`. -/
def at' (c : Cfg) (g : List α → β) (x : List α) (o : Nat) : β :=
  g ((List.range c.ks).map fun i => x.getD (o + i * c.dil) 0)

/-- The kernel positions of `x`: multiples of the stride where the whole kernel fits. -/
def fits (c : Cfg) (n : Nat) : List Nat := (List.range (n + 1)).filter fun k => decide (k * c.stride + span c ≤ n)

/-- Convolution of a sequence without padding: one output per kernel position. -/
def conv (c : Cfg) (g : List α → β) (x : List α) : List β :=
  (fits c x.length).map fun k => at' c g x (k * c.stride)

/-- What an ordinary (offline) `Conv1d` computes for one sequence: convolution of the sequence padded with zeros. -/
def offline (c : Cfg) (g : List α → β) (x : List α) : List β := conv c g (zeros c.padding ++ x ++ zeros c.padding)

/-- A chunk of one stream. -/
structure Chunk (α : Type) where
  id : String
  sos : Bool
  eos : Bool
  index : Option Int
  frames : List α
  deriving DecidableEq, Repr

/-- The metadata row of a chunk. -/
def Chunk.row (c : Chunk α) : Row := ⟨c.id, c.sos, c.eos, c.frames.length, c.index⟩

/-- `x` is the batch of the chunks `cs`, zero-padded on the right to width `w`. -/
def Packs (x : ST α) (w : Nat) (cs : List (Chunk α)) : Prop :=
  x.md.WF ∧ x.md.rows = cs.map Chunk.row ∧ x.width = w ∧ (∀ c ∈ cs, c.frames.length ≤ w) ∧
    x.rows = cs.map fun c => c.frames ++ zeros (w - c.frames.length)

/-- The batch is exactly as wide as its longest chunk. -/
def Tight (w : Nat) (cs : List (Chunk α)) : Prop := ∃ c ∈ cs, c.frames.length = w

/-- The chunks of stream `i`, in order. -/
def chunksOf (i : String) (batches : List (List (Chunk α))) : List (Chunk α) :=
  batches.flatten.filter fun c => decide (c.id = i)

/-- All frames of a list of chunks. -/
def allFrames (cs : List (Chunk α)) : List α := cs.flatMap (·.frames)

/-- Exactly the first chunk is marked as start. -/
def StartsOnce (cs : List (Chunk α)) : Prop := ∀ k c, cs[k]? = some c → (c.sos = true ↔ k = 0)

/-- A sequence in progress: at least one chunk, the first one (only) is the start, no end yet. -/
def Open (cs : List (Chunk α)) : Prop := cs ≠ [] ∧ StartsOnce cs ∧ ∀ c ∈ cs, c.eos = false

/-- A complete sequence: the first chunk (only) is the start and the last chunk (only) is the end. -/
def Complete (cs : List (Chunk α)) : Prop :=
  cs ≠ [] ∧ StartsOnce cs ∧ ∀ k c, cs[k]? = some c → (c.eos = true ↔ k + 1 = cs.length)

/-- The chunks of one stream: complete sequences, then possibly one in progress. -/
def History (cs : List (Chunk α)) (done : List (List (Chunk α))) (cur : List (Chunk α)) : Prop :=
  cs = done.flatten ++ cur ∧ (∀ s ∈ done, Complete s) ∧ (cur = [] ∨ Open cur)

end
end DS.Conv

namespace DS.Conv
section
variable {α β : Type} [Zero α] [Zero β]

/-- The chunks that a batch holds: the valid frames of each row with the row's metadata. -/
def unpack (x : ST α) : List (Chunk α) :=
  List.zipWith (fun r f => ⟨r.id, r.sos, r.eos, r.chunk, f.take r.len.toNat⟩) x.md.rows x.rows

/-- A zero-padded batch. -/
def WellPacked (x : ST α) : Prop := Packs x x.width (unpack x)

/-- A batch of at least one chunk of different streams; empty first or last chunks come alone. -/
def BatchOK (cs : List (Chunk α)) : Prop :=
  cs ≠ [] ∧ (cs.map (·.id)).Nodup ∧ (cs.length = 1 ∨ ∀ x ∈ cs, x.frames = [] → x.sos = false ∧ x.eos = false)

/-- All valid frames of stream `i` in a list of batches, in order. -/
def collected (i : String) (xs : List (ST α)) : List α := allFrames (chunksOf i (xs.map unpack))

/-- The outputs due for a sequence in progress: kernel positions within the start padding and the frames received so far. -/
def due (c : Cfg) (g : List α → β) (cur : List (Chunk α)) : List β :=
  if cur = [] then [] else conv c g (zeros c.padding ++ allFrames cur)

/-- Id and flags of a chunk. -/
def Chunk.flags (x : Chunk α) : String × Bool × Bool := (x.id, x.sos, x.eos)

/-- Everything the kernel sees of a chunk: start padding or the buffered frames, the chunk, end padding. -/
def inp (c : Cfg) (buf : Buf α) (x : Chunk α) : List α :=
  (if x.sos then zeros c.padding else (buf x.id).getD []) ++ x.frames ++ (if x.eos then zeros c.padding else [])

/-- `outs` are the outputs for the chunks of a stream: complete sequences become their offline outputs, chunk by chunk with
the same flags, and a sequence in progress has given the outputs due so far. -/
def Streamed (c : Cfg) (g : List α → β) (done : List (List (Chunk α))) (cur : List (Chunk α)) (outs : List (Chunk β)) : Prop :=
  ∃ doneO curO, outs = doneO.flatten ++ curO ∧
    List.Forall₂ (fun s so => allFrames so = offline c g (allFrames s) ∧ so.map Chunk.flags = s.map Chunk.flags) done doneO ∧
    allFrames curO = due c g cur ∧ curO.map Chunk.flags = cur.map Chunk.flags

/-- A chunk that ends after `n` frames ends inside a gap: the last kernel position is complete, the next one lies beyond the chunk.
There are gaps only if the stride exceeds the width of the kernel. -/
def Gap (c : Cfg) (n : Nat) : Prop := ∃ k, k * c.stride + span c ≤ n ∧ n < (k + 1) * c.stride

/-- No chunk of the sequence but the last ends inside a gap (the start padding counts). -/
def Clear (c : Cfg) (cs : List (Chunk α)) : Prop :=
  ∀ p q : List (Chunk α), cs = p ++ q → p ≠ [] → q ≠ [] → ¬ Gap c (c.padding + (allFrames p).length)

open Classical in
/-- Convolution of the chunks `ys` of a sequence when each chunk that ends inside a gap makes the convolution start over with the next
chunk. `acc` is what came before since the last start, `fin` is appended at the end. -/
noncomputable def restarts (c : Cfg) (g : List α → β) (fin : List α) : List α → List (List α) → List β
  | _, [] => []
  | acc, [y] => conv c g (acc ++ y ++ fin)
  | acc, y :: y' :: ys =>
    if Gap c (acc ++ y).length then conv c g (acc ++ y) ++ restarts c g fin [] (y' :: ys) else restarts c g fin (acc ++ y) (y' :: ys)

end
end DS.Conv
