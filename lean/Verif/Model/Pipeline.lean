import Verif.Model.Collector
/-!
# Model of the streaming program of examples/wav2letter.py (the same program drives tests/conftest.py:46-70)

Whole sequences are padded into one batch, unpadded again, split into pieces, dealt into batches in a random order, run through an
online stack, and the outputs are collected. Random choices are arguments: the piece sizes and the coin flips of each round.
The frames are abstract, as in Model/Conv. The layers are the ones of `chainStep` (convolutions and pointwise functions).
-/

namespace DS.Pipe
open Meta Conv Coll

section
variable {α : Type} [Zero α]

/-- `random_chunks(full_length, min_size, max_size)`, examples/wav2letter.py:12-19 (and tests/conftest.py:22-29), for the numbers that `random.randint` draws in turn;
the second component is what remains if the list of draws is too short. -/
def randomChunks : Int → List Int → List Int × Int
  | n, [] => ([], n)
  | n, d :: ds => if n > 0 then (min d n :: (randomChunks (n - min d n) ds).1, (randomChunks (n - min d n) ds).2) else ([], n)

/-- `pad_full_sequence(sequences, names, ids)`, nn/utils/pad_sequence.py:41-44 with `pad_chunks`, 11-38, aligned to batch, features, length
(examples/wav2letter.py:38). `pad_sequence` of no tensors raises RuntimeError. -/
def padFull (ids : List String) (seqs : List (List α)) : Py (ST α) :=
  if seqs = [] then .error .runtimeError
  else do
    let w := (seqs.map (·.length)).foldl max 0
    let md ← Meta.init ids (seqs.map fun _ => true) (seqs.map fun _ => true) (seqs.map fun s => (s.length : Int)) none
    .ok { md, width := w, rows := seqs.map fun s => s ++ List.replicate (w - s.length) 0 }

/-- The pieces of `tensor.split(sizes)` along length (torch). -/
def cutFrames : List Int → List α → List (List α)
  | [], _ => []
  | s :: ss, xs => xs.take s.toNat :: cutFrames ss (xs.drop s.toNat)

/-- Data and metadata of the pieces, `zip(tensors, metas)`, overrides.py:134. -/
def zipEntries : List (List α) → List Meta → List (Entry α)
  | f :: fs, m :: ms => ⟨m, f⟩ :: zipEntries fs ms
  | _, _ => []

/-- `s.split(sizes, dim=1)` of a StreamTensor without batch axis, overrides.py:124-139: torch raises RuntimeError for negative sizes and for
sizes that do not add up. -/
def splitEntry (e : Entry α) (sizes : List Int) : Py (List (Entry α)) :=
  if (∃ s ∈ sizes, s < 0) ∨ isum sizes ≠ e.frames.length then .error .runtimeError
  else do
    let ms ← e.md.splitLength (.sections sizes)
    .ok (zipEntries (cutFrames sizes e.frames) ms)

/-- The dictionary of examples/wav2letter.py:40-42: each unpadded sequence split by its sizes. -/
def splitAll : List (Entry α) → List (List Int) → Py (List (List (Entry α)))
  | e :: es, ss :: sss => do
    let p ← splitEntry e ss
    let ps ← splitAll es sss
    .ok (p :: ps)
  | _, _ => .ok []

end

/-- One round, examples/wav2letter.py:49: every stream with pieces left and a lucky coin gives its next piece. (The coin of a stream without
pieces is not tossed in the code; here its value is ignored.) -/
def deal {E : Type} : List (List E) → List Bool → List E × List (List E)
  | (c :: cs) :: ss, true :: fs => (c :: (deal ss fs).1, cs :: (deal ss fs).2)
  | s :: ss, _ :: fs => ((deal ss fs).1, s :: (deal ss fs).2)
  | ss, _ => ([], ss)

/-- The rounds, examples/wav2letter.py:47-51: the pieces of the non-empty rounds, and what is left after them. -/
def rounds {E : Type} (ss : List (List E)) : List (List Bool) → List (List E) × List (List E)
  | [] => ([], ss)
  | fs :: rest =>
    let d := deal ss fs
    let r := rounds d.2 rest
    (if d.1 = [] then r.1 else d.1 :: r.1, r.2)

section
variable {α : Type} [Zero α]

/-- `pad_stream_tensor(batch).align_to("B", "F", "L")` for each batch, examples/wav2letter.py:51. -/
def padBatches : List (List (Entry α)) → Py (List (ST α))
  | [] => .ok []
  | b :: bs => do
    let x ← padStream (b.map fun e => (e.md, e.frames))
    let xs ← padBatches bs
    .ok (x :: xs)

/-- The batches of examples/wav2letter.py:38-51 and the pieces left. -/
def batches (ids : List String) (seqs : List (List α)) (sizes : List (List Int)) (flips : List (List Bool)) : Py (List (ST α) × List (List (Entry α))) := do
  let x ← padFull ids seqs
  let es ← unpad x
  let ss ← splitAll es sizes
  let r := rounds ss flips
  let xs ← padBatches r.1
  .ok (xs, r.2)

/-- The online part, examples/wav2letter.py:53-59: each batch through the stack and into the collector. Returns the state of the collector. -/
def stream (st : List (Layer α × Buf α)) (s : Coll α) : List (ST α) → Py (Coll α)
  | [] => .ok s
  | x :: xs => do
    let (y, st') ← chainStep st x
    match updateItem s (.batch y) with
    | (s', none) => stream st' s' xs
    | (_, some e) => .error e

/-- The whole program: the collector at the end. `flips` are all the rounds; the `while` loop ends when nothing is left. -/
def program (ls : List (Layer α)) (ids : List String) (seqs : List (List α)) (sizes : List (List Int)) (flips : List (List Bool)) :
    Py (Coll α) := do
  let b ← batches ids seqs sizes flips
  stream (ls.map fun l => (l, fun _ => none)) Coll.new b.1

end
end DS.Pipe
