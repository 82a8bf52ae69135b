import Verif.Model.Overrides
/-!
# Model of nn/utils/pad_sequence.py: padding sequences to a StreamTensor

Sequences are plain tensors without names. `torch.nn.utils.rnn.pad_sequence` is a trusted description; sequences whose sizes differ on an axis other than the first are refused by the model with
RuntimeError (torch would broadcast an axis of size 1; not modelled).
-/

namespace DS.Tn
open Meta

variable {α : Type}

/-- `tuple(i for i in range(len(names)) if i != length_index)` after `length_index`, pad_sequence.py:29. -/
def lengthFirst (n a : Nat) : List Int := (a : Int) :: ((List.range n).filter (· ≠ a)).map fun (i : Nat) => (i : Int)

/-- `t.size(0)`: IndexError for a tensor without axes. -/
def size0 (t : Ten α) : Py Nat :=
  match t.shape with
  | [] => .error .indexError
  | n :: _ => .ok n

/-- `pad_sequence(sequences, batch_first)`, padding with `zero`: axis 0 of the sequences becomes the length axis, as long as the longest sequence; RuntimeError for an empty list and for
different sizes on the other axes. -/
def padTen (zero : α) (batchFirst : Bool) : List (Ten α) → Py (Ten α)
  | [] => .error .runtimeError
  | t :: ts =>
    if ∀ u ∈ ts, u.ndim = t.ndim ∧ u.shape.tail = t.shape.tail then
      let w := ((t :: ts).map fun u => u.shape.headD 0).foldr max 0
      let n := (t :: ts).length
      .ok { shape := if batchFirst then n :: w :: t.shape.tail else w :: n :: t.shape.tail
            names := none :: none :: t.shape.tail.map fun _ => none
            val := fun ix => entry (if batchFirst then ix.headD 0 else ix.tail.headD 0) (if batchFirst then ix.tail.headD 0 else ix.headD 0) (ix.drop 2) (t :: ts) }
    else .error .runtimeError
where
  /-- frame `j` of sequence `i` at the other coordinates `rest` -/
  entry (i j : Nat) (rest : List Nat) (ts : List (Ten α)) : α :=
    match ts[i]? with
    | none => zero
    | some t => if j < t.shape.headD 0 then t.val (j :: rest) else zero

/-- `pad_chunks`, pad_sequence.py:10-39. -/
def padChunks (zero : α) (sequences : List (Ten α)) (names : List (Option String)) (ids : List String) (sos eos : List Bool) (batchFirst : Bool) : Py (STen α) :=
  if BATCH ∈ names then .error .valueError                              -- 22-23
  else do
    let a ← nameIndex names LENGTH                                      -- 24-27 (ValueError if there is none)
    let sequences ← if a ≠ 0 then sequences.mapM (fun t => t.permute (lengthFirst names.length a)) else .ok sequences
    let names := (if batchFirst then [BATCH, LENGTH] else [LENGTH, BATCH]) ++ names.filter (fun n => decide (n ≠ LENGTH))
    let lengths ← sequences.mapM size0
    let t ← padTen zero batchFirst sequences
    let t ← t.rename names
    let m ← init ids sos eos (lengths.map fun (n : Nat) => (n : Int)) none
    .ok ⟨t, m⟩

/-- `pad_full_sequence`, pad_sequence.py:42-45. -/
def padFull (zero : α) (sequences : List (Ten α)) (names : List (Option String)) (ids : List String) (batchFirst : Bool) : Py (STen α) :=
  padChunks zero sequences names ids (sequences.map fun _ => true) (sequences.map fun _ => true) batchFirst

/-- `pad_stream_tensor`, pad_sequence.py:48-55. `sequences[0]` of an empty list is not reached: `cat_batch` fails first. -/
def padStream (zero : α) (sequences : List (STen α)) (batchFirst : Bool) : Py (STen α) := do
  let m ← catBatch (sequences.map (·.md))
  match sequences with
  | [] => .error .indexError
  | x :: _ => padChunks zero (sequences.map (·.t.unnamed)) x.t.names m.ids m.sos m.eos batchFirst

end DS.Tn
