import Verif.Model.ConvStack
import Verif.Model.Pad
import Verif.Model.Pipeline
/-!
# Model of the streaming program of examples/wav2letter.py on named tensors, with `OutputCollector` on named tensors

The same program as Model/Pipeline, with every call as it stands in the source: `pad_full_sequence`, `align_to`, `unpad_sequence`, `split`, `pad_stream_tensor`, the patched model and the collector. Random choices are
arguments: the piece sizes and the coin flips of each round. The ids are distinct, so that the dictionaries of examples/wav2letter.py:36-42 are lists.
-/

namespace DS.Tn
open Meta

variable {α : Type}

/-- `t.align_to(*names)` (torch, trusted description): the axes in the given order, with an axis of size 1 for every name that `t` does not have; RuntimeError if an axis of `t` has no name or a name that is not given. The
given names are distinct (torch refuses others); a literal `...` is not modelled. -/
def Ten.alignTo (t : Ten α) (ns : List String) : Py (Ten α) :=
  if ∀ n ∈ t.names, n ∈ ns.map some then
    .ok { shape := ns.map fun n => if some n ∈ t.names then t.shape.getD (t.names.idxOf (some n)) 0 else 1
          names := ns.map some
          val := fun ix => t.val (t.names.map fun n => ix.getD ((ns.map some).idxOf n) 0) }
  else .error .runtimeError

/-- `x.align_to(*names)` of a StreamTensor: `align_to` is in the list of functions that keep the metadata (tensor.py:816-836). -/
def alignTo (x : STen α) (ns : List String) : Py (STen α) := defaultValid [x] (x.t.alignTo ns)

end DS.Tn

namespace DS.PipeT
open DS.Tn DS.Conv DS.ConvT

section
variable {α : Type}

/-- The collector: the dictionary and `closed_entries`, data_objects.py:102-106. -/
structure CollT (α : Type) where
  entries : String → Option (STen α)
  closed : String → Bool

/-- `OutputCollector()`. -/
def CollT.new : CollT α := ⟨fun _ => none, fun _ => false⟩

/-- `self[_id] = …`. -/
def CollT.put (s : CollT α) (i : String) (e : STen α) : CollT α :=
  { s with entries := fun j => if j = i then some e else s.entries j }

/-- `self.closed_entries.add(_id)`. -/
def CollT.close (s : CollT α) (i : String) : CollT α :=
  { s with closed := fun j => if j = i then true else s.closed j }

/-- `torch.cat([self[_id], stream_tensor], dim=length_dim)`, data_objects.py:129-130: of two StreamTensors, which gives a StreamTensor. -/
def catT (e x : STen α) : Py (STen α) := do
  let l ← nameIndex x.t.names LENGTH
  match ← Tn.cat (.stream e) [.stream x] (l : Int) with
  | .stream y => .ok y
  | .plain _ => .error .typeError                                      -- not reached

/-- data_objects.py:125-136. -/
def storeT (s : CollT α) (i : String) (sos : Bool) (x : STen α) : CollT α × Option PyErr :=
  match s.entries i with
  | some e =>
    if sos then (s, some .valueError)
    else
      match catT e x with
      | .ok e' => (s.put i e', none)
      | .error err => (s, some err)
  | none => if sos then (s.put i x, none) else (s, some .valueError)

/-- `_update_unary`, data_objects.py:118-136 (`meta.sos.item()` cannot raise once `meta.eos.item()` has not; it is evaluated before the state changes, as in Model/Collector). -/
def updateUnaryT (s : CollT α) (x : STen α) : CollT α × Option PyErr :=
  match pyGet x.md.ids 0 with
  | .error e => (s, some e)
  | .ok i =>
    if s.closed i then (s, some .valueError)
    else
      match Coll.item x.md.eos, Coll.item x.md.sos with
      | .ok eos, .ok sos => storeT (if eos then s.close i else s) i sos x
      | _, _ => (s, some .runtimeError)

/-- The loop of data_objects.py:111-113. -/
def updateRowsT (s : CollT α) : List (STen α) → CollT α × Option PyErr
  | [] => (s, none)
  | x :: xs =>
    match x.md.maxLength with
    | .error e => (s, some e)
    | .ok ml =>
      if ml > 0 then
        match updateUnaryT s x with
        | (s', none) => updateRowsT s' xs
        | (s', some e) => (s', some e)
      else updateRowsT s xs

/-- `update(t)`, data_objects.py:108-116, for one tensor. -/
def updateT (s : CollT α) (t : STen α) : CollT α × Option PyErr :=
  if BATCH ∈ t.t.names then
    match unpadSequence 0 t with
    | .ok rows => updateRowsT s rows
    | .error e => (s, some e)
  else if t.md.size = 1 then updateUnaryT s t else (s, some .assertionError)

end

section
variable {α : Type} [AddCommMonoid α] [Mul α]

/-- The dictionary of examples/wav2letter.py:40-42: each unpadded sequence split by its sizes. -/
def splitAllT : List (STen α) → List (List Int) → Py (List (List (STen α)))
  | e :: es, ss :: sss => do
    let p ← Tn.split e (.sections ss) 1
    let ps ← splitAllT es sss
    .ok (p :: ps)
  | _, _ => .ok []

/-- `pad_stream_tensor(batch).align_to("B", "F", "L")` for each batch, examples/wav2letter.py:51. -/
def padBatchesT : List (List (STen α)) → Py (List (STen α))
  | [] => .ok []
  | b :: bs => do
    let x ← Tn.padStream 0 b false
    let x ← alignTo x ["B", "F", "L"]
    let xs ← padBatchesT bs
    .ok (x :: xs)

/-- The batches of examples/wav2letter.py:38-51. -/
def batchesT (ids : List String) (seqs : List (Ten α)) (sizes : List (List Int)) (flips : List (List Bool)) : Py (List (STen α)) := do
  let x ← Tn.padFull 0 seqs [some "F", LENGTH] ids false
  let x ← alignTo x ["B", "F", "L"]
  let es ← unpadSequence 0 x
  let ss ← splitAllT es sizes
  padBatchesT (Pipe.rounds ss flips).1

/-- The online part, examples/wav2letter.py:53-59: each batch through the model and into the collector. -/
def streamT (st : List (LayerT α × BufT α)) (s : CollT α) : List (STen α) → Py (CollT α)
  | [] => .ok s
  | x :: xs => do
    let (y, st') ← chainStepT st x
    match updateT s y with
    | (s', none) => streamT st' s' xs
    | (_, some e) => .error e

/-- The whole program: the collector at the end. `flips` are all the rounds; the `while` loop ends when nothing is left. -/
def programT (ls : List (LayerT α)) (ids : List String) (seqs : List (Ten α)) (sizes : List (List Int)) (flips : List (List Bool)) : Py (CollT α) := do
  let xs ← batchesT ids seqs sizes flips
  streamT (freshT ls) CollT.new xs

/-- `targets[_id] = model(s.unsqueeze(0))`, examples/wav2letter.py:36: the ordinary model on the whole sequence. -/
def target (ls : List (LayerT α)) (s : Ten α) : Py (Ten α) :=
  wholeT ls { shape := 1 :: s.shape, names := none :: s.names, val := fun ix => s.val ix.tail }

end
end DS.PipeT
