import Verif.Model.Collector
/-!
# Model of what an `OutputCollector` shares with the caller

Model/Collector describes `update` by value. Here the same code (dreamstream/data/data_objects.py:108-136) is looked at for the memory of what is collected: `unbind` and `narrow` (tensor.py:902-908) give views, the first chunk of an id is kept as it is (136), and
`torch.cat` (131) copies both of its operands.

Simplifications: a tensor in memory is addressed by cell, row and position on the length axis (one value per position, as in Model/Conv). Metadata objects are not written to after the call.
-/

namespace DS.Coll
open Meta Conv
variable {α : Type}

/-- The caller's memory: the value in a cell at a row and a position. -/
abbrev Mem (α : Type) := Nat → Nat → Nat → α

/-- The first `n` positions of a row. -/
def Mem.read (mem : Mem α) (cell row n : Nat) : List α := (List.range n).map (mem cell row)

/-- Writing into the tensor in a cell. -/
def Mem.write (mem : Mem α) (cell : Nat) (f : Nat → Nat → α) : Mem α := fun k => if k = cell then f else mem k

/-- The frames of an entry: memory of its own, or a view of the first `n` positions of a row in the caller's memory. -/
inductive Held (α : Type) where
  | own (frames : List α)
  | view (cell row n : Nat)

/-- What an entry shows now. -/
def Held.now (mem : Mem α) : Held α → List α
  | .own f => f
  | .view c r n => mem.read c r n

/-- A StreamTensor without batch axis and where its frames are. -/
structure HEntry (α : Type) where
  md : Meta
  held : Held α

/-- The StreamTensor as it is now. -/
def HEntry.now (mem : Mem α) (e : HEntry α) : Entry α := ⟨e.md, e.held.now mem⟩

/-- The collector, data_objects.py:103-106. -/
structure HColl (α : Type) where
  entries : String → Option (HEntry α)
  closed : String → Bool

/-- `OutputCollector()`. -/
def HColl.new : HColl α := ⟨fun _ => none, fun _ => false⟩

/-- What the entries show now. -/
def HColl.now (mem : Mem α) (s : HColl α) : Coll α := ⟨fun i => (s.entries i).map (HEntry.now mem), s.closed⟩

/-- `torch.cat([self[_id], stream_tensor], dim=length_dim)`, overrides.py:74-83: a new tensor with memory of its own. -/
def catHeld (mem : Mem α) (a x : HEntry α) : Py (HEntry α) := do
  let e ← catEntry (a.now mem) (x.now mem)
  .ok ⟨e.md, .own e.frames⟩

/-- `self[_id] = …`. -/
def HColl.put (s : HColl α) (i : String) (e : HEntry α) : HColl α := { s with entries := fun j => if j = i then some e else s.entries j }

/-- `self.closed_entries.add(_id)`. -/
def HColl.close (s : HColl α) (i : String) : HColl α := { s with closed := fun j => if j = i then true else s.closed j }

/-- data_objects.py:126-136. The first chunk is kept as it is (136). -/
def storeHeld (mem : Mem α) (s : HColl α) (i : String) (sos : Bool) (x : HEntry α) : HColl α × Option PyErr :=
  match s.entries i with
  | some e =>
    if sos then (s, some .valueError)
    else
      match catHeld mem e x with
      | .ok e' => (s.put i e', none)
      | .error err => (s, some err)
  | none =>
    if sos then (s.put i x, none) else (s, some .valueError)

/-- `_update_unary`, data_objects.py:118-136 (see `updateUnary`). -/
def unaryHeld (mem : Mem α) (s : HColl α) (x : HEntry α) : HColl α × Option PyErr :=
  match pyGet x.md.ids 0 with
  | .error e => (s, some e)
  | .ok i =>
    if s.closed i then (s, some .valueError)
    else
      match item x.md.eos, item x.md.sos with
      | .ok eos, .ok sos => storeHeld mem (if eos then s.close i else s) i sos x
      | _, _ => (s, some .runtimeError)

/-- `unpad_sequence`, tensor.py:902-908, on the tensor in a cell: row `k` is a view of its first positions, as many as its length (`narrowRow` gives them). -/
def unpadHeld (mem : Mem α) (cell w : Nat) : Nat → List Meta → Py (List (HEntry α))
  | k, m :: ms => do
    let x ← narrowRow m w (mem.read cell k w)
    let xs ← unpadHeld mem cell w (k + 1) ms
    .ok (⟨x.1, .view cell k x.2.length⟩ :: xs)
  | _, [] => .ok []

/-- The loop of data_objects.py:111-113. -/
def rowsHeld (mem : Mem α) (s : HColl α) : List (HEntry α) → HColl α × Option PyErr
  | [] => (s, none)
  | x :: xs =>
    match x.md.maxLength with
    | .error e => (s, some e)
    | .ok ml =>
      if ml > 0 then
        match unaryHeld mem s x with
        | (s', none) => rowsHeld mem s' xs
        | (s', some e) => (s', some e)
      else rowsHeld mem s xs

/-- What a program does: write into the tensor in a cell, collect the batch in a cell (`width` positions), collect row `row` of a cell as a StreamTensor of `n` frames without batch axis. -/
inductive MemEv (α : Type) where
  | write (cell : Nat) (f : Nat → Nat → α)
  | batch (cell : Nat) (md : Meta) (width : Nat)
  | single (cell row : Nat) (md : Meta) (n : Nat)

/-- One step: memory, collector, exception. -/
def stepHeld (mem : Mem α) (s : HColl α) : MemEv α → Mem α × HColl α × Option PyErr
  | .write cell f => (mem.write cell f, s, none)
  | .batch cell md w =>
    match md.unbindBatch >>= unpadHeld mem cell w 0 with
    | .ok rows => (mem, rowsHeld mem s rows)
    | .error e => (mem, s, some e)
  | .single cell row md n =>
    if md.size = 1 then (mem, unaryHeld mem s ⟨md, .view cell row n⟩) else (mem, s, some .assertionError)

/-- A program that catches the exceptions: the memory and the collector at the end, the exceptions in order. -/
def runHeld : Mem α → HColl α → List (MemEv α) → Mem α × HColl α × List (Option PyErr)
  | mem, s, [] => (mem, s, [])
  | mem, s, e :: es =>
    let r := stepHeld mem s e
    let q := runHeld r.1 r.2.1 es
    (q.1, q.2.1, r.2.2 :: q.2.2)

end DS.Coll
