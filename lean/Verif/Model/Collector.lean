import Verif.Model.Conv
/-!
# Model of `OutputCollector` (dreamstream/data/data_objects.py:102-136)

A StreamTensor without batch axis is a metadata object and its frames (the `LENGTH` axis; the other axes stay abstract, as in Model/Conv).
The dictionary is a function from ids (insertion order is not modelled). Because an exception does not undo what happened
before it, every method returns the new state and the exception it raised, if any. `names` always contain `LENGTH`.
-/

namespace DS.Coll
open Meta Conv

/-- A StreamTensor without batch axis; its width is the number of frames. -/
structure Entry (α : Type) where
  md : Meta
  frames : List α
  deriving DecidableEq, Repr

/-- The collector: the dictionary and `closed_entries`, data_objects.py:103-106. -/
structure Coll (α : Type) where
  entries : String → Option (Entry α)
  closed : String → Bool

/-- `OutputCollector()`. -/
def Coll.new {α : Type} : Coll α := ⟨fun _ => none, fun _ => false⟩

section
variable {α : Type}

/-- `column.item()`: RuntimeError unless there is exactly one element. -/
def item (c : List Bool) : Py Bool :=
  match c with
  | [b] => .ok b
  | _ => .error .runtimeError

/-- `torch.cat([self[_id], stream_tensor], dim=length_dim)`, overrides.py:74-83. -/
def catEntry (a x : Entry α) : Py (Entry α) := do
  let ml ← a.md.minLength
  if ml < a.frames.length then .error .notImplementedError            -- 76-78
  else do
    let m ← catLength [a.md, x.md]
    .ok ⟨m, a.frames ++ x.frames⟩

/-- `self[_id] = …`. -/
def Coll.put (s : Coll α) (i : String) (e : Entry α) : Coll α :=
  { s with entries := fun j => if j = i then some e else s.entries j }

/-- `self.closed_entries.add(_id)`. -/
def Coll.close (s : Coll α) (i : String) : Coll α :=
  { s with closed := fun j => if j = i then true else s.closed j }

/-- The part of `_update_unary` after the bookkeeping of closed ids, data_objects.py:126-136. -/
def store (s : Coll α) (i : String) (sos : Bool) (x : Entry α) : Coll α × Option PyErr :=
  match s.entries i with
  | some e =>
    if sos then (s, some .valueError)
    else
      match catEntry e x with
      | .ok e' => (s.put i e', none)
      | .error err => (s, some err)
  | none =>
    if sos then (s.put i x, none) else (s, some .valueError)

/-- `_update_unary`, data_objects.py:118-136. The columns of one metadata object have the same length, so `meta.sos.item()`
cannot raise once `meta.eos.item()` has not; it is evaluated here before the state changes. -/
def updateUnary (s : Coll α) (x : Entry α) : Coll α × Option PyErr :=
  match pyGet x.md.ids 0 with
  | .error e => (s, some e)
  | .ok i =>
    if s.closed i then (s, some .valueError)                          -- 121-122
    else
      match item x.md.eos, item x.md.sos with
      | .ok eos, .ok sos => store (if eos then s.close i else s) i sos x
      | _, _ => (s, some .runtimeError)

/-- Rows of a batch one by one, narrowed to their lengths: `unpad_sequence`, tensor.py:902-908. -/
def unpadRows (w : Nat) : List Meta → List (List α) → Py (List (Entry α))
  | m :: ms, r :: rs => do
    let x ← narrowRow m w r
    let xs ← unpadRows w ms rs
    .ok (⟨x.1, x.2⟩ :: xs)
  | _, _ => .ok []

/-- `t.unpad_sequence()`. -/
def unpad (x : ST α) : Py (List (Entry α)) := do
  let ms ← x.md.unbindBatch
  unpadRows x.width ms x.rows

/-- The loop of data_objects.py:111-113 over the unpadded rows. -/
def updateRows (s : Coll α) : List (Entry α) → Coll α × Option PyErr
  | [] => (s, none)
  | x :: xs =>
    match x.md.maxLength with
    | .error e => (s, some e)
    | .ok ml =>
      if ml > 0 then
        match updateUnary s x with
        | (s', none) => updateRows s' xs
        | (s', some e) => (s', some e)
      else updateRows s xs

/-- What `update` can be given: a StreamTensor with or without batch axis. -/
inductive Item (α : Type) where
  | batch (x : ST α)
  | single (x : Entry α)

/-- One iteration of `update`, data_objects.py:109-116. -/
def updateItem (s : Coll α) : Item α → Coll α × Option PyErr
  | .batch x =>
    match unpad x with
    | .ok rows => updateRows s rows
    | .error e => (s, some e)
  | .single x => if x.md.size = 1 then updateUnary s x else (s, some .assertionError)

/-- `update(*stream_tensors)`, data_objects.py:108-116. -/
def update (s : Coll α) : List (Item α) → Coll α × Option PyErr
  | [] => (s, none)
  | x :: xs =>
    match updateItem s x with
    | (s', none) => update s' xs
    | (s', some e) => (s', some e)

end
end DS.Coll
