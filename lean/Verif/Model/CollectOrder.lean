import Verif.Model.CollectorDict
/-!
# Model of `OutputCollector` with the order of its dictionary (dreamstream/data/data_objects.py:102-136)

`OutputCollector` is a `dict` (data_objects.py:102). A `dict` of Python ≥ 3.7 keeps its keys in the order in which they were put in; giving a new value to a key that is there keeps its place.
Here the dictionary is the list of its pairs, and `closed_entries` the list of the ids added to the set; otherwise it is the model of Model/Collector, written again branch by branch. Exceptions do not undo what happened before them.
-/

namespace DS.Coll
open Meta Conv

section
variable {α : Type}

/-- The collector: the pairs of the dictionary in their order and `closed_entries`, data_objects.py:103-106. -/
structure OColl (α : Type) where
  pairs : List (String × Entry α)
  closed : List String

/-- `OutputCollector()`. -/
def OColl.new : OColl α := ⟨[], []⟩

/-- `list(collector)`: the keys. -/
def OColl.keys (o : OColl α) : List String := o.pairs.map Prod.fst

/-- `collector.get(i)`. -/
def OColl.get (o : OColl α) (i : String) : Option (Entry α) := (o.pairs.find? fun p => p.1 == i).map Prod.snd

/-- `dict.__setitem__`: a known key keeps its place, a new one goes to the end. -/
def setPair (i : String) (e : Entry α) : List (String × Entry α) → List (String × Entry α)
  | [] => [(i, e)]
  | p :: ps => if p.1 = i then (i, e) :: ps else p :: setPair i e ps

/-- `self[_id] = …`. -/
def OColl.put (o : OColl α) (i : String) (e : Entry α) : OColl α := { o with pairs := setPair i e o.pairs }

/-- `_update_unary`, data_objects.py:118-136. -/
def OColl.updateUnary (o : OColl α) (x : Entry α) : OColl α × Option PyErr :=
  match pyGet x.md.ids 0 with
  | .error e => (o, some e)
  | .ok i =>
    if i ∈ o.closed then (o, some .valueError)                               -- 121-122
    else
      match item x.md.eos, item x.md.sos with
      | .ok eos, .ok sos =>
        let o' : OColl α := if eos then { o with closed := i :: o.closed } else o   -- 123-124
        match o'.get i with
        | some e =>
          if sos then (o', some .valueError)                                 -- 127-128
          else
            match catEntry e x with
            | .ok e' => (o'.put i e', none)                                  -- 131
            | .error err => (o', some err)
        | none => if sos then (o'.put i x, none) else (o', some .valueError) -- 133-136
      | _, _ => (o, some .runtimeError)

/-- The loop of data_objects.py:111-113 over the unpadded rows. -/
def OColl.updateRows (o : OColl α) : List (Entry α) → OColl α × Option PyErr
  | [] => (o, none)
  | x :: xs =>
    match x.md.maxLength with
    | .error e => (o, some e)
    | .ok ml =>
      if ml > 0 then
        match o.updateUnary x with
        | (o', none) => o'.updateRows xs
        | (o', some e) => (o', some e)
      else o.updateRows xs

/-- One iteration of `update`, data_objects.py:109-116. -/
def OColl.updateItem (o : OColl α) : Item α → OColl α × Option PyErr
  | .batch x =>
    match unpad x with
    | .ok rows => o.updateRows rows
    | .error e => (o, some e)
  | .single x => if x.md.size = 1 then o.updateUnary x else (o, some .assertionError)

/-- `update(*stream_tensors)`, data_objects.py:108-116. -/
def OColl.update (o : OColl α) : List (Item α) → OColl α × Option PyErr
  | [] => (o, none)
  | x :: xs =>
    match o.updateItem x with
    | (o', none) => o'.update xs
    | (o', some e) => (o', some e)

/-- `collector.pop(i)` or `del collector[i]` (methods of `dict`, data_objects.py:102): the pair goes, the others stay in order; KeyError if there is none. -/
def OColl.pop (o : OColl α) (i : String) : OColl α × Option PyErr :=
  if i ∈ o.keys then ({ o with pairs := o.pairs.filter fun p => p.1 != i }, none) else (o, some .keyError)

end
end DS.Coll
