import Verif.Model.Collector
/-!
# Model of taking outputs out of an `OutputCollector`

`OutputCollector` is a `dict` (dreamstream/data/data_objects.py:102) that redefines `__init__` and `update` only. `del collector[i]`, `collector.pop(i)` and `collector.clear()` are those of `dict`: they do not touch `closed_entries`
(105, 121-124).
-/

namespace DS.Coll

variable {α : Type}

/-- `collector.pop(i)` or `del collector[i]`: KeyError if there is no such entry. -/
def Coll.pop (s : Coll α) (i : String) : Coll α × Option PyErr :=
  match s.entries i with
  | some _ => ({ s with entries := fun j => if j = i then none else s.entries j }, none)
  | none => (s, some .keyError)

/-- `collector.clear()`. -/
def Coll.clear (s : Coll α) : Coll α := { s with entries := fun _ => none }

/-- What a program does with a collector: collect a StreamTensor without batch axis, take an entry out, take all out. -/
inductive Act (α : Type) where
  | collect (x : Entry α)
  | pop (i : String)
  | clear

/-- One step: the new state and the exception, if any. -/
def Coll.act (s : Coll α) : Act α → Coll α × Option PyErr
  | .collect x => updateItem s (.single x)
  | .pop i => s.pop i
  | .clear => (s.clear, none)

/-- A program that catches the exceptions. -/
def Coll.acts (s : Coll α) : List (Act α) → Coll α
  | [] => s
  | a :: as => (s.act a).1.acts as

end DS.Coll
