import Verif.Model.Meta
/-!
# Model of `LazyProxy` around the `StreamMetadata` constructor (dreamstream/tensor.py:35-87, 119-178), and of the id part of `__repr__`
-/

namespace DS.Lazy

/-- Constructor arguments (columns given as lists). -/
structure Args where
  ids : List String
  sos : List Bool
  eos : List Bool
  lengths : List Int
  deriving DecidableEq, Repr

/-- The slots of the wrapped object; a slot is `none` until assigned (reading it raises AttributeError). -/
structure Slots where
  ids : Option (List String) := none
  sos : Option (List Bool) := none
  eos : Option (List Bool) := none
  lengths : Option (List Int) := none
  deriving DecidableEq, Repr

/-- A proxy: its arguments and the wrapped object (`_obj`), `none` before the first use. -/
structure Proxy where
  args : Args
  obj : Option Slots := none
  deriving DecidableEq, Repr

/-- `__init_obj`, tensor.py:83-86: `_obj` is set *before* `__init__` runs, so an object whose constructor raises stays in place with
unset slots. The constructor check is tensor.py:139-140. -/
def initObj (p : Proxy) : Proxy × Py Unit :=
  match p.obj with
  | some _ => (p, .ok ())
  | none =>
    if p.args.ids.length = p.args.lengths.length ∧ p.args.lengths.length = p.args.sos.length ∧ p.args.sos.length = p.args.eos.length then
      ({ p with obj := some ⟨some p.args.ids, some p.args.sos, some p.args.eos, some p.args.lengths⟩ }, .ok ())
    else ({ p with obj := some {} }, .error .valueError)

/-- Uses of a proxy: reading a column, its length, or assigning the `lengths` attribute. -/
inductive Use where
  | readSos | readEos | readLengths | readIds | len
  | setLengths (v : List Int)
  deriving DecidableEq, Repr

/-- Values returned by uses. -/
inductive Val where
  | unit | ids (v : List String) | bools (v : List Bool) | ints (v : List Int) | nat (n : Nat)
  deriving DecidableEq, Repr

/-- A read of a slot. -/
def slot {α : Type} (f : α → Val) : Option α → Py Val
  | some v => .ok (f v)
  | none => .error .attributeError

/-- A use on the wrapped object (property getters and setters, tensor.py:180-204; `__len__`, 332-334). -/
def onObj (s : Slots) : Use → Slots × Py Val
  | .readSos => (s, slot .bools s.sos)
  | .readEos => (s, slot .bools s.eos)
  | .readLengths => (s, slot .ints s.lengths)
  | .readIds => (s, slot .ids s.ids)
  | .len => (s, slot (fun v => .nat v.length) s.ids)
  | .setLengths v => ({ s with lengths := some v }, .ok .unit)

/-- One use of a proxy, tensor.py:44-77. -/
def use (p : Proxy) (u : Use) : Proxy × Py Val :=
  match initObj p with
  | (p, .error e) => (p, .error e)
  | (p, .ok _) =>
    match p.obj with
    | none => (p, .error .attributeError)
    | some s => ({ p with obj := some (onObj s u).1 }, (onObj s u).2)

/-- The results of a sequence of uses (each failure is caught by the caller). -/
def uses (p : Proxy) : List Use → List (Py Val)
  | [] => []
  | u :: us => (use p u).2 :: uses (use p u).1 us

end DS.Lazy

namespace DS.Repr

/-- The loop of `__repr__`, tensor.py:354-358: `i` and `length` on entry; `acc` are the reprs collected so far. `fuel` bounds the number of
iterations (the caller passes more than the number of ids; each iteration increments `i`, and `ids[i + 1]` raises once `i + 1` is out of range). -/
def loop (rep : String → String) (ids : List String) : Nat → Nat → Nat → List String → Py (List String)
  | 0, _, _, acc => .ok acc
  | fuel + 1, i, length, acc =>
    if length < 80 then
      match ids[i]?, ids[i + 1]? with
      | some x, some y => loop rep ids fuel (i + 1) (length + (rep y).length + 2) (acc ++ [rep x])
      | _, _ => .error .indexError
    else .ok acc

/-- The ids shown by `__repr__`, tensor.py:347-362: all ids when they are short, otherwise the reprs of some first ids and of the last.
`rep` is Python's `repr` of a string. -/
def reprIds (rep : String → String) (ids : List String) : Py (List String) :=
  if (ids.map String.length).sum > 80 then
    match ids[0]?, ids[1]?, ids.getLast? with
    | some x, some y, some z => do
      let shown ← loop rep ids (ids.length + 1) 1 ((rep x).length + (rep z).length + 7 + (rep y).length) [rep x]
      .ok (shown ++ [rep z])
    | _, _, _ => .error .indexError
  else .ok (ids.map rep)

end DS.Repr
