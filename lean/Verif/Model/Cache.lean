import Verif.Model.Meta
/-!
# Model of the cached summaries of `StreamMetadata` (dreamstream/tensor.py:108-118, 163-297)

One metadata object with its columns, its caches and its two dirty flags. A raised exception leaves the state as it is at
the point of the exception.
-/

namespace DS.Cache

/-- The slots of a `StreamMetadata` object that matter for the summaries (tensor.py:100-117). -/
structure State where
  sos : List Bool
  eos : List Bool
  lengths : List Int
  minLength : Option Int := none
  maxLength : Option Int := none
  lengthsUpdated : Bool := true
  anyStarting : Option Bool := none
  anyEnding : Option Bool := none
  allStarting : Option Bool := none
  allEnding : Option Bool := none
  anyStartingOrEnding : Option Bool := none
  allStartingAndEnding : Option Bool := none
  sosOrEosUpdated : Bool := true
  deriving DecidableEq, Repr

/-- The state after `__init__`, tensor.py:157-178. -/
def fresh (sos eos : List Bool) (lengths : List Int) : State := { sos, eos, lengths }

/-- `_update_lengths`, tensor.py:235-239. -/
def updateLengths (s : State) : Py State :=
  if s.lengthsUpdated then do
    let mn ← torchMin s.lengths
    let mx ← torchMax s.lengths
    .ok { s with minLength := some mn, maxLength := some mx, lengthsUpdated := false }
  else .ok s

/-- `_update_logicals`, tensor.py:289-297. -/
def updateLogicals (s : State) : State :=
  if s.sosOrEosUpdated then
    { s with
      anyStarting := some (s.sos.any id)
      anyEnding := some (s.eos.any id)
      allStarting := some (s.sos.all id)
      allEnding := some (s.eos.all id)
      anyStartingOrEnding := some (s.sos.any id || s.eos.any id)
      allStartingAndEnding := some (s.sos.all id && s.eos.all id)
      sosOrEosUpdated := false }
  else s

/-- `t[mask] = values` for a 1-D tensor (tensor.py:247, 256): IndexError unless mask and tensor have equal size,
RuntimeError unless there is one value per `True` or a single value (scalars are given as one value). -/
def maskAssign (xs : List Int) (mask : List Bool) (vs : List Int) : Py (List Int) :=
  if mask.length ≠ xs.length then .error .indexError
  else if vs.length = (mask.filter id).length then .ok (go xs mask vs)
  else match vs with
    | [v] => .ok (go xs mask (List.replicate xs.length v))
    | _ => .error .runtimeError
where
  go : List Int → List Bool → List Int → List Int
    | x :: xs, false :: bs, vs => x :: go xs bs vs
    | _ :: xs, true :: bs, v :: vs => v :: go xs bs vs
    | xs, _, _ => xs

/-- The summaries offered to users. -/
inductive Summary where
  | minLength | maxLength | anyStarting | anyEnding | allStarting | allEnding | anyStartingOrEnding | allStartingAndEnding
  deriving DecidableEq, Repr

/-- A summary is an integer or a bool. -/
abbrev Val := Int ⊕ Bool

/-- A cached value is returned as is (tensor.py:218, 228, 262, …); `None` (never computed) does not occur, see `Inv`. -/
def cachedInt : Option Int → Py Val
  | some v => .ok (.inl v)
  | none => .error .typeError
/-- As `cachedInt`, for the logical summaries. -/
def cachedBool : Option Bool → Py Val
  | some v => .ok (.inr v)
  | none => .error .typeError

/-- Reading a summary: `_update_lengths` / `_update_logicals`, then the cached slot (tensor.py:215-229, 259-287). -/
def read (s : State) : Summary → Py (Val × State)
  | .minLength => do let s ← updateLengths s; let v ← cachedInt s.minLength; .ok (v, s)
  | .maxLength => do let s ← updateLengths s; let v ← cachedInt s.maxLength; .ok (v, s)
  | .anyStarting => do let s := updateLogicals s; let v ← cachedBool s.anyStarting; .ok (v, s)
  | .anyEnding => do let s := updateLogicals s; let v ← cachedBool s.anyEnding; .ok (v, s)
  | .allStarting => do let s := updateLogicals s; let v ← cachedBool s.allStarting; .ok (v, s)
  | .allEnding => do let s := updateLogicals s; let v ← cachedBool s.allEnding; .ok (v, s)
  | .anyStartingOrEnding => do let s := updateLogicals s; let v ← cachedBool s.anyStartingOrEnding; .ok (v, s)
  | .allStartingAndEnding => do let s := updateLogicals s; let v ← cachedBool s.allStartingAndEnding; .ok (v, s)

/-- Uses of the public attributes. `addLengths k` is `meta.lengths += k`, `addStarting k` is `meta.starting_lengths += k`
(read a masked copy, add, assign). The `write…` operations are `meta.lengths[i] = v` etc.: element writes into the tensor that the
attribute returns, which do not go through a setter. -/
inductive Op where
  | setSos (v : List Bool)
  | setEos (v : List Bool)
  | setLengths (v : List Int)
  | setStarting (v : List Int)
  | setEnding (v : List Int)
  | addLengths (k : Int)
  | addStarting (k : Int)
  | addEnding (k : Int)
  | read (q : Summary)
  | writeLength (i : Nat) (v : Int)
  | writeSos (i : Nat) (v : Bool)
  | writeEos (i : Nat) (v : Bool)
  deriving DecidableEq, Repr

/-- The operations that go through the public attributes' setters, and reads (everything but element writes). -/
def Op.assigns : Op → Bool
  | .writeLength _ _ => false
  | .writeSos _ _ => false
  | .writeEos _ _ => false
  | _ => true

/-- `starting_lengths.setter`, tensor.py:245-248. -/
def setStarting (s : State) (v : List Int) : State :=
  match maskAssign s.lengths s.sos v with
  | .ok l => { s with lengths := l, lengthsUpdated := true }
  | .error _ => s

/-- `ending_lengths.setter`, tensor.py:254-257. -/
def setEnding (s : State) (v : List Int) : State :=
  match maskAssign s.lengths s.eos v with
  | .ok l => { s with lengths := l, lengthsUpdated := true }
  | .error _ => s

/-- One use of an attribute; on an exception the state is unchanged (tensor.py:184-257). -/
def step (s : State) : Op → State
  | .setSos v => { s with sos := v, sosOrEosUpdated := true }
  | .setEos v => { s with eos := v, sosOrEosUpdated := true }
  | .setLengths v => { s with lengths := v, lengthsUpdated := true }
  | .setStarting v => setStarting s v
  | .setEnding v => setEnding s v
  | .addLengths k => { s with lengths := s.lengths.map (· + k), lengthsUpdated := true }
  | .addStarting k =>
    match torchMask s.lengths s.sos with
    | .ok v => setStarting s (v.map (· + k))
    | .error _ => s
  | .addEnding k =>
    match torchMask s.lengths s.eos with
    | .ok v => setEnding s (v.map (· + k))
    | .error _ => s
  | .read q => match read s q with
    | .ok (_, s') => s'
    | .error _ => s
  | .writeLength i v => { s with lengths := s.lengths.set i v }
  | .writeSos i v => { s with sos := s.sos.set i v }
  | .writeEos i v => { s with eos := s.eos.set i v }

/-- A history of uses. -/
def run (s : State) (ops : List Op) : State := ops.foldl step s

end DS.Cache
