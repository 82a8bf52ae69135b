import Verif.Py
/-!
# Model of warnings: `dreamstream/warnings.py` on top of Python's `warnings` module

Filters have no message, module or line pattern (`simplefilter`). The actions "once" and "module" and `catch_warnings` are left out. A warning is identified by
the module and line that it is attributed to, its text and its category.
-/

namespace DS.Warn

/-- Warning categories. `TorchStreamWarning` is a `RuntimeWarning` (warnings.py:4), `TorchStreamFallbackWarning` a `TorchStreamWarning` (warnings.py:12). -/
inductive Cat where
  | warning | runtime | stream | fallback
  | other (name : String)
  deriving DecidableEq, Repr

/-- `issubclass(c, d)`. -/
def Cat.sub (c d : Cat) : Bool :=
  d == .warning || c == d || match c with
    | .stream => d == .runtime
    | .fallback => d == .stream || d == .runtime
    | _ => false

/-- What a filter does with a warning. -/
inductive Action where
  | ignore | default | always | error
  deriving DecidableEq, Repr

/-- A warning as `warnings.warn` gets it: where it is attributed to (`stacklevel=2`: the line of tensor.py or overrides.py that calls `warn` or `fallback_operation_warning`, not the line of the user), its text and category. -/
structure Warning where
  module : String
  line : Nat
  text : String
  cat : Cat
  deriving DecidableEq, Repr

/-- The state of Python's `warnings` module: the filters, the version of the filters, and the registries. A registry is emptied when a warning arrives and its version is not the
current one, so an entry counts only if it was made under the current version: entries carry the version they were made under. -/
structure State where
  filters : List (Action × Cat)
  version : Nat
  seen : List (Warning × Nat)
  deriving DecidableEq, Repr

/-- `warnings.simplefilter(action, category)`: the filter is moved to the front; every change has a new version. -/
def simplefilter (a : Action) (c : Cat) (s : State) : State :=
  { s with filters := (a, c) :: s.filters.erase (a, c), version := s.version + 1 }

/-- `suppress_warnings`, warnings.py:39-41. -/
def suppressWarnings (suppress : Bool) (s : State) : State := simplefilter (if suppress then .ignore else .default) .stream s

/-- The action of the first filter that matches; "default" if none does. -/
def actionOf (filters : List (Action × Cat)) (c : Cat) : Action :=
  match filters.find? fun f => c.sub f.2 with
  | some f => f.1
  | none => .default

/-- What the user gets to see of a warning. -/
inductive Effect where
  | shown | silent | raised
  deriving DecidableEq, Repr

/-- `warnings.warn` (used by `warn`, warnings.py:8-9, and `fallback_operation_warning`, warnings.py:30-35; called from tensor.py:809-812 and overrides.py:556, 729, 753, 757,
789, 793, 818). -/
def emit (w : Warning) (s : State) : Effect × State :=
  if (w, s.version) ∈ s.seen then (.silent, s)
  else
    match actionOf s.filters w.cat with
    | .ignore => (.silent, s)
    | .error => (.raised, s)
    | .always => (.shown, s)
    | .default => (.shown, { s with seen := (w, s.version) :: s.seen })

/-- What can happen: a call of `suppress_warnings`, another change of the filters, a warning. -/
inductive Event where
  | suppress (b : Bool)
  | filter (a : Action) (c : Cat)
  | warn (w : Warning)
  deriving DecidableEq, Repr

/-- One event. -/
def step (s : State) : Event → Option Effect × State
  | .suppress b => (none, suppressWarnings b s)
  | .filter a c => (none, simplefilter a c s)
  | .warn w => let r := emit w s; (some r.1, r.2)

/-- A history of events: the effects of its warnings, in order, and the state afterwards. -/
def play (s : State) : List Event → List (Warning × Effect) × State
  | [] => ([], s)
  | .warn w :: es => let r := emit w s; let q := play r.2 es; ((w, r.1) :: q.1, q.2)
  | e :: es => play (step s e).2 es

end DS.Warn
