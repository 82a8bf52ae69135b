import Verif.Model.Residual
/-!
# Model of programs over several StreamTensors that share metadata objects

A StreamTensor holds a reference to its metadata object. The result of an elementwise function holds the *same* object as its (first) argument (`default_valid`, tensor.py:830-834),
and `conv1d` writes into the object of its argument and gives it to its result, unless the pre-hook has made a new one (overrides.py:213-256, patches/conv.py:25-42). Here this is modelled with a heap of
metadata objects; everywhere else metadata are immutable values, as in `PState` below.
Simplifications: all tensors have the shape (batch, channels, length) with frames in one type; the frames of different variables are never the same memory (none of these functions returns a view);
a program ends with the first exception.
-/

namespace DS.Conv
section
variable {α : Type} [Zero α]

/-- One statement; it defines the next variable. Variables are numbered in the order of their definition, modules by their names. -/
inductive Ins (α : Type) where
  /-- `f(x)` for an elementwise `f` such as `torch.relu`, func_coverage.py:60-77. -/
  | unary (f : α → α) (i : Nat)
  /-- `f(x, y)` for an elementwise `f` such as `+`. -/
  | binary (f : α → α → α) (i j : Nat)
  /-- A call of the patched online `Conv1d` number `m`. -/
  | conv (m i : Nat)

/-- The modules of a program. -/
abbrev Modules (α : Type) := Nat → Cfg × (List α → α)

/-- A variable: a reference to a metadata object, and the frames. -/
structure Var (α : Type) where
  ref : Nat
  width : Nat
  rows : List (List α)

/-- Metadata objects, the next unused reference, the variables, and the `stream_buffer`s of the modules. -/
structure MState (α : Type) where
  heap : Nat → Meta
  next : Nat
  vars : List (Var α)
  bufs : Nat → Buf α

/-- The StreamTensor that a variable shows. -/
def MState.see (s : MState α) (v : Var α) : ST α := { md := s.heap v.ref, width := v.width, rows := v.rows }

/-- The StreamTensor in variable `k`. -/
def MState.get (s : MState α) (k : Nat) : Option (ST α) := s.vars[k]?.map s.see

/-- `default_valid` for one argument, tensor.py:816-836: the frames are new, the metadata object is the argument's. -/
def mapST (f : α → α) (x : ST α) : ST α := { x with rows := x.rows.map (·.map f) }

/-- One statement on shared metadata objects. A variable that is not defined is reported as an UnboundLocalError. -/
def MState.step (ms : Modules α) (s : MState α) : Ins α → Py (MState α)
  | .unary f i =>
    match s.vars[i]? with
    | none => .error .unboundLocalError
    | some v =>
      let y := mapST f (s.see v)
      .ok { s with vars := s.vars ++ [⟨v.ref, y.width, y.rows⟩] }
  | .binary f i j =>
    match s.vars[i]?, s.vars[j]? with
    | some v, some w => do
      let z ← addST f (s.see v) (s.see w)
      .ok { s with vars := s.vars ++ [⟨v.ref, z.width, z.rows⟩] }
    | _, _ => .error .unboundLocalError
  | .conv m i =>
    match s.vars[i]? with
    | none => .error .unboundLocalError
    | some v => do
      let x := s.see v
      let o ← forward (ms m).1 (ms m).2 (s.bufs m) x
      let vars := s.vars.set i { v with rows := forwardRowsAfter (ms m).1 x }
      let bufs := fun k => if k = m then o.buf else s.bufs k
      -- the pre-hook makes a new tensor with new metadata (patches/conv.py:25-42), or `conv1d` works on the argument's
      if (ms m).1.kw > 1 ∧ x.md.allStarting = false then
        .ok { heap := fun k => if k = s.next then o.y.md else s.heap k, next := s.next + 1, vars := vars ++ [⟨s.next, o.y.width, o.y.rows⟩], bufs }
      else
        .ok { heap := fun k => if k = v.ref then o.y.md else s.heap k, next := s.next, vars := vars ++ [⟨v.ref, o.y.width, o.y.rows⟩], bufs }

/-- A program. -/
def MState.run (ms : Modules α) (s : MState α) : List (Ins α) → Py (MState α)
  | [] => .ok s
  | p :: ps => do
    let s' ← s.step ms p
    s'.run ms ps

/-- The state before a program: variable `k` is `xs[k]`, each with a metadata object of its own. -/
def MState.load (xs : List (ST α)) (bufs : Nat → Buf α) : MState α :=
  { heap := fun k => (xs[k]?.map (·.md)).getD ⟨[], [], [], [], none⟩, next := xs.length, vars := xs.mapIdx fun k x => ⟨k, x.width, x.rows⟩, bufs }

/-- The same programs with immutable StreamTensors: every variable keeps its value. -/
structure PState (α : Type) where
  vals : List (ST α)
  bufs : Nat → Buf α

/-- One statement on immutable StreamTensors. -/
def PState.step (ms : Modules α) (s : PState α) : Ins α → Py (PState α)
  | .unary f i =>
    match s.vals[i]? with
    | none => .error .unboundLocalError
    | some x => .ok { s with vals := s.vals ++ [mapST f x] }
  | .binary f i j =>
    match s.vals[i]?, s.vals[j]? with
    | some x, some y => do
      let z ← addST f x y
      .ok { s with vals := s.vals ++ [z] }
    | _, _ => .error .unboundLocalError
  | .conv m i =>
    match s.vals[i]? with
    | none => .error .unboundLocalError
    | some x => do
      let o ← forward (ms m).1 (ms m).2 (s.bufs m) x
      .ok { vals := s.vals ++ [o.y], bufs := fun k => if k = m then o.buf else s.bufs k }

/-- A program on immutable StreamTensors. -/
def PState.run (ms : Modules α) (s : PState α) : List (Ins α) → Py (PState α)
  | [] => .ok s
  | p :: ps => do
    let s' ← s.step ms p
    s'.run ms ps

end
end DS.Conv
