import Verif.Model.Conv
/-!
# Model of patching and streaming modes (dreamstream/patches/general.py, modes.py, conv.py:60-73)

Module objects live in a store and are named by numbers; a module tree lists, for each module, its children (`children()`), each child
once (torch skips repeated children of one module). The same object may occur under different parents.
Like in Model/Collector, methods return the new store and the exception they raised, if any.
-/

namespace DS.Modes
open Conv

/-- What matters about the type of a module: exactly `nn.Conv1d` (with its parameters), a proper subclass of `nn.Conv1d`, an instance
of a type listed in general.py:30-43, or anything else. -/
inductive Kind where
  | conv1d (c : Cfg)
  | convSub (c : Cfg)
  | unsupported
  | other
  deriving DecidableEq, Repr

/-- A module object: `methods` says whether it has `online`/`offline`; `streaming` and `buffer` are attributes that may be absent;
`hooks` counts the registered pre/post hook pairs. -/
structure Node (α : Type) where
  kind : Kind
  methods : Bool
  streaming : Option Bool
  hooks : Nat
  buffer : Option (Buf α)

/-- A module tree. -/
inductive Tree where
  | node (id : Nat) (children : List Tree)

/-- The module objects. -/
abbrev Store (α : Type) := Nat → Node α

section
variable {α β : Type} [Zero α] [Zero β]

/-- Change one object. -/
def Store.modify (σ : Store α) (i : Nat) (f : Node α → Node α) : Store α := fun j => if j = i then f (σ j) else σ j

/-- `add_streaming_modes`, modes.py:21-26. -/
def addModes (n : Node α) : Node α := { n with methods := true, streaming := some false }

/-- `patch_conv_1d`, conv.py:60-73. (`kernel_width` is computed from the parameters, `Cfg.kw`.) -/
def patchConv (n : Node α) : Node α := { addModes n with buffer := some (fun _ => none), hooks := n.hooks + 1 }

/-- The effect of `patch_module` on the object, general.py:21-27; `type(module)` is looked up, so subclasses are not found. -/
def patchNode (n : Node α) : Node α :=
  match n.kind with
  | .conv1d _ => patchConv n
  | _ => addModes n

/-- `patch_module`, general.py:21-43: the check comes after the patching. -/
def patchModule (i : Nat) (σ : Store α) : Store α × Option PyErr :=
  (σ.modify i patchNode, if (σ i).kind = .unsupported then some .notImplementedError else none)

mutual
/-- `module.apply(patch_module)`, general.py:15-18: children first, then the module itself. -/
def patch : Tree → Store α → Store α × Option PyErr
  | .node i cs, σ =>
    match patchAll cs σ with
    | (σ', none) => patchModule i σ'
    | (σ', some e) => (σ', some e)
/-- `patch` on the children, one after the other. -/
def patchAll : List Tree → Store α → Store α × Option PyErr
  | [], σ => (σ, none)
  | t :: ts, σ =>
    match patch t σ with
    | (σ', none) => patchAll ts σ'
    | (σ', some e) => (σ', some e)
end

/-- The argument of `online`. -/
inductive Mode where
  | bool (b : Bool)
  | other
  deriving DecidableEq, Repr

mutual
/-- `module.online(mode)`, modes.py:6-14; AttributeError if the module has no such method. -/
def online (mode : Mode) : Tree → Store α → Store α × Option PyErr
  | .node i cs, σ =>
    if (σ i).methods = false then (σ, some .attributeError)
    else
      match mode with
      | .other => (σ, some .valueError)
      | .bool b => onlineAll mode cs (σ.modify i fun n => { n with streaming := some b })
/-- `online` on the children, one after the other. -/
def onlineAll (mode : Mode) : List Tree → Store α → Store α × Option PyErr
  | [], σ => (σ, none)
  | t :: ts, σ =>
    match online mode t σ with
    | (σ', none) => onlineAll mode ts σ'
    | (σ', some e) => (σ', some e)
end

/-- `module.offline()`, modes.py:17-19. -/
def offline (t : Tree) (σ : Store α) : Store α × Option PyErr := online (.bool false) t σ

/-- `n` pre-hooks one after the other in online mode, conv.py:13-42. The flag says whether the metadata object is still the caller's. -/
def preHooks (c : Cfg) (buf : Buf α) : Nat → ST α → Py (ST α)
  | 0, x => .ok x
  | n + 1, x => do
    let (x', _) ← preHook c buf x
    preHooks c buf n x'

/-- A call of a `Conv1d` object with `n` hook pairs. The first post-hook sets `_temp_buffer` to None (conv.py:49), so in online mode a
second one raises TypeError in `stream_buffer.update(None)` (48). Without hooks the override of `conv1d` runs alone. -/
def callHooks (c : Cfg) (g : List α → β) (n : Nat) (streaming : Bool) (buf : Buf α) : Input α → Py (Result β × Buf α)
  | .plain w rows =>
    if streaming = true ∧ n > 0 then .error .runtimeError
    else (torchConv1d c g c.padding w rows).map fun y => (.plain y.1 y.2, buf)
  | .stream x =>
    if n = 0 then (conv1d c g x).map fun y => (.stream y.1, buf)
    else if streaming then do
      let x' ← preHooks c buf n x
      let (y, items) ← conv1d c g x'
      if n > 1 then .error .typeError else .ok (.stream y, postHook buf y.md items)
    else .error .runtimeError

end
end DS.Modes
