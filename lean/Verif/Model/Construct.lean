import Verif.Model.Overrides
/-!
# Model of construction: `StreamMetadata(...)` with raw arguments, `as_stream_tensor`, `stream_tensor`, `x.T`, `decouple_recursive`, `rand_stream_tensor`

Not modelled: dtypes, devices and gradients (arguments `dtype`, `device`, `requires_grad`, `pin_memory`), Ellipsis in names.
-/

namespace DS.Tn

/-! ## The metadata constructor with raw arguments -/

/-- An argument for a column: a Python scalar, a Python list, or a tensor (its shape and its entries in row-major order). -/
inductive Arg (A : Type) where
  | scalar (a : A)
  | list (as : List A)
  | ten (shape : List Nat) (as : List A)
  deriving DecidableEq, Repr

/-- The argument for `ids`: a string, or a list of objects (`none` is an object that is not a string). -/
inductive IdArg where
  | str (s : String)
  | list (xs : List (Option String))
  deriving DecidableEq, Repr

/-- A column as it is stored: shape and entries. -/
structure Col (A : Type) where
  shape : List Nat
  vals : List A
  deriving DecidableEq, Repr

/-- The object that the constructor leaves behind. `chunk` is stored as it was given (tensor.py:164). -/
structure RawMeta where
  ids : List String
  sos : Col Bool
  eos : Col Bool
  lengths : Col Int
  chunk : Option (Arg Int)
  deriving DecidableEq, Repr

section
variable {A : Type}

/-- Scalars are wrapped in a list, tensor.py:132-137. (A Python bool is an int, so `lengths=True` is wrapped as well; an int for `sos` or `eos` is not a
bool and has no `len`: such arguments are not modelled.) -/
def Arg.wrap : Arg A → Arg A
  | .scalar a => .list [a]
  | x => x

/-- `len(x)`: TypeError for a 0-d tensor. -/
def Arg.len : Arg A → Py Nat
  | .scalar _ => .error .typeError
  | .list as => .ok as.length
  | .ten [] _ => .error .typeError
  | .ten (n :: _) _ => .ok n

/-- `torch.as_tensor(x, dtype=...)`, tensor.py:142-144. -/
def Arg.col : Arg A → Col A
  | .scalar a => ⟨[], [a]⟩
  | .list as => ⟨[as.length], as⟩
  | .ten s as => ⟨s, as⟩

/-- `[ids]` for a string, tensor.py:130-131. -/
def IdArg.items : IdArg → List (Option String)
  | .str s => [some s]
  | .list xs => xs

/-- `StreamMetadata.__init__`, tensor.py:119-178, as it is executed on first use. Python evaluates the chained comparison of 139 from left to right and stops at the first
difference, so a 0-d tensor raises TypeError only if the comparison gets that far. -/
def buildMeta (ids : IdArg) (sos eos : Arg Bool) (lengths : Arg Int) (chunk : Option (Arg Int)) : Py RawMeta := do
  let n := ids.items.length
  let l ← lengths.wrap.len
  if n ≠ l then .error .valueError                                     -- 139-140
  else do
    let s ← sos.wrap.len
    if l ≠ s then .error .valueError
    else do
      let e ← eos.wrap.len
      if s ≠ e then .error .valueError
      else
        match ids.items.mapM id with
        | none => .error .valueError                                   -- 154-155
        | some ns =>
          let lc := lengths.wrap.col
          let ec := eos.wrap.col
          if lc.shape.length > 1 ∨ ec.shape.length > 1 ∨ lc.shape.length > 1 then .error .valueError   -- 157-158
          else .ok { ids := ns, sos := sos.wrap.col, eos := ec, lengths := lc, chunk }

end

/-! ## StreamTensors from tensors -/

section
variable {α : Type}

/-- `refine_names` on one axis: an unnamed axis takes any name, a named axis only its own. -/
def refineName : Option String → Option String → Py (Option String)
  | none, n => .ok n
  | some a, n => if n = some a then .ok n else .error .runtimeError

/-- `refine_names` axis by axis. -/
def refineAll : List (Option String) → List (Option String) → Py (List (Option String))
  | a :: as, b :: bs => do
    let c ← refineName a b
    let cs ← refineAll as bs
    .ok (c :: cs)
  | [], [] => .ok []
  | _, _ => .error .runtimeError

/-- `t.refine_names(*names)` of a tensor that may have names (trusted description of torch): RuntimeError for a wrong number of names, invalid names, or a name that differs
from the one the axis has. -/
def Ten.refineNamed (t : Ten α) (names : List (Option String)) : Py (Ten α) := do
  let ns ← refineAll t.names names
  if namesOK ns then .ok { t with names := ns } else .error .runtimeError

/-- The metadata that an operand carries: AttributeError for a plain tensor. -/
def Opd.md : Opd α → Py Meta
  | .stream x => .ok x.md
  | .plain _ => .error .attributeError

/-- `as_stream_tensor`, tensor.py:916-929. -/
def asStream (data : Opd α) (md : Option Meta) (names : Option (List (Option String))) : Py (STen α) := do
  let t ← match names with
    | none => .ok data.ten
    | some ns => data.ten.refineNamed ns
  let m ← match md with
    | none => data.md
    | some m => .ok m
  .ok ⟨t, m⟩

/-- `stream_tensor`, tensor.py:932-950: a copy of the data with the given names; if torch refuses the names, once more with `rename_` (which accepts the single name `None`). -/
def streamTensor (data : Opd α) (md : Meta) (names : List (Option String)) : Py (STen α) := do
  let t ← data.ten.unnamed.rename names
  .ok ⟨t, md⟩

/-- `x.decouple(keep_names)`, tensor.py:910-913 with 880-885. -/
def decouple (x : STen α) (keepNames : Bool) : Ten α × Meta × List (Option String) :=
  (if keepNames then x.t else x.t.unnamed, x.md, x.t.names)

/-- `x.T`, tensor.py:862-864 (of a tensor with at least one axis). -/
def STen.T (x : STen α) : Py (STen α) := permute x ((List.range x.t.ndim).reverse.map fun (k : Nat) => (k : Int))

/-- `x.batch_size()`, tensor.py:873-874 with 846-848. -/
def STen.batchSize (x : STen α) : Py Nat := do
  let b ← nameIndex x.t.names BATCH
  .ok (x.t.shape.getD b 0)

/-- `x.max_length()`, tensor.py:876-878 with 850-852. -/
def STen.maxLen (x : STen α) : Py Nat := do
  let l ← nameIndex x.t.names LENGTH
  .ok (x.t.shape.getD l 0)

/-! ## Nested structures -/

/-- Kinds of Python sequences: what `type(x)(generator)` does depends on them. -/
inductive SeqKind where
  | list
  | tuple
  | namedtuple
  deriving DecidableEq, Repr

/-- Kinds of Python mappings. -/
inductive MapKind where
  | dict
  | defaultdict
  deriving DecidableEq, Repr

/-- Python objects as `decouple_recursive` sees them; `atom` is any other object, a generator for instance, and `set` stands for containers that are neither
sequences nor mappings. -/
inductive Obj (α : Type) where
  | stream (x : STen α)
  | ten (t : Ten α)
  | str (s : String)
  | atom
  | seq (k : SeqKind) (xs : List (Obj α))
  | map (k : MapKind) (keys : List String) (xs : List (Obj α))
  | set (xs : List (Obj α))

mutual
/-- `decouple_recursive(x, metas, names)`, tensor.py:976-994, with lists for `metas` and `names`: the result and what is appended to the two lists. `type(x)(generator)` raises TypeError for
a named tuple with several fields (the generator becomes the first field of a named tuple with one field) and for a `defaultdict` (whose first argument is the default factory). -/
def decoupleRec : Obj α → Py (Obj α × List (Meta × List (Option String)))
  | .stream x => .ok (.ten x.t.unnamed, [(x.md, x.t.names)])
  | .map .dict ks xs => do
    let r ← decoupleRecs xs
    .ok (.map .dict ks r.1, r.2)
  | .map .defaultdict _ _ => .error .typeError
  | .str s => .ok (.str s, [])
  | .seq .namedtuple [_] => .ok (.seq .namedtuple [.atom], [])
  | .seq .namedtuple _ => .error .typeError
  | .seq k xs => do
    let r ← decoupleRecs xs
    .ok (.seq k r.1, r.2)
  | .ten t => .ok (.ten t, [])
  | .atom => .ok (.atom, [])
  | .set xs => .ok (.set xs, [])

/-- The generator of tensor.py:988, 992. -/
def decoupleRecs : List (Obj α) → Py (List (Obj α) × List (Meta × List (Option String)))
  | [] => .ok ([], [])
  | x :: xs => do
    let r ← decoupleRec x
    let rs ← decoupleRecs xs
    .ok (r.1 :: rs.1, r.2 ++ rs.2)
end

/-! ## Random StreamTensors -/

/-- `rand_stream_tensor`, random.py:7-17. The draws are arguments: `data` the random data of the given size, `lens` the products of 13 cut to integers, `sos`, `eos` the comparisons of
14-15 (one draw per row). `size(name)` raises RuntimeError for an unknown name. -/
def randStream (data : Ten α) (names : List (Option String)) (lens : List Int) (sos eos : List Bool) : Py (STen α) := do
  let t ← data.unnamed.rename names
  if BATCH ∈ t.names ∧ LENGTH ∈ t.names then do
    let n := t.shape.getD (t.names.idxOf BATCH) 0
    let m ← Meta.init ((List.range n).map toString) sos eos lens none
    .ok ⟨t, m⟩
  else .error .runtimeError

end
end DS.Tn
