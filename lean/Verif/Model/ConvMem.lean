import Verif.Model.Conv
/-!
# Model of what a convolution does to its surroundings: parallel branches, the caller's frames, reused memory, failed calls

Model/Conv describes single calls by value. Here the same code is looked at for what it shares with the caller.
-/

namespace DS.Conv
section
variable {α β : Type} [Zero α] [Zero β]

/-- Two patched convolutions called one after the other on the same StreamTensor object (`a(x)`, then `b(x)`); the second call finds the metadata
that the first one left (overrides.py:215, 252: the metadata object of the input is changed and becomes the one of the output). -/
def parallel {γ : Type} [Zero γ] (c₁ : Cfg) (g₁ : List α → β) (b₁ : Buf α) (c₂ : Cfg) (g₂ : List α → γ) (b₂ : Buf α) (x : ST α) :
    Py (Out α β × Out α γ) := do
  let o₁ ← forward c₁ g₁ b₁ x
  let o₂ ← forward c₂ g₂ b₂ { x with md := o₁.caller }
  .ok (o₁, o₂)

/-- A sequence of such pairs of calls, threading both buffers. -/
def parallelRun {γ : Type} [Zero γ] (c₁ : Cfg) (g₁ : List α → β) (c₂ : Cfg) (g₂ : List α → γ) :
    Buf α → Buf α → List (ST α) → Py ((List (ST β) × Buf α) × (List (ST γ) × Buf α))
  | b₁, b₂, [] => .ok (([], b₁), ([], b₂))
  | b₁, b₂, x :: xs => do
    let (o₁, o₂) ← parallel c₁ g₁ b₁ c₂ g₂ b₂ x
    let ((ys, e₁), (zs, e₂)) ← parallelRun c₁ g₁ c₂ g₂ o₁.buf o₂.buf xs
    .ok ((o₁.y :: ys, e₁), (o₂.y :: zs, e₂))

/-- The rows of the StreamTensor given to `overrides.conv1d` after the call: `input` is the tensor itself, without names
(overrides.py:215, tensor.py:880-885: shared storage), `F.pad` copies (231, 233), and the assignment of 235 writes into what `input` is then. -/
def rowsAfter (c : Cfg) (x : ST α) : List (List α) :=
  if c.padding > 0 then
    let m := { x.md with lengths := padLengths c.padding x.md }
    if m.allStarting && m.allEnding then x.rows
    else
      match m.maxLength with
      | .error _ => x.rows
      | .ok ml => if ml - x.width > 0 then x.rows else shiftStarting c.padding m x.rows
  else x.rows

/-- The same for a call of a patched online module: the pre-hook passes its argument on, or builds a new tensor (patches/conv.py:25-42). -/
def forwardRowsAfter (c : Cfg) (x : ST α) : List (List α) :=
  if c.kw > 1 ∧ x.md.allStarting = false then x.rows else rowsAfter c x

/-- The metadata of the StreamTensor given to `overrides.conv1d` when the call raises: the lengths have been changed (overrides.py:217-223) before anything can
raise (230, 249). -/
def metaAfterRaise (c : Cfg) (x : ST α) : Meta :=
  if c.padding > 0 then { x.md with lengths := padLengths c.padding x.md } else x.md

/-- The metadata of the argument of a patched online module when the call raises: the pre-hook works on a copy or raises itself (patches/conv.py:25-42), or passes its
argument on. -/
def forwardMetaAfterRaise (c : Cfg) (x : ST α) : Meta :=
  if c.kw > 1 ∧ x.md.allStarting = false then x.md else metaAfterRaise c x

/-! ## Reused memory -/

/-- What an entry of `stream_buffer` is: frames of its own, or a view of frames `start..stop` of row `row` of the tensor in memory cell `cell`
(overrides.py:245: basic indexing gives a view of `input`). -/
inductive Src (α : Type) where
  | own (frames : List α)
  | view (cell row start stop : Nat)

/-- The caller's memory: the rows of the tensor in each cell. -/
abbrev Memory (α : Type) := Nat → List (List α)

/-- The frames that a buffer entry shows now. -/
def Src.frames (mem : Memory α) : Src α → List α
  | .own f => f
  | .view cell row start stop => (((mem cell).getD row []).take stop).drop start

/-- Whether `input` of overrides.py:245 is still the caller's tensor: the pre-hook did not concatenate (patches/conv.py:25) and no `F.pad` took place
(overrides.py:227-233). -/
def aliases (c : Cfg) (x : ST α) : Bool :=
  if c.kw > 1 ∧ x.md.allStarting = false then false
  else if c.padding > 0 then
    let m := { x.md with lengths := padLengths c.padding x.md }
    if m.allStarting && m.allEnding then true
    else
      match m.maxLength with
      | .error _ => true
      | .ok ml => decide (ml - x.width ≤ 0)
  else true

/-- The entries of overrides.py:243-245 as views of row `k`, `k + 1`, … of a cell. -/
def bufViews (c : Cfg) (cell : Nat) : Nat → List String → List Bool → List Int → List (String × Src α)
  | k, id :: ids, e :: es, l :: ls =>
    (if e then [] else [(id, .view cell k (outLen c l * c.stride).toNat l.toNat)]) ++ bufViews c cell (k + 1) ids es ls
  | _, _, _, _ => []

/-- The buffer of a module, entry by entry. -/
abbrev SrcBuf (α : Type) := String → Option (Src α)

/-- What the buffer shows now. -/
def SrcBuf.now (mem : Memory α) (b : SrcBuf α) : Buf α := fun i => (b i).map (Src.frames mem)

/-- `stream_buffer.update` and the deletions, patches/conv.py:48-55, with the entries as sources. -/
def postSrc (b : SrcBuf α) (m : Meta) (items : List (String × Src α)) : SrcBuf α :=
  let b := items.foldl (fun b kv => fun i => if i = kv.1 then some kv.2 else b i) b
  if m.anyEnding then
    (m.ids.zip m.eos).foldl (fun b ie => if ie.2 then fun i => if i = ie.1 then none else b i else b) b
  else b

/-- The lengths that decide the views (`meta.lengths` at overrides.py:243). -/
def viewLengths (c : Cfg) (m : Meta) : List Int := if c.padding > 0 then padLengths c.padding m else m.lengths

/-- The new entries of one call: views of the caller's tensor, or frames of their own. -/
def srcItems (c : Cfg) (cell : Nat) (x : ST α) (items : List (String × List α)) : List (String × Src α) :=
  if aliases c x then
    if c.kw > 1 ∧ x.md.allEnding = false then bufViews c cell 0 x.md.ids x.md.eos (viewLengths c x.md) else []
  else items.map fun kv => (kv.1, .own kv.2)

/-- What a program with its own chunk memory does: write a tensor into a cell, or call the module on the tensor in a cell, with its
metadata and width. -/
inductive Ev (α : Type) where
  | write (cell : Nat) (rows : List (List α))
  | call (cell : Nat) (md : Meta) (width : Nat)

/-- One call: pre-hook, `conv1d`, post-hook as in `forward`, with the buffer entries as sources. In-place changes of the caller's rows (see
`rowsAfter`) are made. -/
def memCall (c : Cfg) (g : List α → β) (mem : Memory α) (b : SrcBuf α) (cell : Nat) (x : ST α) : Py (ST β × SrcBuf α × Memory α) := do
  let (x', _) ← preHook c (b.now mem) x
  let (y, items) ← conv1d c g x'
  .ok (y, postSrc b y.md (srcItems c cell x items), fun k => if k = cell then forwardRowsAfter c x else mem k)

/-- A program: outputs in order. -/
def memRun (c : Cfg) (g : List α → β) : Memory α → SrcBuf α → List (Ev α) → Py (List (ST β))
  | _, _, [] => .ok []
  | mem, b, .write cell rows :: evs => memRun c g (fun k => if k = cell then rows else mem k) b evs
  | mem, b, .call cell md width :: evs => do
    let (y, b', mem') ← memCall c g mem b cell { md, width, rows := mem cell }
    let ys ← memRun c g mem' b' evs
    .ok (y :: ys)

/-! ## Any sequence of calls -/

/-- A history of calls in changing modes; a call that raises leaves `stream_buffer` as it is (patches/conv.py:13-57) and the program goes on. The results are
kept. -/
def calls (c : Cfg) (g : List α → β) : Buf α → List (Bool × Input α) → List (Py (Result β)) × Buf α
  | buf, [] => ([], buf)
  | buf, (s, i) :: r =>
    match call c g s buf i with
    | .ok (y, buf') => ((.ok y :: (calls c g buf' r).1), (calls c g buf' r).2)
    | .error e => ((.error e :: (calls c g buf r).1), (calls c g buf r).2)

/-- A call of a stack of layers in which a layer may raise (torch.nn.Sequential.forward): the layers before it have updated their `stream_buffer` (patches/conv.py:45-57),
the others have not. -/
def chainTry : List (Layer α × Buf α) → ST α → Py (ST α) × List (Layer α × Buf α)
  | [], x => (.ok x, [])
  | (l, b) :: s, x =>
    match l.step b x with
    | .error e => (.error e, (l, b) :: s)
    | .ok (y, b') => ((chainTry s y).1, (l, b') :: (chainTry s y).2)

/-- A history of calls of the stack; a call that raises is left as it is and the program goes on. -/
def chainCalls (s : List (Layer α × Buf α)) : List (ST α) → List (Py (ST α)) × List (Layer α × Buf α)
  | [] => ([], s)
  | x :: xs => ((chainTry s x).1 :: (chainCalls (chainTry s x).2 xs).1, (chainCalls (chainTry s x).2 xs).2)

end
end DS.Conv
