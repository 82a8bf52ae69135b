import Verif.Model.Conv
import Verif.Model.Pad
import Mathlib.Algebra.BigOperators.Group.List.Basic
import Mathlib.Algebra.Group.Pi.Basic
/-!
# Model of online convolution on named tensors with channels: `overrides.conv1d` and the `Conv1d` hooks

Model/Conv has one value per time step and no names. Here the same code works on named tensors of any rank (Model/Tensor), with the weights and the bias of the layer. `overrides.conv1d`
puts the names aside (overrides.py:215) and takes axis 0 for the rows of the metadata, axis 1 for the channels and the last axis for the time, whatever the names are.
Entries are exact (any type with addition and multiplication); `torch.conv1d`, `F.pad`, `torch.roll` and `torch.stack` are trusted descriptions of torch. Lengths in the metadata are meant to be non-negative (a
negative `end` in overrides.py:245 would count from the end). Metadata are values (what the caller's object becomes: Model/Conv, Model/ConvMem).
-/

namespace DS.ConvT
open DS.Tn DS.Conv

/-- Weights of shape (`outs`, `ins`, kernel size), bias and `groups` of a `Conv1d`; `ins` is the number of input channels per group. -/
structure Kern (α : Type) where
  outs : Nat
  ins : Nat
  groups : Nat
  weight : Nat → Nat → Nat → α
  bias : Nat → α

section
variable {α : Type} [AddCommMonoid α] [Mul α]

/-- The `c`-th of the input channels that output channel `o` looks at (torch: the channels are divided into `groups` blocks). -/
def Kern.chan (k : Kern α) (o c : Nat) : Nat := o / (k.outs / k.groups) * k.ins + c

/-- The output in channel `o`, where `x c i` is the entry of input channel `c` under tap `i`: bias plus the weighted sum (torch). -/
def Kern.dot (k : Kern α) (ks : Nat) (x : Nat → Nat → α) (o : Nat) : α :=
  k.bias o + ((List.range k.ins).map fun c => ((List.range ks).map fun i => k.weight o c i * x (k.chan o c) i).sum).sum

/-- Position `j` of a line of `T` entries with `p` zeros on both sides. -/
def padded (p T : Nat) (x : Nat → α) (j : Nat) : α := if p ≤ j ∧ j < p + T then x (j - p) else 0

/-- `torch.conv1d(input, weight, bias, stride, padding, dilation, groups)` on an unnamed tensor, overrides.py:249: three axes, or two without batch; RuntimeError for other ranks, for a wrong number of channels and if the kernel does not fit. -/
def torchConv (k : Kern α) (c : Cfg) (p : Nat) (t : Ten α) : Py (Ten α) :=
  match t.shape with
  | [b, ch, w] =>
    if ch ≠ k.ins * k.groups ∨ k.outs % k.groups ≠ 0 ∨ w + 2 * p < c.kw then .error .runtimeError
    else .ok { shape := [b, k.outs, (w + 2 * p - c.kw) / c.stride + 1], names := [none, none, none]
               val := fun ix => k.dot c.ks (fun ch i => padded p w (fun j => t.val [ix.getD 0 0, ch, j]) (ix.getD 2 0 * c.stride + i * c.dil)) (ix.getD 1 0) }
  | [ch, w] =>
    if ch ≠ k.ins * k.groups ∨ k.outs % k.groups ≠ 0 ∨ w + 2 * p < c.kw then .error .runtimeError
    else .ok { shape := [k.outs, (w + 2 * p - c.kw) / c.stride + 1], names := [none, none]
               val := fun ix => k.dot c.ks (fun ch i => padded p w (fun j => t.val [ch, j]) (ix.getD 1 0 * c.stride + i * c.dil)) (ix.getD 0 0) }
  | _ => .error .runtimeError

/-- The size of the last axis, `input.size(-1)`. -/
def lastSize (t : Ten α) : Nat := t.shape.getD (t.ndim - 1) 0

/-- `F.pad(input, (a, b))`, overrides.py:231, 233: zeros before and after on the last axis. -/
def padLast (a b : Nat) (t : Ten α) : Ten α :=
  { t with shape := t.shape.set (t.ndim - 1) (a + lastSize t + b)
           val := fun ix => if a ≤ ix.getD (t.ndim - 1) 0 ∧ ix.getD (t.ndim - 1) 0 < a + lastSize t then t.val (ix.modify (t.ndim - 1) (· - a)) else 0 }

/-- `input[meta.sos] = torch.roll(input[meta.sos], shifts=p, dims=-1)`, overrides.py:235: IndexError unless the mask has the size of axis 0. -/
def rollStarting (p : Nat) (sos : List Bool) (t : Ten α) : Py (Ten α) :=
  if sos.length ≠ t.shape.headD 0 then .error .indexError
  else .ok { t with val := fun ix => if sos.getD (ix.headD 0) false
                                     then t.val (ix.modify (t.ndim - 1) fun j => (j + (lastSize t - p % lastSize t)) % lastSize t)
                                     else t.val ix }

/-- overrides.py:227-233: widen the last axis to the longest padded length. -/
def widenT (p : Nat) (m : Meta) (t : Ten α) (ml : Int) : Py (Ten α) :=
  let applied := ml - lastSize t
  if applied > 0 then
    if m.allStarting then
      if applied ≥ p then .ok (padLast p (applied - p).toNat t) else .error .assertionError
    else .ok (padLast 0 applied.toNat t)
  else .ok t

/-- The padding block, overrides.py:217-236: the metadata with padded lengths, the padding left for torch to apply, and the tensor. -/
def applyPaddingT (c : Cfg) (m : Meta) (t : Ten α) : Py (Meta × Nat × Ten α) :=
  if c.padding > 0 then
    let m := { m with lengths := padLengths c.padding m }
    if m.allStarting && m.allEnding then .ok (m, c.padding, t)
    else do
      let ml ← m.maxLength
      let t ← widenT c.padding m t ml
      let t ← if m.anyStarting && !m.allStarting then rollStarting c.padding m.sos t else .ok t
      .ok (m, 0, t)
  else .ok (m, 0, t)

/-- `input[i, ..., start:end]`, overrides.py:245: IndexError if there is no row `i`; the slice is clamped to the axis. -/
def rowSlice (t : Ten α) (i start stop : Nat) : Py (Ten α) :=
  if i < t.shape.headD 0 then
    .ok { shape := t.shape.tail.set (t.ndim - 2) (min stop (lastSize t) - start), names := t.names.tail
          val := fun ix => t.val (i :: ix.modify (t.ndim - 2) (· + start)) }
  else .error .indexError

/-- The loop of overrides.py:243-245 from row `i` on. -/
def bufItemsT (c : Cfg) (t : Ten α) : Nat → List String → List Bool → List Int → Py (List (String × Ten α))
  | i, id :: ids, e :: es, l :: ls => do
    let here ← if e then .ok [] else (rowSlice t i (outLen c l * c.stride).toNat l.toNat).map fun r => [(id, r)]
    let rest ← bufItemsT c t (i + 1) ids es ls
    .ok (here ++ rest)
  | _, _, _, _ => .ok []

/-- The new buffer, overrides.py:241-246. -/
def tempBufferT (c : Cfg) (m : Meta) (t : Ten α) : Py (List (String × Ten α)) :=
  if c.kw > 1 ∧ m.allEnding = false then bufItemsT c t 0 m.ids m.eos m.lengths else .ok []

/-- `output *= mask.unsqueeze(1)`, overrides.py:254-255 with utils/operations.py:34-43: the mask has shape (rows of the metadata, 1, time) and must broadcast to the output's own shape; RuntimeError otherwise.
(An infinite entry times 0 would be NaN, which is not modelled.) -/
def maskT (outs : List Int) (t : Ten α) : Py (Ten α) :=
  match t.shape with
  | [b, _, _] =>
    if outs.length = b ∨ outs.length = 1 then
      .ok { t with val := fun ix => if (ix.getD 2 0 : Int) < outs.getD (bcoord outs.length (ix.getD 0 0)) 0 then t.val ix else 0 }
    else .error .runtimeError
  | _ => .error .runtimeError

/-- `overrides.conv1d`, overrides.py:193-256: the output and `_temp_buffer`. -/
def conv1dT (k : Kern α) (c : Cfg) (x : STen α) : Py (STen α × List (String × Ten α)) := do
  let (m, p, t) ← applyPaddingT c x.md x.t.unnamed                       -- 215-236
  let outs := m.lengths.map (outLen c)                                   -- 239
  let buffer ← tempBufferT c m t                                         -- 241-246
  let y ← torchConv k c p t                                              -- 249
  let y ← y.rename x.t.names                                             -- 250
  let y ← maskT outs y                                                   -- 254-255
  .ok (⟨y, { m with lengths := outs }⟩, buffer)

/-- `stream_buffer` of a module. -/
abbrev BufT (α : Type) := String → Option (Ten α)

/-- `torch.stack(buffer_data)`, patches/conv.py:33: TypeError if an entry is `None`, RuntimeError if the shapes differ. -/
def stackT (bs : List (Option (Ten α))) : Py (Ten α) :=
  match bs.mapM id with
  | none => .error .typeError
  | some [] => .error .runtimeError
  | some (t :: ts) =>
    if ∀ u ∈ ts, u.shape = t.shape then
      .ok { shape := (ts.length + 1) :: t.shape, names := none :: t.shape.map fun _ => none
            val := fun ix => (((t :: ts)[ix.headD 0]?).map fun u => u.val ix.tail).getD 0 }
    else .error .runtimeError

/-- `0 if x is None else x.size(-1)`, patches/conv.py:27. -/
def bufLenT (b : Option (Ten α)) : Nat := (b.map lastSize).getD 0

/-- `x if b is None else torch.cat([b, x], dim=-1)`, patches/conv.py:39. -/
def prependT (x : STen α) : Option (Ten α) → Py (STen α)
  | none => .ok x
  | some b => do
    match ← cat (.plain b) [.stream x] (-1) with
    | .stream y => .ok y
    | .plain _ => .error .typeError                                      -- does not happen: `cat` with a StreamTensor gives one

/-- The rows with their buffers in front, patches/conv.py:39 (`zip` stops with the shorter list). -/
def prependAll : List (STen α) → List (Option (Ten α)) → Py (List (STen α))
  | x :: xs, b :: bs => do
    let y ← prependT x b
    let ys ← prependAll xs bs
    .ok (y :: ys)
  | _, _ => .ok []

/-- `conv_1d_pre_hook` of an online module, patches/conv.py:20-42. -/
def preHookT (c : Cfg) (buf : BufT α) (x : STen α) : Py (STen α) :=
  if c.kw > 1 ∧ x.md.allStarting = false then
    let bs := x.md.ids.map buf
    if bs.all fun b => bufLenT b == bufLenT (bs.head?.getD none) then do
      let s ← stackT bs
      prependT x (some s)
    else do
      let rows ← unpadSequence 0 x
      let rows ← prependAll rows bs
      let y ← padStream 0 rows false
      permute y [1, 2, 0]
  else .ok x

/-- `conv_1d_post_hook` of an online module, patches/conv.py:45-57. -/
def postHookT (buf : BufT α) (m : Meta) (items : List (String × Ten α)) : BufT α :=
  let buf : BufT α := items.foldl (fun b kv => fun i => if i = kv.1 then some kv.2 else b i) buf
  if m.anyEnding then (m.ids.zip m.eos).foldl (fun b ie => if ie.2 then fun i => if i = ie.1 then none else b i else b) buf else buf

/-- One call of a patched online `Conv1d`, patches/conv.py:60-73. -/
def forwardT (k : Kern α) (c : Cfg) (buf : BufT α) (x : STen α) : Py (STen α × BufT α) := do
  let x' ← preHookT c buf x
  let (y, items) ← conv1dT k c x'
  .ok (y, postHookT buf y.md items)

/-- A sequence of calls, threading `stream_buffer`. -/
def runT (k : Kern α) (c : Cfg) (buf : BufT α) : List (STen α) → Py (List (STen α) × BufT α)
  | [] => .ok ([], buf)
  | x :: xs => do
    let (y, b) ← forwardT k c buf x
    let (ys, b') ← runT k c b xs
    .ok (y :: ys, b')

end
end DS.ConvT
