import Verif.Model.MetaCat
/-!
# Model of online convolution: `overrides.conv1d` and the `Conv1d` hooks of `patches/conv.py`

A batch of shape `(B, C, T)` is a list of `B` rows, each a list of frames; a frame (type `α`) is everything at one time
step, so channels stay abstract. `0` is the zero frame. A kernel is a function `g` of the list of `ks` frames it touches.
Float rounding, dtypes, devices and names are not modelled (the layout is always batch, channels, length).
`padding` is a number: `"valid"` is 0, `"same"` raises NotImplementedError before anything else (overrides.py:204-209).
The dictionary `stream_buffer` is a function from ids.
-/

namespace DS.Conv

/-- The parameters of a `Conv1d`: `kernel_size[0]`, `dilation[0]`, `stride[0]`, `padding`. -/
structure Cfg where
  ks : Nat
  dil : Nat
  stride : Nat
  padding : Nat
  deriving DecidableEq, Repr

/-- `kernel_width`, overrides.py:214 and patches/conv.py:67. -/
def Cfg.kw (c : Cfg) : Nat := c.ks + (c.ks - 1) * (c.dil - 1)

/-- A `StreamTensor` of shape `(B, C, T)` with `width = T`; `md` is its metadata (tensor.py:756-766). -/
structure ST (α : Type) where
  md : Meta
  width : Nat
  rows : List (List α)
  deriving DecidableEq, Repr

/-- `stream_buffer`, patches/conv.py:64. -/
abbrev Buf (α : Type) := String → Option (List α)

section
variable {α β : Type} [Zero α] [Zero β]

/-- The frames under the kernel at position `o` (torch.conv1d). -/
def taps (c : Cfg) (x : List α) (o : Nat) : List α := (List.range c.ks).map fun i => x.getD (o + i * c.dil) 0

/-- `F.pad(row, (a, b))`, overrides.py:231, 233. -/
def fpad (a b : Nat) (r : List α) : List α := List.replicate a 0 ++ r ++ List.replicate b 0

/-- `torch.conv1d` on plain rows of width `w` with zero padding `p` on both sides: RuntimeError if the kernel does not fit. -/
def torchConv1d (c : Cfg) (g : List α → β) (p w : Nat) (rows : List (List α)) : Py (Nat × List (List β)) :=
  if w + 2 * p < c.kw then .error .runtimeError
  else
    let n := (w + 2 * p - c.kw) / c.stride + 1
    .ok (n, rows.map fun r => (List.range n).map fun o => g (taps c (fpad p p r) (o * c.stride)))

/-- `torch.roll(row, shifts=k)`, overrides.py:235. -/
def roll (k : Nat) (r : List α) : List α := r.drop (r.length - k % r.length) ++ r.take (r.length - k % r.length)

/-- `meta.starting_lengths += p` / `meta.ending_lengths += p`, overrides.py:222-223 (see C25_columns). -/
def addWhere (p : Int) (ls : List Int) (bs : List Bool) : List Int :=
  List.zipWith (fun l b => if b then l + p else l) ls bs

/-- "Adjust input lengths", overrides.py:218-223, for `padding > 0`. -/
def padLengths (p : Nat) (m : Meta) : List Int :=
  if m.allStarting && m.allEnding then m.lengths.map fun l => l + (p : Int) * 2
  else if m.anyStarting || m.anyEnding then addWhere p (addWhere p m.lengths m.sos) m.eos
  else m.lengths

/-- overrides.py:227-233: widen the rows to the longest padded length. -/
def widen (p : Nat) (m : Meta) (w : Nat) (rows : List (List α)) (ml : Int) : Py (Nat × List (List α)) :=
  let applied := ml - w
  if applied > 0 then
    if m.allStarting then
      if applied ≥ p then .ok (w + applied.toNat, rows.map (fpad p (applied - p).toNat)) else .error .assertionError
    else .ok (w + applied.toNat, rows.map (fpad 0 applied.toNat))
  else .ok (w, rows)

/-- overrides.py:234-235: shift the starting rows right. -/
def shiftStarting (p : Nat) (m : Meta) (rows : List (List α)) : List (List α) :=
  if m.anyStarting && !m.allStarting then List.zipWith (fun r s => if s then roll p r else r) rows m.sos else rows

/-- The padding block, overrides.py:217-236: returns the metadata with padded lengths, the padding left for torch to
apply, and the (widened) rows. -/
def applyPadding (c : Cfg) (x : ST α) : Py (Meta × Nat × Nat × List (List α)) :=
  if c.padding > 0 then
    let m := { x.md with lengths := padLengths c.padding x.md }
    if m.allStarting && m.allEnding then .ok (m, c.padding, x.width, x.rows)
    else do
      let ml ← m.maxLength
      let (w, rows) ← widen c.padding m x.width x.rows ml
      .ok (m, 0, w, shiftStarting c.padding m rows)
  else .ok (x.md, 0, x.width, x.rows)

/-- `((lengths - kernel_width) // stride + 1).clip(min=0)`, overrides.py:239. -/
def outLen (c : Cfg) (l : Int) : Int := max ((l - c.kw) / c.stride + 1) 0

/-- One entry of the new buffer, overrides.py:243-245: `input[i, ..., start:end]` of a row that does not end. -/
def bufItem (c : Cfg) (id : String) (eos : Bool) (l : Int) (r : List α) : Option (String × List α) :=
  if eos then none else some (id, (r.take l.toNat).drop (outLen c l * c.stride).toNat)

/-- The loop of overrides.py:243-245 over the columns. -/
def bufItems (c : Cfg) : List String → List Bool → List Int → List (List α) → List (String × List α)
  | id :: ids, e :: es, l :: ls, r :: rs => (bufItem c id e l r).toList ++ bufItems c ids es ls rs
  | _, _, _, _ => []

/-- The new buffer, overrides.py:241-246. -/
def tempBuffer (c : Cfg) (m : Meta) (rows : List (List α)) : List (String × List α) :=
  if c.kw > 1 ∧ m.allEnding = false then bufItems c m.ids m.eos m.lengths rows else []

/-- Zeroing the padding, overrides.py:254-255 with utils/operations.py:34-43. (`output *= mask`; an infinite output times 0 would be NaN, which is not modelled.) -/
def maskRow (l : Int) (r : List β) : List β := r.mapIdx fun j y => if (j : Int) < l then y else 0

/-- `overrides.conv1d`, overrides.py:193-256. The result carries `_temp_buffer` next to the output tensor; its metadata
object is the one of the input with new lengths. -/
def conv1d (c : Cfg) (g : List α → β) (x : ST α) : Py (ST β × List (String × List α)) := do
  let (m, p, w, rows) ← applyPadding c x
  let outs := m.lengths.map (outLen c)
  let buffer := tempBuffer c m rows
  let (n, ys) ← torchConv1d c g p w rows
  .ok ({ md := { m with lengths := outs }, width := n, rows := List.zipWith maskRow outs ys }, buffer)

/-- `tensor.narrow(length_dim, 0, length)` of one unbound row with metadata `m` (tensor.py:902-908, overrides.py:575-589). -/
def narrowRow (m : Meta) (w : Nat) (r : List α) : Py (Meta × List α) := do
  let l ← pyGet m.lengths 0                                          -- `x.meta.lengths.item()`
  if l < 0 ∨ l > w then .error .runtimeError
  else do
    let m' ← m.index2 0 (.slice {}) (.slice { start := some 0, stop := some l })
    .ok (m', r.take l.toNat)

/-- `x if b is None else torch.cat([b, x], dim=-1)` for one row (patches/conv.py:39, overrides.py:74-83). -/
def prepend (b : Option (List α)) (x : Meta × List α) : Meta × List α :=
  match b with
  | none => x
  | some b => ({ x.1 with lengths := x.1.lengths.map (· + (b.length : Int)) }, b ++ x.2)

/-- `pad_stream_tensor(input).permute(1, 2, 0)`, patches/conv.py:40, nn/utils/pad_sequence.py:16-55: only ids, sos and eos of the
metadata are kept, lengths are the sizes, chunk indices are dropped. -/
def padStream (xs : List (Meta × List α)) : Py (ST α) := do
  let m ← Meta.catBatch (xs.map (·.1))
  let lengths := xs.map fun x => (x.2.length : Int)
  let w := (xs.map (·.2.length)).foldl max 0
  let md ← Meta.init m.ids m.sos m.eos lengths none
  .ok { md, width := w, rows := xs.map fun x => x.2 ++ List.replicate (w - x.2.length) 0 }

/-- The rows of the batch one by one, unpadded and with their buffers in front; patches/conv.py:38-39. -/
def raggedRows (w : Nat) : List Meta → List (List α) → List (Option (List α)) → Py (List (Meta × List α))
  | m :: ms, r :: rs, b :: bs => do
    let x ← narrowRow m w r
    let xs ← raggedRows w ms rs bs
    .ok (prepend b x :: xs)
  | _, _, _ => .ok []

/-- `0 if x is None else x.size(-1)`, patches/conv.py:27. -/
def bufLen (b : Option (List α)) : Nat := (b.getD []).length

/-- The branch of patches/conv.py:31-34: `torch.stack(buffer_data)` (TypeError when an entry is `None`) and concatenation
along length. `cat_length` of a single metadata object works on a copy (tensor.py:613-614), so the caller's metadata stay as they are. -/
def catEqual (bs : List (Option (List α))) (ref : Nat) (x : ST α) : Py (ST α) :=
  match bs.mapM id with
  | none => .error .typeError
  | some data => .ok { md := { x.md with lengths := x.md.lengths.map (· + (ref : Int)) }, width := ref + x.width,
                       rows := List.zipWith (· ++ ·) data x.rows }

/-- The branch of patches/conv.py:35-40. -/
def catRagged (bs : List (Option (List α))) (x : ST α) : Py (ST α) := do
  let ms ← x.md.unbindBatch
  let xs ← raggedRows x.width ms x.rows bs
  padStream xs

/-- All buffers have the length of the first one, patches/conv.py:29-31. -/
def sameLengths (bs : List (Option (List α))) : Bool := bs.all fun b => bufLen b == bufLen (bs.head?.getD none)

/-- `conv_1d_pre_hook` of an online module on a StreamTensor, patches/conv.py:20-42. The flag says whether the result
shares its metadata object with the input. (`all_starting` of an empty batch is true, so `bs` is never empty.) -/
def preHook (c : Cfg) (buf : Buf α) (x : ST α) : Py (ST α × Bool) :=
  if c.kw > 1 ∧ x.md.allStarting = false then
    let bs := x.md.ids.map buf
    if sameLengths bs then (catEqual bs (bufLen (bs.head?.getD none)) x).map fun y => (y, false)
    else (catRagged bs x).map fun y => (y, false)
  else .ok (x, true)

/-- `stream_buffer.update(items)`, patches/conv.py:48. -/
def update (buf : Buf α) (items : List (String × List α)) : Buf α :=
  items.foldl (fun b kv => fun i => if i = kv.1 then some kv.2 else b i) buf

/-- The deletions of patches/conv.py:52-55. -/
def dropEnded (buf : Buf α) (m : Meta) : Buf α :=
  (m.ids.zip m.eos).foldl (fun b ie => if ie.2 then fun i => if i = ie.1 then none else b i else b) buf

/-- `conv_1d_post_hook` of an online module, patches/conv.py:45-57. -/
def postHook (buf : Buf α) (m : Meta) (items : List (String × List α)) : Buf α :=
  let buf := update buf items
  if m.anyEnding then dropEnded buf m else buf

/-- What a call leaves behind: the output, the new `stream_buffer`, and the caller's metadata object. -/
structure Out (α β : Type) where
  y : ST β
  buf : Buf α
  caller : Meta

/-- One call of a patched online `Conv1d` on a StreamTensor (patches/conv.py:60-73): pre-hook, `F.conv1d`, post-hook. When a
step raises, nothing is returned and `stream_buffer` keeps its value. -/
def forward (c : Cfg) (g : List α → β) (buf : Buf α) (x : ST α) : Py (Out α β) := do
  let (x', shared) ← preHook c buf x
  let (y, items) ← conv1d c g x'
  .ok { y, buf := postHook buf y.md items, caller := if shared then y.md else x.md }

/-- What a patched module can be called with. -/
inductive Input (α : Type) where
  | plain (width : Nat) (rows : List (List α))
  | stream (x : ST α)

/-- The result of a call: a plain tensor or a StreamTensor. -/
inductive Result (β : Type) where
  | plain (width : Nat) (rows : List (List β))
  | stream (y : ST β)

/-- Any call of a patched `Conv1d` in either mode, patches/conv.py:13-57: result and new buffer. -/
def call (c : Cfg) (g : List α → β) (streaming : Bool) (buf : Buf α) : Input α → Py (Result β × Buf α)
  | .plain w rows =>
    if streaming then .error .runtimeError                           -- 21-22
    else (torchConv1d c g c.padding w rows).map fun y => (.plain y.1 y.2, buf)
  | .stream x =>
    if streaming then (forward c g buf x).map fun o => (.stream o.y, o.buf)
    else .error .runtimeError                                        -- 15-17

/-- A sequence of calls of an online module, threading `stream_buffer`. -/
def run (c : Cfg) (g : List α → β) (buf : Buf α) : List (ST α) → Py (List (ST β) × Buf α)
  | [] => .ok ([], buf)
  | x :: xs => do
    let o ← forward c g buf x
    let (ys, b) ← run c g o.buf xs
    .ok (o.y :: ys, b)

end
end DS.Conv

namespace DS.Conv
section
variable {α : Type} [Zero α]

/-- A layer of a patched sequential model: an online `Conv1d`, or a pointwise function, which keeps the metadata of its argument
(tensor.py:816-836; `patch_module` leaves such modules as they are, patches/general.py:12-28). Frames have the same type everywhere. -/
inductive Layer (α : Type) where
  | conv (c : Cfg) (g : List α → α)
  | act (f : α → α)

/-- One layer on one batch. -/
def Layer.step (l : Layer α) (buf : Buf α) (x : ST α) : Py (ST α × Buf α) :=
  match l with
  | .conv c g => (forward c g buf x).map fun o => (o.y, o.buf)
  | .act f => .ok ({ x with rows := x.rows.map (·.map f) }, buf)

/-- A stack of layers, each with its `stream_buffer`, on one batch (torch.nn.Sequential.forward). -/
def chainStep : List (Layer α × Buf α) → ST α → Py (ST α × List (Layer α × Buf α))
  | [], x => .ok (x, [])
  | (l, b) :: s, x => do
    let (y, b') ← l.step b x
    let (z, s') ← chainStep s y
    .ok (z, (l, b') :: s')

/-- A sequence of calls of the stack. -/
def chainRun (s : List (Layer α × Buf α)) : List (ST α) → Py (List (ST α) × List (Layer α × Buf α))
  | [] => .ok ([], s)
  | x :: xs => do
    let (y, s') ← chainStep s x
    let (ys, s'') ← chainRun s' xs
    .ok (y :: ys, s'')

end
end DS.Conv
