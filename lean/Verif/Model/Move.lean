import Verif.Py
/-!
# Model of moving a running model to another device or precision

`model.to(device)`, `.cuda()`, `.half()`, `.double()` change parameters and registered buffers. `stream_buffer` is a plain dictionary (patches/conv.py:64), so the tensors in it stay as they are. Modelled is where tensors
are and what precision they have; sizes and values are left out, so the calls are taken to be accepted otherwise (see C58, C59 for when they are). Layers that are not convolutions keep the place of their
input and are left out.
-/

namespace DS.Move

/-- Precisions of floating point tensors. -/
inductive Ty where
  | half | bfloat16 | float | double
  deriving DecidableEq, Repr

/-- `torch.promote_types` on them. -/
def Ty.join : Ty → Ty → Ty
  | .half, .half => .half
  | .bfloat16, .bfloat16 => .bfloat16
  | .double, _ => .double
  | _, .double => .double
  | _, _ => .float

/-- Where a tensor is and its precision. -/
structure Place where
  dev : Nat
  ty : Ty
  deriving DecidableEq, Repr

/-- A row of a batch: id, sos, eos. -/
structure Row where
  id : String
  sos : Bool
  eos : Bool
  deriving DecidableEq, Repr

/-- `stream_buffer`, patches/conv.py:64. -/
abbrev Buf := String → Option Place

/-- The type of the input after the pre-hook has put the buffers before it. If the buffers have the same length (`even`) they are stacked and concatenated with the input, patches/conv.py:31-34: the result has the common type of
all. Otherwise each row is concatenated with its buffer (38-39), and padding them to one tensor (40, nn/utils/pad_sequence.py:32 with `torch.nn.utils.rnn.pad_sequence`) gives the type of the first row. -/
def joined (even : Bool) (buf : Buf) (rows : List Row) (cur : Place) : Ty :=
  if even then (rows.filterMap fun r => buf r.id).foldl (fun t p => t.join p.ty) cur.ty
  else match rows with
    | [] => cur.ty
    | r :: _ => match buf r.id with
      | none => cur.ty
      | some p => p.ty.join cur.ty

/-- One online convolution of kernel width `kw` on an input at the place `cur` of the model: the pre-hook uses the buffers unless all rows start their streams (patches/conv.py:24-25) and torch raises RuntimeError for tensors on
different devices; `torch.conv1d` (overrides.py:249) raises RuntimeError unless input and weights have the same type; the new buffers are slices of the input (overrides.py:238-246), put into
`stream_buffer` by the post-hook, which deletes the rows that end (patches/conv.py:45-55). -/
def layer (kw : Nat) (even : Bool) (buf : Buf) (rows : List Row) (cur : Place) : Py Buf :=
  if kw > 1 then
    let used := rows.any fun r => !r.sos
    if used && rows.any (fun r => (buf r.id).any fun p => decide (p.dev ≠ cur.dev)) then .error .runtimeError
    else if used && decide (joined even buf rows cur ≠ cur.ty) then .error .runtimeError
    else .ok fun a =>
      if rows.any (fun r => decide (r.id = a) && r.eos) then none
      else if rows.any (fun r => decide (r.id = a)) then some cur
      else buf a
  else .ok buf

/-- A convolution: its kernel width and its buffers. -/
abbrev Stack := List (Nat × Buf)

/-- A stack of convolutions on one batch; `even` says for every layer whether the buffers have the same length. -/
def forward : Stack → (Nat → Bool) → List Row → Place → Py Stack
  | [], _, _, _ => .ok []
  | (kw, buf) :: s, even, rows, cur => do
    let b ← layer kw (even s.length) buf rows cur
    let t ← forward s even rows cur
    .ok ((kw, b) :: t)

/-- What a program does: call the model on a batch (given at the place of the model), or move the model. -/
inductive Event where
  | call (rows : List Row) (even : Nat → Bool)
  | move (p : Place)

/-- A history of a patched model that is at the place `cur`. `.to` leaves `stream_buffer` alone (patches/conv.py:64). -/
def run : Stack → Place → List Event → Py (Stack × Place)
  | s, cur, [] => .ok (s, cur)
  | s, cur, .call rows even :: es => do
    let s ← forward s even rows cur
    run s cur es
  | s, _, .move p :: es => run s p es

/-- A freshly patched stack (patches/conv.py:60-73). -/
def fresh (kws : List Nat) : Stack := kws.map fun kw => (kw, fun _ => none)

end DS.Move
