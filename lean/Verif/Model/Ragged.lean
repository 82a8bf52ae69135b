import Verif.Model.Tensor
/-!
# `concatenate_ragged` on tensors of any rank

`data/stream_dataset.py:64-77`. `Model/Dataset` has it on lists of frames; here tensors have a shape. `torch.nn.utils.rnn.pad_sequence`
(75) is a trusted description: it takes the trailing sizes from the first tensor and copies every tensor into its part of the result with `copy_`, which
expands axes of size 1 (and missing leading axes) to the size of the destination. Left out: dtypes (the result has the dtype of the first tensor), names (`pad_sequence` is called on
tensors without names, see 261), tensors without axes.
-/

namespace DS.Tn

section
variable {α : Type}

/-- torch: a source of shape `src` can be copied into a destination of shape `dst`: seen from the last axis, every size agrees or is 1. -/
def copyable (src dst : List Nat) : Bool :=
  decide (src.length ≤ dst.length) && ((src.zip (dst.drop (dst.length - src.length))).all fun p => decide (p.1 = p.2 ∨ p.1 = 1))

/-- torch: the entry of a source of shape `src` that `copy_` puts at multi-index `ix` of the destination. -/
def copySrc (src ix : List Nat) : List Nat :=
  List.zipWith (fun n i => if n = 1 then 0 else i) src (ix.drop (ix.length - src.length))

/-- The largest size of the first axis. -/
def maxSize (ts : List (Ten α)) : Nat := (ts.map fun t => t.shape.headD 0).foldl max 0

/-- `torch.nn.utils.rnn.pad_sequence(ts, batch_first=True, padding_value=pad)`: RuntimeError for no tensors, or for a tensor that cannot be copied
into its part of the result. -/
def padSequence (pad : α) (ts : List (Ten α)) : Py (Ten α) :=
  match ts with
  | [] => .error .runtimeError
  | t :: _ =>
    if ts.all fun c => copyable c.shape (c.shape.headD 0 :: t.shape.tail) then
      .ok { shape := ts.length :: maxSize ts :: t.shape.tail
            names := (ts.length :: maxSize ts :: t.shape.tail).map fun _ => none
            val := fun ix =>
              match ts[ix.headD 0]? with
              | some c => if ix.tail.headD 0 < c.shape.headD 0 then c.val (copySrc c.shape ix.tail) else pad
              | none => pad }
    else .error .runtimeError

/-- `concatenate_ragged`, stream_dataset.py:64-77. -/
def concatenateRagged (ts : List (Ten α)) (pad : α) (dim : Int) : Py (Ten α) := do
  -- 71
  let d : Int ← if 0 ≤ dim then .ok dim else
    match ts with
    | [] => .error .indexError
    | t :: _ => .ok ((t.ndim : Int) + dim)
  -- 74
  let moved ← ts.mapM fun t => t.transpose d 0
  -- 75
  let out ← padSequence pad moved
  -- 76
  out.transpose (d + 1) 1

end
end DS.Tn
