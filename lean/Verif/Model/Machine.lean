import Verif.Model.MetaCat
import Verif.Model.Dataset
import Mathlib.Data.Int.Log
/-!
# Model of machine numbers in the metadata

Everywhere else lengths are unbounded integers and divisions of lengths are exact. In the code lengths are `torch.int` (32 bits, tensor.py:144), and
the lengths of a strided slice go through `float32` (tensor.py:533). Here both are modelled. Overflow, underflow and special values of `float32` are left out: the
numbers below are quotients of 32-bit integers.
-/

namespace DS.Mach
open DS.Data (pyRound)

/-- The `float32` nearest to `q`, ties to even: a multiple of the unit in the last place, which is `2 ^ (e - 23)` if `2 ^ e ≤ |q| < 2 ^ (e + 1)` (IEEE 754; torch's
conversion from `int32` and its division). -/
def f32 (q : Rat) : Rat :=
  let u : Rat := 2 ^ (Int.log 2 |q| - 23)
  pyRound (q / u) * u

/-- `n.div(stride).ceil().to(torch.int)` for an entry of an `int32` tensor and a Python int, tensor.py:533: both are converted to `float32` and divided. -/
def divCeil32 (n s : Int) : Int := ⌈f32 (f32 n / f32 s)⌉

/-- `_index_length_slice` as in `Meta.indexLengthSlice` (tensor.py:518-538), with the division of 533 in `float32`. -/
def indexLengthSlice32 (m : Meta) (s : Slice) : Py Meta := do
  let ml ← m.maxLength
  let (start, stop, stride) ← s.indices ml
  if stride < 0 then .error .notImplementedError
  else if stride = 1 then
    let lengths := m.lengths.map fun l => clip 0 (stop - start) (l - start)
    Meta.indexLengthSlice.finish m start stop lengths
  else
    let stop := ml - (ml - 1 - start) % stride
    let lengths := m.lengths.map fun l => divCeil32 (clip 0 (stop - start) (l - start)) stride
    Meta.indexLengthSlice.finish m start stop lengths

/-- What 32 bits keep of an integer: the number in `[-2^31, 2^31)` that differs from it by a multiple of `2^32` (two's complement). -/
def int32 (n : Int) : Int := (n + 2 ^ 31) % 2 ^ 32 - 2 ^ 31

/-- `lengths = sum([s.lengths for s in metas])` on `int32` tensors, tensor.py:628: each addition keeps 32 bits. -/
def addCols32 (a b : List Int) : List Int := (Meta.addCols a b).map int32

/-- `cat_length` as in `Meta.catLength` (tensor.py:603-637), with 32-bit additions. -/
def catLength32 : List Meta → Py Meta
  | [] => .error .indexError
  | [m] => .ok m
  | m :: n :: r => do
    let ms := m :: n :: r
    Meta.catLengthChecks m.ids (ms.length - 1) 0 ms
    let last := (n :: r).getLast (by simp)
    let lengths := (n :: r).foldl (fun acc s => addCols32 acc s.lengths) m.lengths
    if ms.all (fun s => s.chunk.isSome) then Meta.init m.ids m.sos last.eos lengths last.chunk
    else if ms.all (fun s => s.chunk.isNone) then Meta.init m.ids m.sos last.eos lengths none
    else .error .valueError

end DS.Mach
