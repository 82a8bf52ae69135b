import Verif.Model.MaskIndex
import Verif.Model.Elementwise
/-!
# Model of `take`, `masked_select`, `frexp`, the in-place scatters and of StreamTensors as index arguments (dreamstream/overrides.py:183-190, 594-661, 664-697, 710-733, 766-768, 803-807)

Simplifications: the index of `take` is a one-dimensional integer tensor, the tensor has at least one axis; masks have no names; no `out=` argument is given by the caller.
-/

namespace DS.Tn
open Meta

section
variable {α β : Type}

/-- A torch function called inside an override on the plain data `t` and the index argument exactly as the caller gave it. With a plain index torch computes (`native`). If the index is
a StreamTensor, torch dispatches to the same override once more (tensor.py:790-791), now with the plain tensor as `input`, and `input.decouple()` raises AttributeError
(overrides.py:625, 667, 713, 727). -/
def inner (native : Ten α → Ten β → Py (Ten α)) (t : Ten α) : Opd β → Py (Ten α)
  | .plain i => native t i
  | .stream _ => .error .attributeError

/-- `gather` with an index that may be a StreamTensor, overrides.py:592-601, 618-661. -/
def gatherO (junk : Int) (x : STen α) (dim : Int) (index : Opd Nat) : Py (STen α) := do
  let out ← inner (fun t i => gatherTen t dim i) x.t.unnamed index
  gatherFinish junk x dim index.ten out

/-- `take_along_dim` with an index that may be a StreamTensor, overrides.py:604-615, 618-661. -/
def takeAlongDimO (junk : Int) (x : STen α) (dim : Int) (index : Opd Nat) : Py (STen α) := do
  let out ← inner (fun t i => takeAlongTen t dim i) x.t.unnamed index
  gatherFinish junk x dim index.ten out

/-- The entries of a one-dimensional integer tensor. -/
def Ten.toList (t : Ten β) : List β := (List.range (t.shape.headD 0)).map fun k => t.val [k]

/-- `index_select` with a one-dimensional index that may be a StreamTensor, overrides.py:710-722. -/
def indexSelectO (junk : Int) (x : STen α) (dim : Int) : Opd Int → Py (STen α)
  | .plain i => indexSelect junk x dim (.vec i.toList)
  | .stream _ => .error .attributeError

/-- `list(dict.fromkeys(sub))`, overrides.py:672: duplicates are removed, the first one stays. -/
def firstOcc (xs : List Nat) : List Nat := xs.foldl (fun keys x => if x ∈ keys then keys else keys ++ [x]) []

/-- `torch.take(t, index)` (trusted description): the entries at the row-major positions, negative ones counted from the end. -/
def takeTen (t : Ten α) (is : List Int) : Py (Ten α) := do
  let ps ← torchPoss (prod t.shape) is
  .ok { shape := [is.length], names := [none], val := fun ix => t.val (unravel t.shape (ps.getD (ix.headD 0) 0)) }

/-- `np.unravel_index(indices, shape)` (trusted description): one list of coordinates per axis; ValueError for a negative position. Positions beyond the size have already been refused by torch. -/
def unravelIndex (shape : List Nat) (is : List Int) : Py (List (List Nat)) :=
  if is.any fun i => decide (i < 0) then .error .valueError
  else .ok ((List.range shape.length).map fun a => is.map fun i => (unravel shape i.toNat).getD a 0)

/-- One of the two blocks of overrides.py:676-682 and 684-690: the coordinates that occur on the axis called `name`, or `None` if they are all of them, and the names without the axis if only one
occurs. The position of the axis is that in the original `names`, the deletion is from `new_names` as left by the block before. An axis that does not exist leaves the index unbound, which raises UnboundLocalError when it is read
(694, 697); both lines read it on every path. -/
def takeAxis (shape : List Nat) (names newNames : List (Option String)) (subs : List (List Nat)) (name : Option String) : Py (List (Option String) × Option (Option (List Nat))) :=
  if name ∈ names then
    let d := names.idxOf name
    let index := firstOcc (subs.getD d [])
    do
      let newNames ← if index.length = 1 then pyDel newNames d else .ok newNames
      .ok (newNames, some (if index.length = shape.getD d 0 then none else some index))
  else .ok (newNames, none)

/-- The list as batch index. -/
def bList : Option (List Nat) → BIx
  | none => .none
  | some ps => .list (ps.map fun (p : Nat) => (p : Int))
/-- The list as length index. -/
def lList : Option (List Nat) → LIx
  | none => .none
  | some ps => .list (ps.map fun (p : Nat) => (p : Int))

/-- `take`, overrides.py:664-697. -/
def take (junk : Int) (x : STen α) (index : Opd Int) : Py (STen α) := do
  let out ← inner (fun t i => takeTen t i.toList) x.t.unnamed index
  let subs ← unravelIndex x.t.shape index.ten.toList
  let (nn, b) ← takeAxis x.t.shape x.t.names x.t.names subs BATCH
  let (nn, l) ← takeAxis x.t.shape x.t.names nn subs LENGTH
  let joined ← joinNames nn
  let out ← out.rename [some joined]
  match b, l with
  | some b, some l => do
    let md ← x.md.index2 junk (bList b) (lList l)
    .ok ⟨out, md⟩
  | _, _ => .error .unboundLocalError

/-- `torch.masked_select(t, mask)` (trusted description): the entries of the tensor, broadcast together with the mask, where the mask is `True`, in row-major order. -/
def maskedSelectTen (t : Ten α) (m : Ten Bool) : Py (Ten α) :=
  match bshapeR t.shape.reverse m.shape.reverse with
  | none => .error .runtimeError
  | some s =>
    let ps := (allIx s.reverse).filter fun p => m.val (operandIx m.shape p)
    .ok { shape := [ps.length], names := [none], val := fun ix => t.val (operandIx t.shape (ps.getD (ix.headD 0) [])) }

/-- `masked_select`, overrides.py:725-733: always a plain tensor. -/
def maskedSelect (x : STen α) (mask : Opd Bool) : Py (Ten α) := inner maskedSelectTen x.t.unnamed mask

/-- `frexp`, overrides.py:183-190; `f` and `g` give mantissa and exponent of an entry. -/
def frexp (f g : α → β) (x : STen α) : Py (STen β × STen β) := do
  let out1 : Ten β := { x.t.unnamed with val := fun ix => f (x.t.val ix) }
  let out2 : Ten β := { x.t.unnamed with val := fun ix => g (x.t.val ix) }
  let m ← out1.rename x.t.names
  let e ← out2.rename x.t.names
  .ok (⟨m, x.md⟩, ⟨e, x.md⟩)

/-- `scatter_add_` / `scatter_reduce_`, overrides.py:766-768, 803-807: the call with `out=input`. `res` is what torch computes from the decoupled arguments and writes into the memory of `x`; `others` are the StreamTensors among `index, src`.
The second component is `x` afterwards. -/
def scatterInto (x : STen α) (others : List (STen α)) (dim : Int) (res : Py (Ten α)) : Py (Opd α) × STen α :=
  (scatter (x :: others ++ [x]) dim res, match res with | .ok t => ⟨{ x.t with val := t.val }, x.md⟩ | .error _ => x)

end

end DS.Tn
