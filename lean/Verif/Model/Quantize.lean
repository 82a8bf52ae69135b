import Verif.Model.Tensor
/-!
# Model of the quantisation overrides (dreamstream/overrides.py:166-180)

The torch functions are described as entrywise functions: `q` rounds an entry. The `dtype` argument and the checks of torch on scales and zero points are
not modelled.
-/

namespace DS.Tn

section
variable {α β : Type}

/-- An entrywise torch function with results in another type. -/
def Ten.entrywise (f : α → β) (t : Ten α) : Ten β := { shape := t.shape, names := t.names, val := fun ix => f (t.val ix) }

/-- `torch.fake_quantize_per_tensor_affine(x, scale, zero_point, quant_min, quant_max)`, overrides.py:178-180: `q` rounds with the given arguments. -/
def fakeQuantize (q : α → β) (x : STen α) : Ten β := x.t.unnamed.entrywise q

/-- `t.tensor()`, overrides.py:168, 174: a plain `torch.Tensor` has no such method. -/
def Opd.tensor : Opd α → Py (Ten α)
  | .stream x => .ok x.t.unnamed
  | .plain _ => .error .attributeError

/-- The argument `input` of the quantisation functions: a StreamTensor or a tuple of tensors. -/
inductive QArg (α : Type) where
  | one (x : STen α)
  | tuple (xs : List (Opd α))

/-- The result: a tensor or a tuple of tensors. -/
inductive QOut (β : Type) where
  | one (t : Ten β)
  | tuple (ts : List (Ten β))

/-- `[t.tensor() for t in input]`. -/
def tensors : List (Opd α) → Py (List (Ten α))
  | [] => .ok []
  | x :: xs => do
    let t ← x.tensor
    let ts ← tensors xs
    .ok (t :: ts)

/-- `torch.quantize_per_tensor(input, scale, zero_point, dtype)`, overrides.py:166-169; `q i` rounds with the `i`-th scale and zero point (for a single tensor: the only one). `torch.quantize_per_tensor_dynamic`, overrides.py:172-175, is the same,
with scale and zero point found from the data. -/
def quantize (q : Nat → Ten α → α → β) : QArg α → Py (QOut β)
  | .one x => .ok (.one (x.t.unnamed.entrywise (q 0 x.t.unnamed)))
  | .tuple xs => do
    let ts ← tensors xs
    .ok (.tuple (ts.mapIdx fun i t => t.entrywise (q i t)))

end
end DS.Tn
