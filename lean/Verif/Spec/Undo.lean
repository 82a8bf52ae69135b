import Verif.Spec.Tensor
/-!
# Specification vocabulary: getting a StreamTensor back
-/

namespace DS.Tn

/-- `y` is the StreamTensor `x` again: sizes, names, metadata, and every entry. -/
structure STen.Same {α : Type} (x y : STen α) : Prop where
  shape : y.t.shape = x.t.shape
  names : y.t.names = x.t.names
  md : y.md = x.md
  val : ∀ ix : List Nat, Inside ix x.t.shape → y.t.val ix = x.t.val ix

/-- The axes `es` undo the reordering `ds`. -/
def Undoes (ds es : List Nat) : Prop := ∀ j a : Nat, ds[j]? = some a → es[a]? = some j

/-- `torch.cat(x.split(arg, dim), dim)`. -/
def splitCat {α : Type} (x : STen α) (arg : Meta.SplitArg) (dim : Int) : Py (Opd α) :=
  split x arg dim >>= fun ys =>
    match ys with
    | [] => .error .runtimeError
    | y :: ys => cat (.stream y) (ys.map .stream) dim

end DS.Tn
