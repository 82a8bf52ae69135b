import Verif.Model.Conv
/-!
# Model of the arguments of `conv1d` (dreamstream/overrides.py:193-214, 239-240)

`torch.conv1d` accepts an int, a tuple or a list for `stride`, `padding` and `dilation`, and the strings `"same"` and `"valid"` for `padding`; `torch.nn.Conv1d` always passes tuples (or a string).
-/

namespace DS.Conv

/-- A stride or a dilation: an int, or a tuple or list. -/
inductive Num where
  | int (n : Nat) | seq (ns : List Nat)
  deriving DecidableEq

/-- A padding. -/
inductive Pad where
  | int (n : Int) | tup (ns : List Int) | lst (ns : List Int) | str (s : String)
  deriving DecidableEq

/-- `dilation[0]`, `stride[0]`, overrides.py:214, 239-240: an int has no elements. -/
def Num.first : Num → Py Nat
  | .int _ => .error .typeError
  | .seq ns => pyGet ns 0

/-- "Convert padding to single integer value", overrides.py:203-211; a list or another string cannot be compared with 0 (211). -/
def Pad.value : Pad → Py Nat
  | .str s => if s = "same" then .error .notImplementedError else if s = "valid" then .ok 0 else .error .typeError
  | .lst _ => .error .typeError
  | .int n => if n ≥ 0 then .ok n.toNat else .error .assertionError
  | .tup ns => do
    let n ← pyGet ns 0
    if n ≥ 0 then .ok n.toNat else .error .assertionError

variable {α β : Type} [Zero α] [Zero β]

/-- `conv1d(input, weight, bias, stride, padding, dilation)`, overrides.py:193-256, from the arguments as given. `ks` is `weight.shape[2]`. The padding block (216-236) comes between the use of `dilation` and that of `stride`; what it raises is raised first. -/
def conv1dArgs (ks : Nat) (stride : Num) (padding : Pad) (dilation : Num) (g : List α → β) (x : ST α) : Py (ST β × List (String × List α)) := do
  let p ← padding.value
  let d ← dilation.first
  let _ ← applyPadding ⟨ks, d, 1, p⟩ x
  let s ← stride.first
  conv1d ⟨ks, d, s, p⟩ g x

/-- What torch takes a padding for (trusted description): an int and a sequence of that int mean the same, `"valid"` is 0. -/
def Pad.Means (a : Pad) (n : Nat) : Prop := a = .int n ∨ a = .tup [(n : Int)] ∨ a = .lst [(n : Int)] ∨ (a = .str "valid" ∧ n = 0)

end DS.Conv
