import Verif.Spec.Conv
/-!
# Specification vocabulary: the work of online convolution

A convolution evaluates its kernel once for every entry of its output (torch.conv1d), so the work of a call is the size of what it returns.
-/

namespace DS.Conv
variable {α : Type}

/-- How often the kernel was evaluated to compute `y`. -/
def ST.work (y : ST α) : Nat := (y.rows.map List.length).sum

/-- The number of kernel positions that start within `w` frames and the padding on both sides: every stride-th of `w + 2 * padding`, rounded up. -/
def Cfg.positions (c : Cfg) (w : Nat) : Nat := (w + 2 * c.padding + c.stride - 1) / c.stride

/-- The width of the output of a stack for a chunk of width `w`, at most. -/
def widthBound : List (Layer α) → Nat → Nat
  | [], w => w
  | .conv c _ :: ls, w => widthBound ls (c.positions w)
  | .act _ :: ls, w => widthBound ls w

end DS.Conv
