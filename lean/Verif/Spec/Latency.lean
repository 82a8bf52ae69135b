import Verif.Spec.Conv
/-! What a stack of convolutions can know after part of a sequence. -/

namespace DS.Conv
section
variable {α : Type} [Zero α]

/-- How many outputs of the stack lie entirely within the start paddings and the first `n` frames of a sequence: for a convolution the kernel positions that fit into its start padding and the `n` frames,
and so on with these outputs as the frames of the next layer. -/
def ready : List (Layer α) → Nat → Nat
  | [], n => n
  | .conv c _ :: ls, n => ready ls (fits c (c.padding + n)).length
  | .act _ :: ls, n => ready ls n

/-- The stack with the same kernel sizes, dilations, strides and paddings that looks up the latest frame in reach of an output: its convolutions take the maximum. If the frames of a sequence are numbered
1, 2, 3, ... then its outputs are the numbers of the last frames that the outputs of the stack depend on (0 if an output depends on padding only). -/
def reach : List (Layer α) → List (Layer Nat)
  | [] => []
  | .conv c _ :: ls => .conv c (fun ws => ws.foldr max 0) :: reach ls
  | .act _ :: ls => .act id :: reach ls

end
end DS.Conv
