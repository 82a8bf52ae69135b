import Verif.Py
/-!
# Model of automatic differentiation through online convolutions

The code of patches/conv.py and overrides.conv1d never detaches a tensor and never disables gradients, so torch records a graph through `stream_buffer`. Modelled is that graph only: which
tensors have a node, which nodes keep tensors for the backward pass, and what `backward` does to them. Sizes and values are left out, so the calls are taken to be accepted (see C58, C59
for when they are). The nodes of `torch.stack`, `cat`, `pad`, `unbind`, `narrow`, slicing and of the shift of padded rows keep no tensors; consecutive ones are one node here. The convolution
and the mask multiplied to its output keep tensors; they are one node here. Changes of the weights between the calls (an optimizer) are left out.
-/

namespace DS.Grad

/-- A node of torch's graph: the nodes of its inputs, and whether it keeps tensors for the backward pass. -/
structure Node where
  parents : List Nat
  saves : Bool
  deriving DecidableEq, Repr

/-- The graph: nodes are numbered in the order in which they are made; `freed` are those whose tensors were released by a backward pass. -/
structure Graph where
  nodes : List Node
  freed : List Nat
  deriving DecidableEq, Repr

/-- A tensor as far as gradients go: its node, or nothing if it does not require gradients. -/
abbrev Val := Option Nat

/-- The result of a torch function of the tensors `xs` (and of parameters, if `param`) with a node that keeps tensors or not. Without an input that requires gradients there is no node. -/
def Graph.apply (g : Graph) (xs : List Val) (saves param : Bool) : Val × Graph :=
  if param || xs.any Option.isSome then (some g.nodes.length, { g with nodes := g.nodes ++ [⟨xs.filterMap id, saves⟩] }) else (none, g)

/-- The nodes that a backward pass from node `n` comes to. The inputs of a node are older than the node, so `n + 1` steps suffice. -/
def reach (nodes : List Node) : Nat → Nat → List Nat
  | 0, _ => []
  | fuel + 1, n => n :: ((nodes[n]?.map Node.parents).getD []).flatMap (reach nodes fuel)

/-- The nodes of a backward pass that keep tensors. -/
def keepers (g : Graph) (n : Nat) : List Nat := (reach g.nodes (n + 1) n).filter fun r => (g.nodes[r]?.map Node.saves).getD false

/-- `out.backward()`: RuntimeError if `out` does not require gradients, or if the pass comes to a node whose tensors have been released ("Trying to backward through the graph a second
time"); otherwise the tensors of all its nodes are released. -/
def backward (g : Graph) : Val → Py Graph
  | none => .error .runtimeError
  | some n => if (keepers g n).any fun r => decide (r ∈ g.freed) then .error .runtimeError else .ok { g with freed := g.freed ++ keepers g n }

/-- A row of a batch: id, sos, eos. -/
structure Row where
  id : String
  sos : Bool
  eos : Bool
  deriving DecidableEq, Repr

/-- `stream_buffer`, patches/conv.py:64. -/
abbrev Buf := String → Option Val

/-- The pre-hook, patches/conv.py:24-42: if a row does not start its stream, the buffers are put before the input. -/
def preHook (kw : Nat) (buf : Buf) (rows : List Row) (x : Val) (g : Graph) : Val × Graph :=
  if kw > 1 ∧ (rows.all Row.sos) = false then g.apply (x :: rows.filterMap fun r => buf r.id) false false else (x, g)

/-- The new buffer, overrides.py:238-246, written to `stream_buffer` by the post-hook (patches/conv.py:48): for a row that does not end, a slice of the input. -/
def fill (x : Val) : List Row → Buf → Graph → Buf × Graph
  | [], buf, g => (buf, g)
  | r :: rs, buf, g =>
    if r.eos then fill x rs buf g
    else
      let a := g.apply [x] false false
      fill x rs (fun i => if i = r.id then some a.1 else buf i) a.2

/-- The rows that end are deleted, patches/conv.py:52-55. -/
def drop (rows : List Row) (buf : Buf) : Buf := fun i => if rows.any (fun r => r.eos && decide (r.id = i)) then none else buf i

/-- A layer: an online convolution (its kernel width, and whether its weights are trained), or a pointwise function (and whether it keeps tensors). -/
inductive Layer where
  | conv (kw : Nat) (trained : Bool)
  | act (saves : Bool)
  deriving DecidableEq, Repr

/-- One layer on one batch: pre-hook, `conv1d` (overrides.py:193-256) and post-hook. `tensor` and `StreamTensor` (tensor.py:758-760, 880-885) are `torch.Tensor(x)`, which records a node
without tensors (alias), merged with its neighbours. -/
def Layer.step (l : Layer) (buf : Buf) (rows : List Row) (x : Val) (g : Graph) : Val × Buf × Graph :=
  match l with
  | .conv kw trained =>
    let a := preHook kw buf rows x g
    let b := if kw > 1 then fill a.1 rows buf a.2 else (buf, a.2)
    let c := b.2.apply [a.1] true trained
    (c.1, drop rows b.1, c.2)
  | .act saves => let a := g.apply [x] saves false; (a.1, buf, a.2)

/-- A stack of layers with their buffers on one batch. -/
def forward : List (Layer × Buf) → List Row → Val → Graph → Val × List (Layer × Buf) × Graph
  | [], _, x, g => (x, [], g)
  | (l, buf) :: s, rows, x, g =>
    let a := l.step buf rows x g
    let b := forward s rows a.1 a.2.2
    (b.1, (l, a.2.1) :: b.2.1, b.2.2)

/-- Training chunk by chunk (README.md:58-67, variant 1; the argument `train_variant` that the README describes does not exist, and nothing is detached): after every call on a batch (of data, which do not require gradients) the backward pass of a loss of its output. -/
def train (s : List (Layer × Buf)) (g : Graph) : List (List Row) → Py (List (Layer × Buf) × Graph)
  | [] => .ok (s, g)
  | rows :: bs => do
    let a := forward s rows none g
    let g' ← backward a.2.2 a.1
    train a.2.1 g' bs

/-- Calls without backward passes (and without `torch.no_grad()`). -/
def calls (s : List (Layer × Buf)) (g : Graph) : List (List Row) → List (Layer × Buf) × Graph
  | [] => (s, g)
  | rows :: bs => let a := forward s rows none g; calls a.2.1 a.2.2 bs

/-- A freshly patched stack (patches/conv.py:60-71, patches/sequential.py). -/
def fresh (ls : List Layer) : List (Layer × Buf) := ls.map fun l => (l, fun _ => none)

/-- The empty graph. -/
def Graph.empty : Graph := ⟨[], []⟩

end DS.Grad
