import Verif.Model.ConvTen
/-!
# Model of modules that give parts of the channels to different convolutions

A user's module `torch.cat([self.conv1(p), self.conv2(q)], 1)` with two patched online `Conv1d`, where `p` and `q` are the first and the remaining channels of its argument, obtained with `narrow` (overrides.py:576-589) or with `split` (overrides.py:124-139). The difference is who owns the
metadata: `narrow` along channels gives each part a copy (`meta.clone()`, 587), `split` gives all parts the object of its argument (136-137), into which `conv1d` then writes (overrides.py:217-256).
Simplification: the copies are made at once; in the library they are made at the first use (`LazyProxy`), which comes before any write to the argument's metadata in this module.
-/

namespace DS.ConvT
open DS.Tn DS.Conv

section
variable {α : Type} [AddCommMonoid α] [Mul α]

/-- The two convolutions, and how many channels each gets. -/
structure Pair (α : Type) where
  k₁ : Kern α
  c₁ : Cfg
  n : Nat
  k₂ : Kern α
  c₂ : Cfg
  m : Nat

/-- `torch.cat([y, z], 1)` of two StreamTensors, overrides.py:52-90. -/
def glue (y z : STen α) : Py (STen α) := do
  match ← cat (.stream y) [.stream z] 1 with
  | .stream w => .ok w
  | .plain _ => .error .typeError                                      -- does not happen: `cat` with a StreamTensor gives one

/-- The module with `p, q = x.narrow(1, 0, n), x.narrow(1, n, m)`, given the `stream_buffer`s of its convolutions. -/
def callNarrow (P : Pair α) (b : BufT α × BufT α) (x : STen α) : Py (STen α × BufT α × BufT α) := do
  let p ← narrow 0 x 1 0 P.n
  let q ← narrow 0 x 1 P.n P.m
  let (y, b₁) ← forwardT P.k₁ P.c₁ b.1 p
  let (z, b₂) ← forwardT P.k₂ P.c₂ b.2 q
  let w ← glue y z
  .ok (w, b₁, b₂)

/-- The module with `p, q = x.split([n, m], 1)`: `p` and `q` have one metadata object. A convolution writes its output lengths into it (overrides.py:252) and gives it to its result (256), unless the pre-hook has put frames in front of the chunk
and made new metadata (patches/conv.py:25-42). -/
def callSplit (P : Pair α) (b : BufT α × BufT α) (x : STen α) : Py (STen α × BufT α × BufT α) := do
  let parts ← split x (.sections [(P.n : Int), (P.m : Int)]) 1
  match parts with
  | [p, q] => do
    let (y, b₁) ← forwardT P.k₁ P.c₁ b.1 p
    let own₁ := decide (P.c₁.kw > 1 ∧ x.md.allStarting = false)
    let q := if own₁ then q else ⟨q.t, y.md⟩                           -- the shared object after the first call
    let (z, b₂) ← forwardT P.k₂ P.c₂ b.2 q
    let own₂ := decide (P.c₂.kw > 1 ∧ q.md.allStarting = false)
    let y := if own₁ || own₂ then y else ⟨y.t, z.md⟩                   -- the shared object after the second call
    let w ← glue y z
    .ok (w, b₁, b₂)
  | _ => .error .valueError                                            -- unpacking

/-- A sequence of calls of either module. -/
def calls (call : BufT α × BufT α → STen α → Py (STen α × BufT α × BufT α)) (b : BufT α × BufT α) : List (STen α) → Py (List (STen α) × BufT α × BufT α)
  | [] => .ok ([], b)
  | x :: xs => do
    let (y, b) ← call b x
    let (ys, b) ← calls call b xs
    .ok (y :: ys, b)

end
end DS.ConvT
