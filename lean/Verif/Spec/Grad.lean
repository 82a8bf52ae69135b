import Verif.Model.Grad
/-!
# Words for gradients through online convolutions (C155, C156)
-/

namespace DS.Grad

/-- The result with node `n` was computed from the result with node `m`. -/
inductive Leads (nodes : List Node) : Nat → Nat → Prop where
  | refl (n : Nat) : Leads nodes n n
  | step {n m p : Nat} {nd : Node} : nodes[n]? = some nd → p ∈ nd.parents → Leads nodes p m → Leads nodes n m

/-- A convolution that looks at more than one frame comes after a convolution whose weights are trained. -/
def Late (ls : List Layer) : Prop :=
  ∃ l₁ kw l₂ kw' t l₃, ls = l₁ ++ Layer.conv kw true :: (l₂ ++ Layer.conv kw' t :: l₃) ∧ 1 < kw'

/-- Some weights are trained. -/
def Trained (ls : List Layer) : Prop := ∃ kw, Layer.conv kw true ∈ ls

/-- After the batches `bs` the stream `a` is open: one of them has a chunk of it that does not end it, and neither that one nor a later one has a chunk that does. -/
def Open (bs : List (List Row)) (a : String) : Prop :=
  ∃ bs₁ b bs₂, bs = bs₁ ++ b :: bs₂ ∧ (∃ r ∈ b, r.id = a ∧ r.eos = false) ∧ ∀ c ∈ b :: bs₂, ∀ r ∈ c, r.id = a → r.eos = false

/-- A batch of the history has a row of a stream that is open, and a row that does not start its stream. -/
def Continues (bs : List (List Row)) : Prop :=
  ∃ bs₁ b bs₂, bs = bs₁ ++ b :: bs₂ ∧ (∃ r ∈ b, Open bs₁ r.id) ∧ ∃ r ∈ b, r.sos = false

/-- The streams' buffers keep the node `m`, and it keeps tensors. -/
def Retained (s : List (Layer × Buf)) (g : Graph) (m : Nat) : Prop :=
  ∃ l ∈ s, ∃ a n nd, l.2 a = some (some n) ∧ Leads g.nodes n m ∧ g.nodes[m]? = some nd ∧ nd.saves = true

end DS.Grad
