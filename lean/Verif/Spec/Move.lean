import Verif.Model.Move
/-! What it means that the buffers of a stream fit the place of a model (C192). -/

namespace DS.Move

/-- The place of the model after a history. -/
def placeAfter (p : Place) : List Event → Place
  | [] => p
  | .move q :: es => placeAfter q es
  | .call _ _ :: es => placeAfter p es

/-- After the history `es` of a model that began at `p₀` the stream `a` is open, and the model was at `p` when it was last called on it. -/
def HeldAt (p₀ : Place) (es : List Event) (a : String) (p : Place) : Prop :=
  ∃ es₁ rows even es₂, es = es₁ ++ .call rows even :: es₂ ∧ (∃ r ∈ rows, r.id = a) ∧ (∀ r ∈ rows, r.id = a → r.eos = false) ∧
    (∀ rows' even', Event.call rows' even' ∈ es₂ → ∀ r ∈ rows', r.id ≠ a) ∧ p = placeAfter p₀ es₁

/-- Frames at `p` can be put before frames at `cur` and have the precision of `cur` then. -/
def Fits (p cur : Place) : Prop := p.dev = cur.dev ∧ (p.ty = cur.ty ∨ cur.ty = .double ∨ cur.ty = .float ∧ p.ty ≠ .double)

/-- Some call of the history continues a stream, and has a row of a stream whose frames do not fit. -/
def Misfit (p₀ : Place) (es : List Event) : Prop :=
  ∃ es₁ rows even es₂, es = es₁ ++ .call rows even :: es₂ ∧ (∃ r ∈ rows, r.sos = false) ∧ ∃ r ∈ rows, ∃ p, HeldAt p₀ es₁ r.id p ∧ ¬ Fits p (placeAfter p₀ es₁)

/-- The precision of frames at `p` is one that `cur` can take: the same, or a lower one (half and bfloat16 are lower than float, and do not take each other). -/
def FitsTy (p cur : Place) : Prop := p.ty = cur.ty ∨ cur.ty = .double ∨ cur.ty = .float ∧ p.ty ≠ .double

/-- A call that continues a stream uses frames that it cannot: frames on another device, or in some wide convolution (`even` is asked for it by its number, counted from the last) frames of a precision that does not fit — of any row
if the buffers have the same length, of the first row if not. `held` says where the frames of a stream are. -/
def Clash (kws : List Nat) (held : String → Place → Prop) (rows : List Row) (even : Nat → Bool) (cur : Place) : Prop :=
  (∃ r ∈ rows, r.sos = false) ∧ ∃ (i kw : Nat), kws.reverse[i]? = some kw ∧ 1 < kw ∧
    ((∃ r ∈ rows, ∃ p, held r.id p ∧ p.dev ≠ cur.dev) ∨
     (even i = true ∧ ∃ r ∈ rows, ∃ p, held r.id p ∧ ¬ FitsTy p cur) ∨
     (even i = false ∧ ∃ r, rows.head? = some r ∧ ∃ p, held r.id p ∧ ¬ FitsTy p cur))

/-- Some call of the history clashes. -/
def Clashes (kws : List Nat) (p₀ : Place) (es : List Event) : Prop :=
  ∃ es₁ rows even es₂, es = es₁ ++ .call rows even :: es₂ ∧ Clash kws (HeldAt p₀ es₁) rows even (placeAfter p₀ es₁)

end DS.Move
