import Verif.Model.MetaCat
/-!
# Numbers with infinities
-/

namespace DS.Conv

/-- Floating point numbers without rounding: integers, the infinities and NaN. -/
inductive Fl where
  | fin (v : Int)
  | inf
  | ninf
  | nan
  deriving DecidableEq, Repr

instance : Zero Fl := ⟨.fin 0⟩

/-- Addition (IEEE 754): opposite infinities give NaN, and NaN stays. -/
def Fl.add : Fl → Fl → Fl
  | .fin a, .fin b => .fin (a + b)
  | .nan, _ => .nan
  | _, .nan => .nan
  | .inf, .ninf => .nan
  | .ninf, .inf => .nan
  | .inf, _ => .inf
  | _, .inf => .inf
  | .ninf, _ => .ninf
  | _, .ninf => .ninf

/-- Multiplication by 0 (IEEE 754): 0 for numbers, NaN for the infinities and NaN. -/
def Fl.timesZero : Fl → Fl
  | .fin _ => .fin 0
  | _ => .nan

/-- A kernel with weights 1. -/
def Fl.sum (w : List Fl) : Fl := w.foldl Fl.add (.fin 0)

end DS.Conv
