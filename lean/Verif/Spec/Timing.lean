import Mathlib.Data.Rat.Floor
import Mathlib.Data.Nat.Digits.Defs
/-!
# Specification vocabulary: decimal numerals

Nothing here comes from the model.
-/

namespace DS.Timing

/-- The natural number that decimal digits denote, most significant first. -/
def natOf (ds : List Nat) : Nat := ds.foldl (fun a d => 10 * a + d) 0

/-- The text of digits. -/
def digitText (ds : List Nat) : List Char := ds.map Nat.digitChar

/-- The text of the decimals `fs`: nothing if there are none. -/
def fracText (fs : List Nat) : List Char := if fs = [] then [] else '.' :: digitText fs

/-- The text `s` is a decimal numeral (digits, possibly a point and decimals, possibly an exponent with sign) that denotes `v`. -/
def Denotes (s : List Char) (v : Rat) : Prop :=
  ∃ (ds fs es : List Nat) (neg : Bool), ds ≠ [] ∧ (∀ d ∈ ds ++ fs ++ es, d < 10) ∧
    s = digitText ds ++ fracText fs ++ (if es = [] then [] else 'e' :: (if neg then '-' else '+') :: digitText es) ∧
    v = (natOf (ds ++ fs) : Rat) / 10 ^ fs.length * 10 ^ ((if neg then -1 else 1) * (natOf es : Int))

/-- The units and how many seconds they are. -/
def Unit (u : List Char) (scale : Rat) : Prop :=
  (u = ['s'] ∧ scale = 1) ∨ (u = ['m', 's'] ∧ scale = 1 / 10 ^ 3) ∨ (u = ['µ', 's'] ∧ scale = 1 / 10 ^ 6) ∨ (u = ['n', 's'] ∧ scale = 1 / 10 ^ 9)

/-- Half of the timings are at most the median and half of them at least. -/
def Halves (m : Rat) (xs : List Rat) : Prop := xs.length ≤ 2 * (xs.filter fun x => decide (x ≤ m)).length ∧ xs.length ≤ 2 * (xs.filter fun x => decide (m ≤ x)).length

end DS.Timing
