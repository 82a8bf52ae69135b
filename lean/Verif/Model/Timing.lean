import Verif.Model.Dataset
import Mathlib.Data.Int.Log
import Mathlib.Data.Nat.Digits.Defs
/-!
# Model of dreamstream/utils/timing.py

Texts are lists of characters. Simplification: times are exact rationals, so the rounding of Python's floats in `dt / scale`, in `timings / number` and in `np.mean` is left out.
The standard deviation (a square root) is left out of the results of `timeit`, and `report_timings` takes it as a given number.
-/

namespace DS.Timing
open DS.Data

/-- `UNITS`, timing.py:21, in the order in which `format_time` tries them (lines 32-33: sorted by scale, largest first). -/
def units : List (Rat × List Char) := [(1, ['s']), (1 / 1000, ['m', 's']), (1 / 1000000, ['µ', 's']), (1 / 1000000000, ['n', 's'])]

/-- The `k` decimal digits of `n`, most significant first, with leading zeros. -/
def padded : Nat → Nat → List Nat
  | 0, _ => []
  | k + 1, n => padded k (n / 10) ++ [n % 10]

/-- Python's `%.{p}e` splits a positive number into `p` significant digits (an integer of `p` digits) and the decimal exponent of the first digit; ties are rounded to even. -/
def sci (p : Nat) (q : Rat) : Nat × Int :=
  let e := Int.log 10 q
  let m := (pyRound (q / 10 ^ (e - ((p : Int) - 1)))).toNat
  if m = 10 ^ p then (10 ^ (p - 1), e + 1) else (m, e)

/-- Without trailing zeros. -/
def strip (fs : List Nat) : List Nat := (fs.reverse.dropWhile (· == 0)).reverse

/-- The digits as characters. -/
def chars (ds : List Nat) : List Char := ds.map Nat.digitChar

/-- Decimals without trailing zeros, and without the point if none are left. -/
def decimals (fs : List Nat) : List Char := if strip fs = [] then [] else '.' :: chars (strip fs)

/-- The exponent of Python's `e` format: a sign and at least two digits. -/
def exponent (e : Int) : List Char :=
  'e' :: (if e < 0 then '-' else '+') :: chars (if e.natAbs < 10 then [0, e.natAbs] else (Nat.digits 10 e.natAbs).reverse)

/-- `"%.*g" % (p, q)` for a positive number and `1 ≤ p`: fixed notation if `-4 ≤ e < p`, else scientific notation. -/
def gPos (p : Nat) (q : Rat) : List Char :=
  let r := sci p q
  let ds := padded p r.1
  if 0 ≤ r.2 ∧ r.2 < p then chars (ds.take (r.2.toNat + 1)) ++ decimals (ds.drop (r.2.toNat + 1))
  else if -4 ≤ r.2 ∧ r.2 < 0 then '0' :: decimals (List.replicate (-r.2 - 1).toNat 0 ++ ds)
  else chars (ds.take 1) ++ decimals (ds.drop 1) ++ exponent r.2

/-- `"%.*g" % (p, q)`: a precision of 0 counts as 1. -/
def g (p : Nat) (q : Rat) : List Char :=
  if q = 0 then ['0'] else if q < 0 then '-' :: gPos (max p 1) (-q) else gPos (max p 1) q

/-- Lines 32-36 of timing.py: the first unit that is not larger than `dt`; the loop variable keeps the last unit if there is none. -/
def pick (dt : Rat) : List (Rat × List Char) → Rat × List Char
  | [] => (1, [])
  | [u] => u
  | u :: us => if dt ≥ u.1 then u else pick dt us

/-- `format_time`, timing.py:24-38. `unit` is a key of `UNITS` or None (a KeyError for other keys). -/
def formatTime (dt : Rat) (unit : Option (List Char) := none) (precision : Nat := 4) : Py (List Char) :=
  match unit with
  | some u =>
    match units.find? fun x => x.2 == u with
    | none => .error .keyError
    | some x => .ok (g precision (dt / x.1) ++ u)
  | none => let x := pick dt units; .ok (g precision (dt / x.1) ++ x.2)

/-- The numbers that `timeit.Timer.autorange` (Python's standard library) tries in turn: 1, 2, 5, 10, 20, 50, … -/
def tries (k : Nat) : Nat := [1, 2, 5].getD (k % 3) 1 * 10 ^ (k / 3)

/-- `Timer.autorange()` from the `k`-th number on, given the results of the calls of `Timer.timeit` to come: the first number whose measurement is at least 0.2 seconds, its measurement and the remaining results.
`none` if there are too few results (the loop goes on). -/
def autorange (k : Nat) : List Rat → Option (Nat × Rat × List Rat)
  | [] => none
  | t :: ts => if t ≥ 1 / 5 then some (tries k, t, ts) else autorange (k + 1) ts

/-- The results of `timeit` (without the standard deviation). -/
structure Results where
  min : Rat
  max : Rat
  mean : Rat
  median : Rat
  number : Nat
  repeats : Nat
  warns : Bool
deriving DecidableEq, Repr

/-- `np.median` of a non-empty list: the middle one or the mean of the two in the middle. -/
def median (ts : List Rat) : Rat :=
  let s := ts.mergeSort (fun a b => decide (a ≤ b))
  if s.length % 2 = 1 then s.getD (s.length / 2) 0 else (s.getD (s.length / 2 - 1) 0 + s.getD (s.length / 2) 0) / 2

/-- Lines 85-91 of timing.py: the number of iterations of the inner loop and the remaining results of the timer. `int(multiplier * number)` is exact: the product is an integer. -/
def innerNumber (innerDuration : Rat) (number : Option Nat) (ts : List Rat) : Option (Int × List Rat) :=
  match number with
  | some n => some (n, ts)
  | none =>
    match autorange 0 ts with
    | none => none
    | some (_, _, ts) =>
      match autorange 0 ts with
      | none => none
      | some (n, taken, ts) => some (((innerDuration / taken).floor + 1) * n, ts)

/-- `timeit`, timing.py:41-119. `ts` are the results of the successive calls of `Timer.timeit`; `none` if there are too few. Only positive numbers of iterations are meant
(a zero or negative one, from the caller or from a negative `inner_duration`, gives nan or negative times). Without repeats `np.min` of an empty array is a ValueError. -/
def timeit (innerDuration : Rat) (repeats : Nat) (number : Option Nat) (ts : List Rat) : Option (Py Results) :=
  match innerNumber innerDuration number ts with
  | none => none
  | some (n, ts) =>
    if ts.length < repeats then none
    else
      let xs := (ts.take repeats).map fun (t : Rat) => t / (n : Rat)
      match xs with
      | [] => some (.error .valueError)
      | x :: rest =>
        let mn := rest.foldl (fun a b => if b < a then b else a) x
        let mx := rest.foldl (fun a b => if a < b then b else a) x
        some (.ok ⟨mn, mx, xs.sum / xs.length, median xs, n.toNat, repeats, decide (mx ≥ mn * 4)⟩)

/-- `{s:>8s}`: padded with spaces on the left to at least eight characters. -/
def right8 (s : List Char) : List Char := List.replicate (8 - s.length) ' ' ++ s

/-- `{n:>5d}`. -/
def right5 (n : Nat) : List Char :=
  let s := if n = 0 then ['0'] else chars (Nat.digits 10 n).reverse
  List.replicate (5 - s.length) ' ' ++ s

/-- `report_timings`, timing.py:122-137, without prefix and suffix: the line that is printed. -/
def report (r : Results) (std : Rat) : Py (List Char) := do
  let a ← formatTime r.min
  let b ← formatTime r.max
  let c ← formatTime r.median
  let d ← formatTime r.mean
  let e ← formatTime std
  .ok ("number=".toList ++ right5 r.number ++ " | [".toList ++ right8 a ++ ", ".toList ++ right8 b ++ "] | ".toList ++ right8 c ++ " | ".toList ++ right8 d ++ " +- ".toList ++ right8 e)

end DS.Timing
