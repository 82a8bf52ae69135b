import Verif.Py
/-!
# Model of `dreamstream/utils/numba.py`

Arrays are lists of integers / booleans. numba `nopython` code does not check array bounds; where the code reads
`array[0]` of a possibly empty array the value read is the explicit parameter `junk`.
-/

namespace DS.Numba

/-- `minmax` loop body, utils/numba.py:12-16: `if i > maximum … elif i < minimum …`. State is `(minimum, maximum)`. -/
def minmaxStep (acc : Int × Int) (i : Int) : Int × Int :=
  if i > acc.2 then (acc.1, i)
  else if i < acc.1 then (i, acc.2)
  else acc

/-- `minmax`, utils/numba.py:6-17. Lines 9-10 read `array[0]`; for an empty array this is the unchecked read `junk`. -/
def minmax (junk : Int) : List Int → Int × Int
  | [] => (junk, junk)
  | x :: xs => xs.foldl minmaxStep (x, x)

/-- `is_sorted_ascending`, utils/numba.py:20-26: no element smaller than its predecessor. -/
def isSortedAscending : List Int → Bool
  | [] => true
  | [_] => true
  | x :: y :: r => if y < x then false else isSortedAscending (y :: r)

/-- `make_indices_positive_`, utils/numba.py:37-45: add `max_length` to the negative entries (once). -/
def makeIndicesPositive (xs : List Int) (maxLength : Int) : List Int :=
  xs.map fun i => if i < 0 then maxLength + i else i

/-- `update_lengths_from_list_of_indices`, utils/numba.py:48-57: for each length the number of indices below it. -/
def updateLengthsFromList (lengths indices : List Int) : List Int :=
  lengths.map fun l => ((indices.filter fun i => decide (l > i)).length : Int)

/-- `update_eos_from_integer`, utils/numba.py:60-69: `eos & (lengths <= index + 1)`, elementwise. -/
def updateEosFromInteger (eos : List Bool) (lengths : List Int) (index : Int) : List Bool :=
  List.zipWith (fun e l => e && decide (l ≤ index + 1)) eos lengths

/-- `update_eos_from_slice`, utils/numba.py:72-74: `eos & (start < lengths) & (lengths <= stop)`, elementwise. -/
def updateEosFromSlice (eos : List Bool) (lengths : List Int) (start stop : Int) : List Bool :=
  List.zipWith (fun e l => (e && decide (start < l)) && decide (l ≤ stop)) eos lengths

end DS.Numba
