import Verif.Model.Overrides
/-!
# Model of `split_dim_names` (dreamstream/overrides.py:329-331); `join_dim_names` (324-326) is `joinNames` of `Model/Overrides.lean`
-/

namespace DS.Tn

/-- `str.split("_")` on characters (Python): one word more than there are underscores. -/
def splitChars : List Char → List (List Char)
  | [] => [[]]
  | c :: cs =>
    if c = '_' then [] :: splitChars cs
    else
      match splitChars cs with
      | [] => [[c]]
      | w :: ws => (c :: w) :: ws

/-- `split_dim_names`, overrides.py:329-331. -/
def splitNames (name : String) : List String := (splitChars name.toList).map String.ofList

end DS.Tn
