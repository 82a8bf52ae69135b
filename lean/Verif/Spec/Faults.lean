import Verif.Model.Dataset
/-!
# Specification vocabulary: files that cannot be read

`f x` is the list of samples of the file `x`, or the exception that reading it raises.
-/

namespace DS.Data
section
variable {β : Type}

/-- The file can be read. -/
def readable (f : String → Py (List β)) (x : String) : Bool :=
  match f x with
  | .ok _ => true
  | .error _ => false

/-- The samples of a file; none if it cannot be read. -/
def samplesOf (f : String → Py (List β)) (x : String) : List β :=
  match f x with
  | .ok ss => ss
  | .error _ => []

/-- The samples of the files before the first that cannot be read. -/
def upTo (f : String → Py (List β)) (files : List String) : List β := (files.takeWhile (readable f)).flatMap (samplesOf f)

/-- The exception of the first file that cannot be read. -/
def firstError (f : String → Py (List β)) : List String → Option PyErr
  | [] => none
  | x :: xs =>
    match f x with
    | .ok _ => firstError f xs
    | .error e => some e

end
end DS.Data
