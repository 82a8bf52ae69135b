import Verif.Spec.Data
/-!
# What is said about streams that end within files

Independent of the generator: which sequences of samples are (possibly truncated) files, in what batches a group of files is delivered if it is played
chunk by chunk, and when the longest files of a group lack their end.
-/

namespace DS.Data

section
variable {α : Type}

/-- `xs` is a beginning of the samples of file `x`: there is one, all are of `x`, exactly the first starts, and none before the last ends. -/
def OpenFile (x : String) (xs : List (Sample α)) : Prop :=
  xs ≠ [] ∧ ∀ k s, xs[k]? = some s → s.id = x ∧ (s.sos = true ↔ k = 0) ∧ (s.eos = true → k + 1 = xs.length)

/-- As `WellFormed`, but files may lack their end. -/
def OpenStream (stream : List (List (Sample α))) : Prop :=
  (∃ b rest, stream = b :: rest ∧ b ≠ [] ∧ (b.map Sample.id).Nodup) ∧
    ∀ s ∈ stream.flatten, OpenFile s.id (ofFile s.id stream.flatten)

/-- The last sample of the file does not end it. -/
def CutOff (xs : List (Sample α)) : Prop := ∃ s, xs.getLast? = some s ∧ s.eos = false

/-- The number of chunks of the longest file of a group. -/
def longest (F : String → List (Sample α)) (g : List String) : Nat := (g.map fun j => (F j).length).foldr max 0

/-- A longest file of the group lacks its end. -/
def Cut (F : String → List (Sample α)) (g : List String) : Prop := ∃ j ∈ g, (F j).length = longest F g ∧ CutOff (F j)

/-- The group played chunk by chunk: the `k`-th batch has the `k`-th chunk of every file that has one, in the order of the group. -/
def rounds (F : String → List (Sample α)) (g : List String) : List (List (Sample α)) :=
  (List.range (longest F g)).map fun k => g.filterMap fun j => (F j)[k]?

end
end DS.Data
