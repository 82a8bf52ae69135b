import Verif.Model.Dataset
/-!
# Specification vocabulary: samples of files in batches
-/

namespace DS.Data

section
variable {α : Type}

/-- The samples of one file, in order. -/
def ofFile (x : String) (l : List (Sample α)) : List (Sample α) := l.filter fun s => decide (s.id = x)

/-- `xs` is the complete sequence of samples of file `x`: there is one, all are of `x`, exactly the first starts and exactly the last ends. -/
def WholeFile (x : String) (xs : List (Sample α)) : Prop :=
  xs ≠ [] ∧ ∀ k s, xs[k]? = some s → s.id = x ∧ (s.sos = true ↔ k = 0) ∧ (s.eos = true ↔ k + 1 = xs.length)

/-- A stream of batches in which each file's samples come in order, sos first and eos last; the first batch holds at least one sample and no
file twice. -/
def WellFormed (stream : List (List (Sample α))) : Prop :=
  (∃ b rest, stream = b :: rest ∧ b ≠ [] ∧ (b.map Sample.id).Nodup) ∧
    ∀ s ∈ stream.flatten, WholeFile s.id (ofFile s.id stream.flatten)

/-- All samples are first chunks. -/
def AllStart (b : List (Sample α)) : Prop := ∀ s ∈ b, s.sos = true

/-- Every file with a sample in `l` has a sample in `l` that ends it. -/
def AllEnded (l : List (Sample α)) : Prop := ∀ s ∈ l, ∃ t ∈ l, t.id = s.id ∧ t.eos = true

/-- The ids of the files of a batch that have not ended with it. -/
def unfinished (b : List (Sample α)) : List String := (b.filter fun s => !s.eos).map Sample.id

/-- Every batch is non-empty, has at most `n` samples of different files, and either starts files after all earlier files have ended,
or continues exactly the unfinished files of the batch before it. -/
def Synchronous (n : Nat) (out : List (List (Sample α))) : Prop :=
  ∀ pre b post, out = pre ++ b :: post →
    b ≠ [] ∧ b.length ≤ n ∧ (b.map Sample.id).Nodup ∧
      ((AllStart b ∧ AllEnded pre.flatten) ∨
        ((∀ s ∈ b, s.sos = false) ∧ ∃ pre' l, pre = pre' ++ [l] ∧ b.map Sample.id = unfinished l))

/-- Every batch that starts files starts `n` of them. -/
def GroupsFull (n : Nat) (out : List (List (Sample α))) : Prop := ∀ b ∈ out, AllStart b → b.length = n

/-- Every group of files that start together has `n` files, except possibly the last group. -/
def FullButLast (n : Nat) (out : List (List (Sample α))) : Prop :=
  GroupsFull n out ∨ ∃ pre b post, out = pre ++ b :: post ∧ GroupsFull n pre ∧ AllStart b ∧ ∀ s ∈ post.flatten, s.sos = false

end
/-- `z` is an integer nearest to `q`, the even one if there are two. -/
def HalfEven (q : Rat) (z : Int) : Prop :=
  q - z ≤ 1 / 2 ∧ z - q ≤ 1 / 2 ∧ (q - z = 1 / 2 ∨ z - q = 1 / 2 → z % 2 = 0)

end DS.Data
