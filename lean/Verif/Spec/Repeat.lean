import Verif.Spec.Data
/-!
# Specification vocabulary: files that are listed several times
-/

namespace DS.Data
section
variable {α : Type}

/-- Complete sequences of file `x`, one after the other. -/
def Copies (x : String) (xs : List (Sample α)) : Prop := ∃ parts : List (List (Sample α)), xs = parts.flatten ∧ ∀ p ∈ parts, WholeFile x p

/-- A stream of batches in which the sequences of each file come one after the other, each in order; the first batch holds at least one sample and no file twice. -/
def Repeating (stream : List (List (Sample α))) : Prop :=
  (∃ b rest, stream = b :: rest ∧ b ≠ [] ∧ (b.map Sample.id).Nodup) ∧ ∀ x, Copies x (ofFile x stream.flatten)

/-- The last sample of every file ends it. -/
def Settled (l : List (Sample α)) : Prop := ∀ x s, (ofFile x l).getLast? = some s → s.eos = true

/-- As `Synchronous`, for streams in which a file may come again: every batch is non-empty, has at most `n` samples of different files, and either starts files after all sequences before have ended, or continues exactly the unfinished ones of the batch before. -/
def SynchronousR (n : Nat) (out : List (List (Sample α))) : Prop :=
  ∀ pre b post, out = pre ++ b :: post →
    b ≠ [] ∧ b.length ≤ n ∧ (b.map Sample.id).Nodup ∧
      ((AllStart b ∧ Settled pre.flatten) ∨
        ((∀ s ∈ b, s.sos = false) ∧ ∃ pre' l, pre = pre' ++ [l] ∧ b.map Sample.id = unfinished l))

/-- A group of fewer than `n` files is started only if nothing but further sequences of these files is left. -/
def FullUnlessAlone (n : Nat) (out : List (List (Sample α))) : Prop :=
  ∀ pre b post, out = pre ++ b :: post → AllStart b → b.length = n ∨ ∀ s ∈ post.flatten, s.id ∈ b.map Sample.id

end
end DS.Data
