import Verif.Model.Threads
/-!
# Specification vocabulary: what is shared by threads, and what a thread does alone
-/

namespace DS.Conc

section
open DS.Conv
variable {α : Type}

/-- The `stream_buffer` of a layer. -/
def bufAt (σ : Store Key (List α)) (l : Nat) : Buf α := fun i => σ (l, i)

/-- The layers with their buffers, numbered from `n`. -/
def stackFrom (σ : Store Key (List α)) : Nat → List (Layer α) → List (Layer α × Buf α)
  | _, [] => []
  | n, l :: ls => (l, bufAt σ n) :: stackFrom σ (n + 1) ls

end

section
open DS.Coll
variable {α : Type}

/-- A collector as a dictionary and a set. -/
def held (s : Coll α) : Store CKey (CVal α) := fun k => if k.1 then (if s.closed k.2 then some none else none) else (s.entries k.2).map some

/-- Calls of `update` one after the other, exceptions caught: the outcomes and the collector. -/
def tries (s : Coll α) : List (Item α) → List (Option PyErr) × Coll α
  | [] => ([], s)
  | x :: xs => ((updateItem s x).2 :: (tries (updateItem s x).1 xs).1, (tries (updateItem s x).1 xs).2)

end

end DS.Conc
