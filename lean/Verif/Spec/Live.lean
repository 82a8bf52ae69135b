import Verif.Model.Live
/-!
# Specification vocabulary: programs that use several iterators
-/

namespace DS.Live

open DS.Data

variable {α : Type}

/-- What the `n`-th call of `next` (from 0) on an iterator gives that yields the items of `g` and then ends like `g`; afterwards always StopIteration. -/
def nth (g : Gen (List (Sample α))) (n : Nat) : Res α :=
  match g.items[n]? with
  | some b => .batch b
  | none => if n = g.items.length then (match g.fail with | some e => .raised e | none => .stop) else .stop

/-- What the calls of `next` on iterator `k` gave, in order. -/
def resultsOf (k : Nat) (log : List (Nat × Res α)) : List (Res α) := (log.filter fun p => p.1 == k).map Prod.snd

/-- The number of calls of `next` on iterator `k` in a program. -/
def calls (k : Nat) : List (Act α) → Nat
  | [] => 0
  | .next j :: as => (if j = k then 1 else 0) + calls k as
  | _ :: as => calls k as

/-- A step that leaves `chunk_seconds`, `transform` and the contents of the given files as they are in `w`. Other attributes, in particular the file list, may change. -/
def Keeps (w : World α) (files : List String) : Act α → Prop
  | .set d => d.chunkSeconds = w.ds.chunkSeconds ∧ d.transform = w.ds.transform
  | .write disk => ∀ x ∈ files, disk x = w.disk x
  | _ => True

/-- The samples of file `x` in what an iterator gave. -/
def samplesOf (x : String) (rs : List (Res α)) : List (Sample α) :=
  (rs.flatMap fun | .batch b => b | _ => []).filter fun s => s.id == x

/-- The files on disk and the attributes of the dataset before, between and after the steps of a program. -/
def moments (w : World α) : List (Act α) → List (Disk α × Dataset α)
  | [] => [(w.disk, w.ds)]
  | a :: as => (w.disk, w.ds) :: moments (w.act a).1 as

end DS.Live
