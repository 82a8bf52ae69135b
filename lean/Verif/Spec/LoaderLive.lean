import Verif.Model.LoaderLive
/-!
# Specification vocabulary: programs that use several iterators of a loader
-/

namespace DS.LLive

open DS.Data

variable {α γ : Type}

/-- What the calls of `next` on iterator `k` gave, in order. -/
def resultsOf (k : Nat) (log : List (Nat × Res γ)) : List (Res γ) := (log.filter fun p => p.1 == k).map Prod.snd

/-- The loader object as it is after some steps of a program that starts with `o`. -/
def objAfter (o : Obj α γ) : List (Act α γ) → Obj α γ
  | [] => o
  | .set o' :: as => objAfter o' as
  | _ :: as => objAfter o as

/-- The loader object at each call of `next` on iterator `k`, in a program that starts with `o`. -/
def objsAt (k : Nat) (o : Obj α γ) : List (Act α γ) → List (Obj α γ)
  | [] => []
  | .set o' :: as => objsAt k o' as
  | .iter :: as => objsAt k o as
  | .next j _ :: as => if j = k then o :: objsAt k o as else objsAt k o as

/-- No call of `next` on iterator `k`. -/
def Untouched (k : Nat) : Act α γ → Prop
  | .next j _ => j ≠ k
  | _ => True

/-- One result for each collate function: the batches collated, then their end; after an exception, and after the end, always StopIteration. -/
def collated : List (List (Sample α)) → Ended → List (Option (List (Sample α) → Py γ)) → List (Res γ)
  | _, _, [] => []
  | [], .returned, _ :: cs => .stop :: List.replicate cs.length .stop
  | [], .raised e, _ :: cs => .raised e :: List.replicate cs.length .stop
  | [], .running, _ :: cs => .hangs :: List.replicate cs.length .hangs
  | b :: bs, fin, c :: cs =>
    match c with
    | none => .raised .typeError :: List.replicate cs.length .stop
    | some f =>
      match f b with
      | .ok x => .batch x :: collated bs fin cs
      | .error e => .raised e :: List.replicate cs.length .stop

end DS.LLive
