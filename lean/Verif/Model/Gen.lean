import Verif.Model.Sync
/-!
# Model of the data loading side as generators that may raise midway (dreamstream/data/stream_dataset.py)

`Model/Dataset` and `Model/Sync` keep only the exception of a generator that raises. Here a generator is what it yields before it returns or raises. A generator that has
raised is finished, so nothing follows. DataLoaders pass on what their dataset yields and the exceptions it raises (torch/utils/data/dataloader.py; workers are sequential code).
-/

namespace DS.Data

/-- What a generator yields, and the exception it then raises (`none`: it returns). -/
structure Gen (β : Type) where
  items : List β
  fail : Option PyErr
  deriving DecidableEq, Repr

/-- One call of `next` on a zip of generators. -/
inductive Next (β : Type) where
  | item (b : List β)
  | stop
  | raise (e : PyErr)
  deriving DecidableEq, Repr

section
variable {α β : Type}

/-- A generator function that can raise only before its first `yield`, such as `process_data` (193-207). -/
def Gen.ofPy : Py (List β) → Gen β
  | .ok xs => ⟨xs, none⟩
  | .error e => ⟨[], some e⟩

/-- `a` followed by `b`. -/
def Gen.append (a b : Gen β) : Gen β :=
  match a.fail with
  | some e => ⟨a.items, some e⟩
  | none => ⟨a.items ++ b.items, b.fail⟩

/-- `itertools.chain.from_iterable(map(self.process_data, file_list))`, stream_dataset.py:225: a file is opened when the one before is exhausted. -/
def chainG (f : String → Py (List β)) : List String → Gen β
  | [] => ⟨[], none⟩
  | x :: xs => (Gen.ofPy (f x)).append (chainG f xs)

/-- The `k`-th `next` of `zip(*gens)`, stream_dataset.py:245, 489: the generators are asked in order, the first that has nothing left ends the zip. -/
def zipNext (k : Nat) : List (Gen β) → Next β
  | [] => .item []
  | g :: gs =>
    match g.items[k]? with
    | some x =>
      match zipNext k gs with
      | .item xs => .item (x :: xs)
      | r => r
    | none =>
      match g.fail with
      | some e => .raise e
      | none => .stop

/-- The loop of one `next` of `zip_longest(*gens)` without the `None`s, stream_dataset.py:248-249, 493-494: exhausted generators are passed over. -/
def longLoop (k : Nat) : List (Gen β) → Next β
  | [] => .item []
  | g :: gs =>
    match g.items[k]? with
    | some x =>
      match longLoop k gs with
      | .item xs => .item (x :: xs)
      | r => r
    | none =>
      match g.fail with
      | some e => .raise e
      | none => longLoop k gs

/-- One `next` of `zip_longest`: it ends when all generators are exhausted. -/
def longNext (k : Nat) (gs : List (Gen β)) : Next β :=
  match longLoop k gs with
  | .item [] => .stop
  | r => r

/-- `next` called again and again; `fuel` bounds the number of calls. -/
def drive (next : Nat → Next β) : Nat → Nat → Gen (List β)
  | 0, _ => ⟨[], none⟩
  | fuel + 1, k =>
    match next k with
    | .item b => let g := drive next fuel (k + 1); ⟨b :: g.items, g.fail⟩
    | .stop => ⟨[], none⟩
    | .raise e => ⟨[], some e⟩

/-- Enough calls for every zip of these generators. -/
def callsOf (gs : List (Gen β)) : Nat := maxLen (gs.map Gen.items) + 1

/-- `zip(*gens)`; of no generators it is empty. -/
def zipG (gs : List (Gen β)) : Gen (List β) := if gs.isEmpty then ⟨[], none⟩ else drive (fun k => zipNext k gs) (callsOf gs) 0

/-- `zip_longest(*gens)` without the `None`s. -/
def longG (gs : List (Gen β)) : Gen (List β) := drive (fun k => longNext k gs) (callsOf gs) 0

/-- `force_is_last_on_last_batch`, stream_dataset.py:177-191: the batch held back is lost when the stream raises. -/
def forceLastG (g : Gen (List (Sample α))) : Gen (List (Sample α)) :=
  match g.fail with
  | some e => ⟨g.items.dropLast, some e⟩
  | none => Gen.ofPy (forceLast g.items)

/-- `get_streams`, stream_dataset.py:227-251. -/
def streamsG (f : String → Py (List (Sample α))) (batchSize : Nat) (dropLast : Bool) (order : List String) : Gen (List (Sample α)) :=
  let gs := (List.range batchSize).map fun i => chainG f (everyFrom i batchSize order)
  if dropLast then forceLastG (zipG gs) else longG gs

/-- The batch parts of all workers put together, stream_dataset.py:486-498. -/
def mergeG (dropLast : Bool) (parts : List (Gen (List (Sample α)))) : Gen (List (Sample α)) :=
  let g := if dropLast then zipG parts else longG parts
  ⟨g.items.map List.flatten, g.fail⟩

/-- One iteration of `while True` in `make_streams_synchronous` (346-375) on a stream that raises `fail` when it is exhausted: the exception is not a StopIteration, so it leaves the loop 348-354 and the generator. -/
def syncStepG (fail : Option PyErr) (batchSize : Nat) (st : SyncSt α) : SyncStep α :=
  match fail with
  | some e => if (fill st.active batchSize st.empty st.bufs st.stream).2.1 && !st.empty then .raise e else syncStep batchSize st
  | none => syncStep batchSize st

/-- At most `fuel` iterations. -/
def syncRunG (fail : Option PyErr) (batchSize : Nat) : Nat → SyncSt α → List (List (Sample α)) × Ended
  | 0, _ => ([], .running)
  | n + 1, st =>
    match syncStepG fail batchSize st with
    | .yield b st' => let r := syncRunG fail batchSize n st'; (b :: r.1, r.2)
    | .next st' => syncRunG fail batchSize n st'
    | .stop => ([], .returned)
    | .raise e => ([], .raised e)

/-- `make_streams_synchronous`, stream_dataset.py:329-375. -/
def syncG (fuel : Nat) (g : Gen (List (Sample α))) : List (List (Sample α)) × Ended :=
  match g.items with
  | [] => ([], .raised (g.fail.getD .runtimeError))
  | b :: bs => syncRunG g.fail b.length fuel ⟨bs, false, b.map Sample.id, Bufs.first b⟩

/-- What the loader yields before collation, stream_dataset.py:486-502, from the generators of its datasets. -/
def loaderG (dropLast overlapping : Bool) (fuel : Nat) (parts : List (Gen (List (Sample α)))) : List (List (Sample α)) × Ended :=
  let g := mergeG dropLast parts
  if overlapping then
    (g.items, match g.fail with | some e => .raised e | none => .returned)
  else syncG fuel g

end
end DS.Data
