import Verif.Model.Gen
/-!
# Model of the worker processes of `MultiStreamDataLoader` (dreamstream/data/stream_dataset.py:478-498)

`Model/Gen` runs the datasets in the process that iterates. Here every dataset has a process of its own, which puts what the dataset yields into a queue, up to `prefetch` messages ahead (torch/utils/data/_utils/worker.py; one worker per
DataLoader, so messages arrive in order). The processes take steps in the order of a schedule, an arbitrary list. A process that cannot take a step leaves the state as it is. Starting and stopping of processes,
`timeout`, pinning of memory and crashes are not modelled; a dataset's exception is passed on and raised by the process that iterates.
-/

namespace DS.Work

open DS.Data

variable {β : Type}

/-- A message of a worker: what its dataset yields, that it is exhausted, or the exception it raised. -/
inductive Msg (β : Type) where
  | item (b : β)
  | stop
  | fail (e : PyErr)

/-- All messages of a worker whose dataset is the generator `g`. -/
def msgs (g : Gen β) : List (Msg β) := g.items.map .item ++ [match g.fail with | some e => .fail e | none => .stop]

/-- A worker: its queue and the messages it has not made yet. -/
structure Lane (β : Type) where
  queue : List (Msg β)
  rest : List (Msg β)

/-- How the iteration stands. -/
inductive Status where
  | running
  | returned
  | raised (e : PyErr)
  deriving DecidableEq, Repr

/-- The process that iterates: the batches it has yielded, the parts of the next, the worker it asks next. -/
structure Main (β : Type) where
  out : List (List β)
  acc : List β
  next : Nat
  status : Status

/-- What the process that iterates does with a message of the worker it asks; `drop` is `drop_last`: `zip`, stream_dataset.py:489, or `zip_longest` without the `None`s, 493-494. -/
def Main.take (drop : Bool) (m : Main β) : Msg β → Main β
  | .item b => { m with acc := m.acc ++ [b], next := m.next + 1 }
  | .stop => if drop then { m with status := .returned } else { m with next := m.next + 1 }
  | .fail e => { m with status := .raised e }

/-- All workers have been asked: the batch is yielded; if there is none, all are exhausted and the iteration ends. -/
def Main.flush (m : Main β) : Main β :=
  if m.acc.isEmpty then { m with status := .returned } else ⟨m.out ++ [m.acc], [], 0, m.status⟩

/-- All processes. -/
structure State (β : Type) where
  lanes : List (Lane β)
  main : Main β

/-- Worker `i` makes its next message if there is room in its queue. -/
def State.work (prefetch i : Nat) (s : State β) : State β :=
  match s.lanes[i]? with
  | some ⟨q, m :: r⟩ => if q.length < prefetch then { s with lanes := s.lanes.set i ⟨q ++ [m], r⟩ } else s
  | _ => s

/-- The process that iterates takes a message from the worker it asks, waits while the queue is empty, and passes over a worker that has told it is exhausted. -/
def State.main! (drop : Bool) (s : State β) : State β :=
  match s.main.status with
  | .running =>
    match s.lanes[s.main.next]? with
    | none => { s with main := s.main.flush }
    | some ⟨m :: q, r⟩ => ⟨s.lanes.set s.main.next ⟨q, r⟩, s.main.take drop m⟩
    | some ⟨[], _ :: _⟩ => s
    | some ⟨[], []⟩ => { s with main := { s.main with next := s.main.next + 1 } }
  | _ => s

/-- Which process takes a step: the worker of a dataset, or the process that iterates (stream_dataset.py:480-498). -/
inductive Act where
  | work (i : Nat)
  | main
  deriving DecidableEq, Repr

/-- One step of the process that the schedule names (see the head of this file; stream_dataset.py:480-498). -/
def State.act (prefetch : Nat) (drop : Bool) (s : State β) : Act → State β
  | .work i => s.work prefetch i
  | .main => s.main! drop

/-- The processes take steps as in a schedule. -/
def State.run (prefetch : Nat) (drop : Bool) (s : State β) (sched : List Act) : State β := sched.foldl (State.act prefetch drop) s

/-- The processes at the beginning, stream_dataset.py:480-483. -/
def start (gs : List (Gen β)) : State β := ⟨gs.map fun g => ⟨[], msgs g⟩, ⟨[], [], 0, .running⟩⟩

end DS.Work
