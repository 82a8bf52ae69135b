import Verif.Model.Workers
/-!
# Specification vocabulary: steps of processes
-/

namespace DS.Work

variable {β : Type}

/-- The process can take a step: a worker has something left and room in its queue; the process that iterates has not ended and does not wait for a worker that has something left. -/
def can (prefetch : Nat) (s : State β) : Act → Bool
  | .work i => match s.lanes[i]? with
    | some ⟨q, _ :: _⟩ => decide (q.length < prefetch)
    | _ => false
  | .main => decide (s.main.status = .running) && (match s.lanes[s.main.next]? with
    | some ⟨[], _ :: _⟩ => false
    | _ => true)

/-- The number of steps in a schedule that could be taken. -/
def steps (prefetch : Nat) (drop : Bool) : State β → List Act → Nat
  | _, [] => 0
  | s, a :: as => (if can prefetch s a then 1 else 0) + steps prefetch drop (s.act prefetch drop a) as

/-- How an iteration over a generator ends. -/
def endOf : Option PyErr → Status
  | some e => .raised e
  | none => .returned

end DS.Work
