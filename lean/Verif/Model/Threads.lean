import Verif.Model.ConvMem
import Verif.Model.Collector
/-!
# Model of calls from several threads

A program is cut into its operations on shared dictionaries (`stream_buffer` of every convolution, patches/conv.py:26, 48, 53-55; the entries and `closed_entries` of an `OutputCollector`, data/data_objects.py:102-136). One operation
on a dictionary or set is atomic (CPython's global lock); `dict.update` is one operation per key here, which allows more interleavings. Between two operations the program works on its own tensors and metadata only: the
batches that the threads are called with share no storage. The mode (`streaming`) is not changed while the threads run.
-/

namespace DS.Conc

section
variable {κ ν ρ : Type}

/-- The shared dictionaries: `κ` says which dictionary and which key. -/
abbrev Store (κ ν : Type) := κ → Option ν

/-- A program as a sequence of operations on the shared dictionaries: `k in d`, `d[k]` (`none`: KeyError), `d[k] = v`, `del d[k]` (`false`: KeyError). -/
inductive Prog (κ ν ρ : Type) where
  | done (r : ρ)
  | has (k : κ) (next : Bool → Prog κ ν ρ)
  | get (k : κ) (next : Option ν → Prog κ ν ρ)
  | put (k : κ) (v : ν) (next : Prog κ ν ρ)
  | del (k : κ) (next : Bool → Prog κ ν ρ)

variable [DecidableEq κ]

/-- Write or delete an entry. -/
def Store.set (σ : Store κ ν) (k : κ) (v : Option ν) : Store κ ν := fun j => if j = k then v else σ j

/-- The next operation of a program. -/
def Prog.step (σ : Store κ ν) : Prog κ ν ρ → Store κ ν × Prog κ ν ρ
  | .done r => (σ, .done r)
  | .has k next => (σ, next (σ k).isSome)
  | .get k next => (σ, next (σ k))
  | .put k v next => (σ.set k (some v), next)
  | .del k next => (σ.set k none, next (σ k).isSome)

/-- Threads run in the order of a schedule: a list of the thread that does the next operation. -/
def sched (σ : Store κ ν) (ps : Nat → Prog κ ν ρ) : List Nat → Store κ ν × (Nat → Prog κ ν ρ)
  | [] => (σ, ps)
  | t :: ts => sched ((ps t).step σ).1 (fun u => if u = t then ((ps t).step σ).2 else ps u) ts

end

section Conv
open DS.Conv
variable {α : Type} [Zero α]

/-- `stream_buffer` of the layer with the given number, at an id. -/
abbrev Key := Nat × String

/-- `[self.stream_buffer[_id] if _id in self.stream_buffer else None for _id in input.meta.ids]`, patches/conv.py:26. -/
def reads {ρ : Type} (l : Nat) (fail : PyErr → Prog Key (List α) ρ) : List String → (List (Option (List α)) → Prog Key (List α) ρ) → Prog Key (List α) ρ
  | [], k => k []
  | i :: is, k => .has (l, i) fun b =>
    if b then .get (l, i) fun v =>
      match v with
      | none => fail .keyError
      | some b => reads l fail is fun bs => k (some b :: bs)
    else reads l fail is fun bs => k (none :: bs)

/-- `self.stream_buffer.update(outputs.meta._temp_buffer)`, patches/conv.py:48. -/
def writes {ρ : Type} (l : Nat) : List (String × List α) → Prog Key (List α) ρ → Prog Key (List α) ρ
  | [], k => k
  | kv :: kvs, k => .put (l, kv.1) kv.2 (writes l kvs k)

/-- `if eos and _id in self.stream_buffer: del self.stream_buffer[_id]`, patches/conv.py:53-55. -/
def deletes {ρ : Type} (l : Nat) (fail : PyErr → Prog Key (List α) ρ) : List (String × Bool) → Prog Key (List α) ρ → Prog Key (List α) ρ
  | [], k => k
  | (i, e) :: r, k =>
    if e then .has (l, i) fun b =>
      if b then .del (l, i) fun b => if b then deletes l fail r k else fail .keyError
      else deletes l fail r k
    else deletes l fail r k

/-- The convolution of a batch with its buffers in front, and the post-hook, patches/conv.py:45-57. -/
def finish {ρ : Type} (l : Nat) (c : Cfg) (g : List α → α) (fail : PyErr → Prog Key (List α) ρ) (k : ST α → Prog Key (List α) ρ) : Py (ST α) → Prog Key (List α) ρ
  | .error e => fail e
  | .ok z =>
    match conv1d c g z with
    | .error e => fail e
    | .ok (y, items) => writes l items (if y.md.anyEnding then deletes l fail (y.md.ids.zip y.md.eos) (k y) else k y)

/-- A call of an online `Conv1d` with the number `l`, patches/conv.py:13-57, overrides.py:193-256. -/
def callConv {ρ : Type} (l : Nat) (c : Cfg) (g : List α → α) (x : ST α) (fail : PyErr → Prog Key (List α) ρ) (k : ST α → Prog Key (List α) ρ) : Prog Key (List α) ρ :=
  if c.kw > 1 ∧ x.md.allStarting = false then
    reads l fail x.md.ids fun bs => finish l c g fail k (if sameLengths bs then catEqual bs (bufLen (bs.head?.getD none)) x else catRagged bs x)
  else finish l c g fail k (.ok x)

/-- A call of a sequential model (torch.nn.Sequential.forward); the layers are numbered from `n`. -/
def callStack {ρ : Type} (fail : PyErr → Prog Key (List α) ρ) (k : ST α → Prog Key (List α) ρ) : Nat → List (Layer α) → ST α → Prog Key (List α) ρ
  | _, [], x => k x
  | n, .conv c g :: ls, x => callConv n c g x fail fun y => callStack fail k (n + 1) ls y
  | n, .act f :: ls, x => callStack fail k (n + 1) ls { x with rows := x.rows.map (·.map f) }

/-- A thread: it calls the model on one batch after the other, catches exceptions, and keeps the outcomes. -/
def caller (ls : List (Layer α)) (acc : List (Py (ST α))) : List (ST α) → Prog Key (List α) (List (Py (ST α)))
  | [] => .done acc
  | x :: xs => callStack (fun e => caller ls (acc ++ [.error e]) xs) (fun y => caller ls (acc ++ [.ok y]) xs) 0 ls x

end Conv

section Collect
open DS.Coll
variable {α : Type}

/-- An entry of the collector (`false`) or a member of `closed_entries` (`true`), at an id. -/
abbrev CKey := Bool × String

/-- What is stored: a tensor, or nothing (members of the set). -/
abbrev CVal (α : Type) := Option (Entry α)

/-- The second half of `_update_unary`, data/data_objects.py:126-136, with the operations on the dictionary. -/
def storeP {ρ : Type} (i : String) (sos : Bool) (x : Entry α) (fail : PyErr → Prog CKey (CVal α) ρ) (k : Prog CKey (CVal α) ρ) : Prog CKey (CVal α) ρ :=
  .has (false, i) fun known =>
    if known then
      if sos then fail .valueError
      else .get (false, i) fun v =>
        match v with
        | some (some a) =>
          match catEntry a x with
          | .error e => fail e
          | .ok y => .put (false, i) (some y) k
        | _ => fail .keyError
    else if sos then .put (false, i) (some x) k
    else fail .valueError

/-- `_update_unary`, data/data_objects.py:118-136 (`meta.sos.item()` does not raise once `meta.eos.item()` has not, see `Model/Collector`). -/
def updateP {ρ : Type} (x : Entry α) (fail : PyErr → Prog CKey (CVal α) ρ) (k : Prog CKey (CVal α) ρ) : Prog CKey (CVal α) ρ :=
  match pyGet x.md.ids 0 with
  | .error e => fail e
  | .ok i => .has (true, i) fun closed =>
    if closed then fail .valueError
    else
      match item x.md.eos, item x.md.sos with
      | .ok eos, .ok sos => if eos then .put (true, i) none (storeP i sos x fail k) else storeP i sos x fail k
      | _, _ => fail .runtimeError

/-- The loop of data/data_objects.py:111-113. -/
def rowsP {ρ : Type} (fail : PyErr → Prog CKey (CVal α) ρ) (k : Prog CKey (CVal α) ρ) : List (Entry α) → Prog CKey (CVal α) ρ
  | [] => k
  | x :: xs =>
    match x.md.maxLength with
    | .error e => fail e
    | .ok ml => if ml > 0 then updateP x fail (rowsP fail k xs) else rowsP fail k xs

/-- One iteration of `update`, data/data_objects.py:109-116. -/
def itemP {ρ : Type} (fail : PyErr → Prog CKey (CVal α) ρ) (k : Prog CKey (CVal α) ρ) : Item α → Prog CKey (CVal α) ρ
  | .batch x =>
    match unpad x with
    | .ok rows => rowsP fail k rows
    | .error e => fail e
  | .single x => if x.md.size = 1 then updateP x fail k else fail .assertionError

/-- A thread that calls `collector.update(t)` for one tensor after the other, catches exceptions, and keeps the outcomes. -/
def collecting (acc : List (Option PyErr)) : List (Item α) → Prog CKey (CVal α) (List (Option PyErr))
  | [] => .done acc
  | x :: xs => itemP (fun e => collecting (acc ++ [some e]) xs) (collecting (acc ++ [none]) xs) x

end Collect

end DS.Conc
