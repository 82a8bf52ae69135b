import Verif.Model.CollectorMem
import Verif.Spec.Conv
/-! Vocabulary for C208: what a program has given to a collector. -/

namespace DS.Coll
open Meta
variable {α : Type}

/-- A chunk when it was collected: the memory at that time, and where its frames were. -/
structure Snap (α : Type) where
  mem : Mem α
  cell : Nat
  row : Nat
  n : Nat

/-- The frames that the place of the chunk showed in the memory `m`. -/
def Snap.at (m : Mem α) (s : Snap α) : List α := m.read s.cell s.row s.n

/-- The frames that the chunk had when it was collected. -/
def Snap.frames (s : Snap α) : List α := s.at s.mem

/-- The rows of a batch that belong to `i` and have frames: their numbers and lengths. -/
def rowsOf (i : String) : Nat → List Row → List (Nat × Nat)
  | k, r :: rs => (if r.id = i ∧ 0 < r.len then [(k, r.len.toNat)] else []) ++ rowsOf i (k + 1) rs
  | _, [] => []

/-- The chunks of `i` that one step gives to the collector; batches give the chunks that have frames. -/
def given (i : String) (mem : Mem α) : MemEv α → List (Snap α)
  | .write _ _ => []
  | .batch cell md _ => (rowsOf i 0 md.rows).map fun p => ⟨mem, cell, p.1, p.2⟩
  | .single cell row md n => if md.ids = [i] then [⟨mem, cell, row, n⟩] else []

/-- The memory after one step: only the program writes. -/
def after (mem : Mem α) : MemEv α → Mem α
  | .write cell f => mem.write cell f
  | _ => mem

/-- The chunks of `i` that a program gives to the collector, in order. -/
def seen (i : String) : Mem α → List (MemEv α) → List (Snap α)
  | _, [] => []
  | mem, e :: es => given i mem e ++ seen i (after mem e) es

/-- The memory at the end of a program. -/
def final : Mem α → List (MemEv α) → Mem α
  | mem, [] => mem
  | mem, e :: es => final (after mem e) es

/-- The batch in a cell, with the values that it has now. -/
def batchIn (mem : Mem α) (cell : Nat) (md : Meta) (w : Nat) : Conv.ST α := { md, width := w, rows := (List.range md.ids.length).map fun r => mem.read cell r w }

/-- A collector that copies everything at once: the same program, with each tensor given to `update` by value. -/
def byValue : Mem α → Coll α → List (MemEv α) → Coll α × List (Option PyErr)
  | _, s, [] => (s, [])
  | mem, s, .write cell f :: es => ((byValue (mem.write cell f) s es).1, none :: (byValue (mem.write cell f) s es).2)
  | mem, s, .batch cell md w :: es =>
    let r := updateItem s (.batch (batchIn mem cell md w))
    ((byValue mem r.1 es).1, r.2 :: (byValue mem r.1 es).2)
  | mem, s, .single cell row md n :: es =>
    let r := updateItem s (.single ⟨md, mem.read cell row n⟩)
    ((byValue mem r.1 es).1, r.2 :: (byValue mem r.1 es).2)

/-- No memory is written into after it has been given to the collector. -/
def Untouched : List (MemEv α) → Prop
  | [] => True
  | .write _ _ :: es => Untouched es
  | .batch cell _ _ :: es => (∀ f, MemEv.write cell f ∉ es) ∧ Untouched es
  | .single cell _ _ _ :: es => (∀ f, MemEv.write cell f ∉ es) ∧ Untouched es

/-- The metadata given to the collector have columns of equal lengths. -/
def MdOK : List (MemEv α) → Prop
  | [] => True
  | .write _ _ :: es => MdOK es
  | .batch _ md _ :: es => md.WF ∧ MdOK es
  | .single _ _ md _ :: es => md.WF ∧ MdOK es

end DS.Coll
