import Verif.Model.MetaCat
/-!
# Specification vocabulary: rows of a metadata object

A user thinks of metadata as one record per sequence in the batch. Nothing here refers to how operations are computed.
-/

namespace DS

/-- Everything metadata say about one sequence of the batch. -/
structure Row where
  id : String
  sos : Bool
  eos : Bool
  len : Int
  chunk : Option Int
  deriving DecidableEq, Repr

namespace Meta

/-- All columns have one entry per sequence. -/
def WF (m : Meta) : Prop :=
  m.sos.length = m.ids.length ∧ m.eos.length = m.ids.length ∧ m.lengths.length = m.ids.length ∧
    ∀ c, m.chunk = some c → c.length = m.ids.length

instance (m : Meta) : Decidable m.WF := by
  unfold WF
  cases h : m.chunk with
  | none => exact decidable_of_iff (m.sos.length = m.ids.length ∧ m.eos.length = m.ids.length ∧ m.lengths.length = m.ids.length) (by simp)
  | some c => exact decidable_of_iff (m.sos.length = m.ids.length ∧ m.eos.length = m.ids.length ∧ m.lengths.length = m.ids.length ∧ c.length = m.ids.length) (by simp)

/-- The `k`-th row, if there is one. -/
def row (m : Meta) (k : Nat) : Option Row :=
  match m.ids[k]?, m.sos[k]?, m.eos[k]?, m.lengths[k]? with
  | some i, some s, some e, some l =>
    match m.chunk with
    | none => some ⟨i, s, e, l, none⟩
    | some c => (c[k]?).map fun x => ⟨i, s, e, l, some x⟩
  | _, _, _, _ => none

/-- `m'` consists of exactly the rows of `m` at the positions `sel`, in that order. -/
def Selects (m : Meta) (sel : List Nat) (m' : Meta) : Prop :=
  m'.WF ∧ m'.ids.length = sel.length ∧ m'.chunk.isSome = m.chunk.isSome ∧
    ∀ k, m'.row k = (sel[k]?).bind m.row

end Meta

/-- The position that Python index `i` names in a sequence of length `n`, if any. -/
def posOf (n : Nat) (i : Int) : Option Nat :=
  if 0 ≤ i ∧ i < n then some i.toNat
  else if i < 0 ∧ 0 ≤ i + n then some (i + n).toNat
  else none

/-- A slice bound counted from the end if negative, and moved into `0..n`. -/
def boundOf (n : Nat) (x : Int) : Int := if x < 0 then max 0 (x + n) else min x n

/-- First position of a slice with positive step. -/
def sliceLo (n : Nat) (s : Slice) : Int := match s.start with | none => 0 | some x => boundOf n x
/-- End (exclusive) of a slice with positive step. -/
def sliceHi (n : Nat) (s : Slice) : Int := match s.stop with | none => n | some x => boundOf n x

/-- The positions of `0..n-1` that a slice with positive step selects. -/
def slicePos (n : Nat) (s : Slice) : List Nat :=
  (List.range n).filter fun j =>
    decide (sliceLo n s ≤ j) && decide ((j : Int) < sliceHi n s) && decide (((j : Int) - sliceLo n s) % (s.step.getD 1) = 0)

/-- All positions named by a list of indices, or `none` if one of them is out of range. -/
def positions (n : Nat) : List Int → Option (List Nat)
  | [] => some []
  | i :: is => match posOf n i, positions n is with
    | some k, some ks => some (k :: ks)
    | _, _ => none

/-- The positions of `True`. -/
def truePos (bs : List Bool) : List Nat := (List.range bs.length).filter fun j => bs[j]? == some true

/-- Positions that exist, or `IndexError`. -/
def orIndexError {α : Type} : Option α → Py α
  | some a => .ok a
  | none => .error .indexError

/-- What a batch index of a supported kind selects from a batch of `n` sequences, or the exception it must raise. -/
def batchSel (n : Nat) : Meta.BIx → Option (Py (List Nat))
  | .none => some (.ok (List.range n))
  | .int i => some ((orIndexError (posOf n i)).map fun k => [k])
  | .list is => some (orIndexError (positions n is))
  | .ints is => some (orIndexError (positions n is))
  | .mask bs => some (if bs.length = n then .ok (truePos bs) else .error .indexError)
  | .slice s => some (if s.step.getD 1 ≤ 0 then .error .valueError else .ok (slicePos n s))
  | .multi => some (.error .indexError)
  | _ => none   -- Python lists of bools, tuples and 0-d tensors: see their own properties

/-- `res` is what the specification `spec` asks of selecting rows of `m`: the same exception, or exactly those rows. -/
def Meta.Meets (m : Meta) (spec : Py (List Nat)) (res : Py Meta) : Prop :=
  match spec with
  | .error e => res = .error e
  | .ok sel => ∃ m', res = .ok m' ∧ m.Selects sel m'

end DS
