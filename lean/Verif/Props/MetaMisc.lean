import Verif.Model.Lazy
import Verif.Model.MetaCat
import Verif.Lemmas.Gather
import Verif.Props.BatchIndex
/-! # C24, C28, C30: equality, lazy construction, repr -/

namespace DS.Meta

/-- **C24 is false of the code**: comparing metadata that differ raises AttributeError when the left has no chunk
indices; metadata with chunk indices are not equal to themselves; and unrelated metadata are "equal" when the chunk indices of one are the lengths of the other. -/
theorem C24_eq_false :
    eqMeta ⟨["a"], [true], [true], [3], none⟩ ⟨["b"], [true], [true], [3], none⟩ = .error .attributeError ∧
    eqMeta ⟨["a"], [true], [true], [3], some [0]⟩ ⟨["a"], [true], [true], [3], some [0]⟩ = .ok false ∧
    eqMeta ⟨["a"], [true], [true], [3], some [4]⟩ ⟨["b"], [false], [false], [4], none⟩ = .ok true := by decide

/-- C24, what holds, and the complete decision table: without chunk indices on either side, `==` is `True` for equal metadata and
raises AttributeError otherwise (it never returns `False`); with no chunk indices on the left only, it raises; with
chunk indices on the left, it is `True` iff these are the right side's lengths. Missing: chunk indices, which are compared with the wrong column or not at all (`C24_eq_false`). -/
theorem C24_eq_partial (a b : Meta) :
    (a.chunk = none → b.chunk = none → eqMeta a b = if a = b then .ok true else .error .attributeError) ∧
    (a.chunk = none → b.chunk ≠ none → eqMeta a b = .error .attributeError) ∧
    (∀ c, a.chunk = some c → eqMeta a b = .ok (decide (c = b.lengths))) := by
  refine ⟨?_, ?_, ?_⟩
  · intro h1 h2
    unfold eqMeta
    rw [h1]
    have : (a.ids = b.ids ∧ a.sos = b.sos ∧ a.eos = b.eos ∧ a.lengths = b.lengths ∧ ((none : Option (List Int)) = none ∧ b.chunk = none)) ↔ a = b := by
      cases a; cases b; simp only [mk.injEq] at h1 h2 ⊢; simp [h1, h2]
    by_cases hab : a = b
    · rw [if_pos (this.2 hab), if_pos hab]
    · rw [if_neg (fun h => hab (this.1 h)), if_neg hab]
  · intro h1 h2
    unfold eqMeta
    rw [if_neg (by rintro ⟨-, -, -, -, -, h⟩; exact h2 h), h1]
  · intro c h
    unfold eqMeta
    rw [if_neg (by rintro ⟨-, -, -, -, h', -⟩; rw [h] at h'; simp at h'), h]

example : eqMeta { ex3 with chunk := none } { ex3 with chunk := none } = .ok true ∧ eqMeta { ex3 with chunk := none } ex3 = .error .attributeError ∧
    eqMeta ex3 ex3 = .ok false := by decide

end DS.Meta

namespace DS.Lazy

/-- Arguments whose columns have different lengths. -/
def Args.Bad (a : Args) : Prop := ¬ (a.ids.length = a.lengths.length ∧ a.lengths.length = a.sos.length ∧ a.sos.length = a.eos.length)

instance (a : Args) : Decidable a.Bad := by unfold Args.Bad; infer_instance

/-- **C28 is false of the code**: the second use raises AttributeError, and assigning to an attribute succeeds the second time. -/
theorem C28_invalid_false :
    (⟨["a"], [true], [true], [1, 2]⟩ : Args).Bad ∧
    uses { args := ⟨["a"], [true], [true], [1, 2]⟩ } [.readLengths, .readLengths] = [.error .valueError, .error .attributeError] ∧
    uses { args := ⟨["a"], [true], [true], [1, 2]⟩ } [.setLengths [3], .setLengths [3], .readLengths] = [.error .valueError, .ok .unit, .ok (.ints [3])] := by
  decide

/-- The uses that read. -/
def Use.reads : Use → Bool
  | .setLengths _ => false
  | _ => true

/-- C28, what holds: the first use of invalid metadata raises ValueError and every later read raises (AttributeError) until something is assigned.
Missing: the exception class on later uses and assignments; see `C28_invalid_false`. -/
theorem C28_invalid_partial (a : Args) (ha : a.Bad) (u : Use) (us : List Use) (hus : ∀ v ∈ us, v.reads = true) :
    uses { args := a } (u :: us) = .error .valueError :: us.map (fun _ => .error .attributeError) := by
  have h1 : use { args := a } u = (⟨a, some {}⟩, .error .valueError) := by
    unfold use initObj
    simp only [if_neg ha]
  rw [uses, h1]
  congr 1
  induction us with
  | nil => rfl
  | cons v vs ih =>
    have hv := hus v (by simp)
    have h2 : use ⟨a, some {}⟩ v = (⟨a, some {}⟩, .error .attributeError) := by
      cases v <;> simp [use, initObj, onObj, slot, Use.reads] at hv ⊢
    rw [uses, h2, List.map_cons, ih (fun w hw => hus w (by simp [hw]))]

/-- C28, the other half: valid metadata report exactly the columns they were given. Missing: invalid metadata, which are reported only on the first use (`C28_invalid_false`). -/
theorem C28_valid_partial (a : Args) (ha : ¬ a.Bad) :
    uses { args := a } [.readIds, .readSos, .readEos, .readLengths, .len] =
      [.ok (.ids a.ids), .ok (.bools a.sos), .ok (.bools a.eos), .ok (.ints a.lengths), .ok (.nat a.ids.length)] := by
  unfold Args.Bad at ha
  rw [Classical.not_not] at ha
  simp [uses, use, initObj, ha, onObj, slot]

example : (⟨["a"], [true], [true], [1, 2]⟩ : Args).Bad ∧
    uses { args := ⟨["a"], [true], [true], [1, 2]⟩ } [.len, .readSos, .readIds] = [.error .valueError, .error .attributeError, .error .attributeError] ∧
    ¬ (⟨["a", "b"], [true, false], [true, false], [1, 2]⟩ : Args).Bad := by decide

end DS.Lazy

namespace DS.Repr

/-- **C30 is false of the code**: a batch with a single id of more than 80 characters cannot be printed. -/
theorem C30_repr_false : reprIds (fun s => s) [String.ofList (List.replicate 81 'a')] = .error .indexError := by
  unfold reprIds
  rw [if_pos (by rw [List.map_singleton, List.sum_singleton, String.length_ofList, List.length_replicate]; omega)]
  rfl

theorem loop_ok (rep : String → String) (hrep : ∀ s, s.length ≤ (rep s).length) (ids : List String) (fuel i length : Nat) (acc : List String)
    (hlen : 80 < length + ((ids.drop (i + 1)).dropLast.map String.length).sum) (hi : i + 1 ≤ ids.length) :
    ∃ r, loop rep ids fuel i length acc = .ok r := by
  induction fuel generalizing i length acc with
  | zero => exact ⟨_, rfl⟩
  | succ fuel ih =>
    unfold loop
    by_cases h : length < 80
    · rw [if_pos h]
      have hsome : i + 2 < ids.length := by
        by_contra hcon
        have : (ids.drop (i + 1)).dropLast = [] := by
          have : (ids.drop (i + 1)).dropLast.length = 0 := by simp; omega
          exact List.length_eq_zero_iff.1 this
        rw [this] at hlen
        simp at hlen
        omega
      rw [List.getElem?_eq_getElem (by omega : i < ids.length), List.getElem?_eq_getElem (by omega : i + 1 < ids.length)]
      apply ih
      · have hd : ids.drop (i + 1) = ids[i + 1] :: ids.drop (i + 1 + 1) := List.drop_eq_getElem_cons (by omega)
        have hne : ids.drop (i + 1 + 1) ≠ [] := by
          intro h; have := congrArg List.length h; simp at this; omega
        rw [hd, List.dropLast_cons_of_ne_nil hne] at hlen
        simp only [List.map_cons, List.sum_cons] at hlen
        have := hrep ids[i + 1]
        omega
      · omega
    · rw [if_neg h]; exact ⟨_, rfl⟩

/-- C30, exactly when `repr` works: it raises (IndexError) iff the batch is a single id of more than 80 characters.
`rep` is any function that never shortens its argument, as Python's `repr` of a string. Missing: a single long id (`C30_repr_false`). -/
theorem C30_repr_partial (rep : String → String) (hrep : ∀ s, s.length ≤ (rep s).length) (ids : List String) :
    (∃ r, reprIds rep ids = .ok r) ↔ ¬ ∃ s, ids = [s] ∧ 80 < s.length := by
  constructor
  · rintro ⟨r, hr⟩ ⟨s, rfl, hs⟩
    unfold reprIds at hr
    rw [if_pos (by simpa using hs)] at hr
    simp at hr
  · intro h
    unfold reprIds
    by_cases hsum : (ids.map String.length).sum > 80
    · rw [if_pos hsum]
      match ids, hsum, h with
      | [], hs, _ => simp at hs
      | [s], hs, h => exact absurd ⟨s, rfl, by simpa using hs⟩ h
      | x :: y :: rest, hs, _ =>
        obtain ⟨z, hz⟩ : ∃ z, (x :: y :: rest).getLast? = some z := ⟨_, List.getLast?_eq_some_getLast (by simp)⟩
        have h0 : (x :: y :: rest)[0]? = some x := rfl
        have h1 : (x :: y :: rest)[1]? = some y := rfl
        simp only [h0, h1, hz]
        have := loop_ok rep hrep (x :: y :: rest) ((x :: y :: rest).length + 1) 1 ((rep x).length + (rep z).length + 7 + (rep y).length) [rep x] (by
          have hx := hrep x; have hy := hrep y; have hz' := hrep z
          simp only [List.map_cons, List.sum_cons] at hs
          simp only [List.drop_succ_cons, List.drop_zero]
          cases hr : rest with
          | nil => rw [hr] at hs; simp at hs ⊢; omega
          | cons w ws =>
            have hlast : rest.getLast? = some z := by
              rw [hr] at hz ⊢; simpa [List.getLast?_cons] using hz
            have hsplit : rest = rest.dropLast ++ [z] := by
              have hne : rest ≠ [] := by rw [hr]; simp
              rw [List.getLast?_eq_some_getLast hne] at hlast
              simp only [Option.some.injEq] at hlast
              rw [← hlast, List.dropLast_concat_getLast]
            rw [← hr]
            rw [hsplit] at hs
            simp only [List.map_append, List.sum_append, List.map_cons, List.map_nil, List.sum_cons, List.sum_nil] at hs
            omega) (by simp)
        obtain ⟨r, hr⟩ := this
        exact ⟨r ++ [rep z], by rw [hr]; rfl⟩
    · rw [if_neg hsum]; exact ⟨_, rfl⟩

example : (∀ s : String, s.length ≤ ("'" ++ s ++ "'").length) ∧ reprIds (fun s => "'" ++ s ++ "'") ["a", "b"] = .ok ["'a'", "'b'"] := by
  refine ⟨fun s => by rw [String.length_append, String.length_append]; omega, by decide⟩

end DS.Repr
