import Verif.Spec.Tensor
import Verif.Lemmas.Gather
/-! Axis arguments, names, coordinates. -/

namespace DS.Tn

theorem normDim_eq (n : Nat) (d : Int) : normDim n d = orIndexError (posOf n d) := by
  unfold normDim posOf
  split
  · rfl
  · split <;> rfl

theorem normDim_ok {n : Nat} {d : Int} {a : Nat} (h : posOf n d = some a) : normDim n d = .ok a := by
  rw [normDim_eq, h]; rfl

theorem mapM_normDim (n : Nat) (dims : List Int) : dims.mapM (normDim n) = orIndexError (positions n dims) := by
  induction dims with
  | nil => rfl
  | cons d ds ih =>
    rw [List.mapM_cons, ih, normDim_eq]
    have hp : positions n (d :: ds) = match posOf n d, positions n ds with
      | some k, some ks => some (k :: ks)
      | _, _ => none := rfl
    rw [hp]
    cases posOf n d with
    | none => rfl
    | some k =>
      cases positions n ds with
      | none => rfl
      | some ks => rfl

theorem pyGet_names {β : Type} {xs : List β} {d : Int} {a : Nat} (h : posOf xs.length d = some a) (x : β) (hx : xs[a]? = some x) :
    pyGet xs d = .ok x := by
  rw [pyGet_eq, h]
  simp [orIndexError, hx]

theorem namesOK_iff (ns : List (Option String)) : namesOK ns = true ↔ (ns.filterMap id).Nodup ∧ some "" ∉ ns := by
  unfold namesOK
  simp

theorem nameIndex_of {ns : List (Option String)} (hnd : (ns.filterMap id).Nodup) {s : String} {b : Nat} (h : ns[b]? = some (some s)) :
    nameIndex ns (some s) = .ok b := by
  have hm : some s ∈ ns := List.mem_of_getElem? h
  unfold nameIndex
  rw [if_pos hm]
  congr 1
  clear hm
  induction ns generalizing b with
  | nil => simp at h
  | cons n ns ih =>
    cases b with
    | zero => simp at h; subst h; simp
    | succ b =>
      simp at h
      have hne : n ≠ some s := by
        rintro rfl
        simp only [List.filterMap_cons, id] at hnd
        exact (List.nodup_cons.1 hnd).1 (by simp; exact List.mem_of_getElem? h)
      rw [List.idxOf_cons_ne _ (by simpa using hne)]
      congr 1
      apply ih _ h
      cases n with
      | none => simpa using hnd
      | some n => simp at hnd ⊢; exact hnd.2

theorem rename_ok {α : Type} (t : Ten α) (ns : List (Option String)) (h : ns.length = t.ndim) (hok : (ns.filterMap id).Nodup ∧ some "" ∉ ns) :
    t.rename ns = .ok { t with names := ns } := by
  unfold Ten.rename
  by_cases h1 : ns = [none]
  · rw [if_pos h1]
    subst h1
    unfold Ten.unnamed
    unfold Ten.ndim at h
    match hs : t.shape, h with
    | [s], _ => simp [hs]
  · rw [if_neg h1, if_pos ⟨h, (namesOK_iff _).2 hok⟩]

theorem refine_ok {α : Type} (t : Ten α) (ns : List (Option String)) (h : ns.length = t.ndim) (hok : (ns.filterMap id).Nodup ∧ some "" ∉ ns) :
    t.refine ns = .ok { t with names := ns } := by
  unfold Ten.refine
  rw [if_pos ⟨h, (namesOK_iff _).2 hok⟩]

/-- A reordering or part of valid names is valid. -/
theorem okNames_perm {ns ns' : List (Option String)} (hp : ns'.Perm ns) (h : (ns.filterMap id).Nodup ∧ some "" ∉ ns) :
    (ns'.filterMap id).Nodup ∧ some "" ∉ ns' :=
  ⟨(hp.filterMap id).nodup_iff.2 h.1, fun hm => h.2 (hp.mem_iff.1 hm)⟩

theorem okNames_sub {ns ns' : List (Option String)} (hs : ns'.Sublist ns) (h : (ns.filterMap id).Nodup ∧ some "" ∉ ns) :
    (ns'.filterMap id).Nodup ∧ some "" ∉ ns' :=
  ⟨(hs.filterMap id).nodup h.1, fun hm => h.2 (hs.subset hm)⟩

theorem posOf_nonneg (n : Nat) (d : Int) (h0 : 0 ≤ d) (h : d < n) : posOf n d = some d.toNat := by
  unfold posOf; rw [if_pos ⟨h0, h⟩]

theorem posOf_nat (n a : Nat) (h : a < n) : posOf n a = some a := by
  rw [posOf_nonneg n a (by omega) (by omega)]; simp

end DS.Tn

namespace DS.Tn

theorem posOf_iff {n : Nat} {d : Int} {a : Nat} : posOf n d = some a ↔ (d = a ∧ a < n) ∨ (d < 0 ∧ d + n = a) := by
  unfold posOf
  split
  · rw [Option.some.injEq]; omega
  · split
    · rw [Option.some.injEq]; omega
    · simp; omega

end DS.Tn

namespace DS

theorem slicePos_unit (n : Nat) (s : Slice) (hs : s.step.getD 1 = 1) :
    slicePos n s = List.range' (sliceLo n s).toNat ((sliceHi n s).toNat - (sliceLo n s).toNat) := by
  have hl := sliceLo_range n s
  have hh := sliceHi_range n s
  refine List.Pairwise.eq_of_mem_iff (r := (· < ·)) ?_ ?_ ?_
  · unfold slicePos; exact List.Pairwise.filter _ List.pairwise_lt_range
  · exact List.pairwise_lt_range'
  · intro x
    simp only [slicePos, List.mem_filter, List.mem_range, Bool.and_eq_true, decide_eq_true_eq, List.mem_range'_1, hs]
    omega

theorem gath_range' {α : Type} (xs : List α) (a k : Nat) (h : a + k ≤ xs.length) : gath xs (List.range' a k) = (xs.drop a).take k := by
  apply List.ext_getElem?
  intro i
  rw [gath_get _ _ (by intro j hj; rw [List.mem_range'_1] at hj; omega)]
  by_cases hi : i < k
  · rw [List.getElem?_take_of_lt hi, List.getElem?_drop, List.getElem?_range' hi]
    simp
  · rw [List.getElem?_take_eq_none (by omega), List.getElem?_eq_none (by simp; omega)]
    simp

/-- A unit-step Python slice as `drop` and `take`. -/
theorem pySlice_unit {α : Type} (xs : List α) (s : Slice) (hs : s.step.getD 1 = 1) :
    pySlice xs s = .ok ((xs.drop (sliceLo xs.length s).toNat).take ((sliceHi xs.length s).toNat - (sliceLo xs.length s).toNat)) := by
  have hl := sliceLo_range xs.length s
  have hh := sliceHi_range xs.length s
  rw [pySlice_eq xs s (by omega), slicePos_unit _ _ hs]
  by_cases h : (sliceLo xs.length s).toNat ≤ (sliceHi xs.length s).toNat
  · rw [gath_range' _ _ _ (by omega)]
  · rw [show (sliceHi xs.length s).toNat - (sliceLo xs.length s).toNat = 0 by omega]
    simp [gath]

end DS

namespace DS

theorem ok_of_bind {α β : Type} {x : Py α} {f : α → Py β} {b : β} (h : (x >>= f) = .ok b) : ∃ a, x = .ok a ∧ f a = .ok b := by
  cases x with
  | error e => cases h
  | ok a => exact ⟨a, rfl, h⟩

/-- Lists that agree after erasing position `l` agree everywhere else. -/
theorem get_of_eraseIdx {α : Type} {xs ys : List α} {l : Nat} (h : xs.eraseIdx l = ys.eraseIdx l) (k : Nat) (hk : k ≠ l) : xs[k]? = ys[k]? := by
  by_cases h1 : k < l
  · have := congrArg (·[k]?) h
    simp only [List.getElem?_eraseIdx, if_pos h1] at this
    exact this
  · have := congrArg (·[k - 1]?) h
    simp only [List.getElem?_eraseIdx, if_neg (by omega : ¬ k - 1 < l)] at this
    rwa [show k - 1 + 1 = k by omega] at this

end DS
