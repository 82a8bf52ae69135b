import Verif.Model.Dataset
import Verif.Props.Closure
import Mathlib.Tactic.Linarith
import Mathlib.Data.List.Perm.Basic
/-!
# C71, C72: `partition_by_sum` is a balanced partition
-/

namespace DS.Data
open Meta

theorem pyGet_nat {β : Type} (xs : List β) (i : Nat) (h : i < xs.length) : pyGet xs (i : Int) = .ok xs[i] := by
  unfold pyGet getNonneg
  have h0 : ¬ ((i : Int) < 0) := by omega
  simp [h0, h]

theorem foldl_min_le (x : Rat) (xs : List Rat) : xs.foldl min x ≤ x ∧ ∀ y ∈ xs, xs.foldl min x ≤ y := by
  induction xs generalizing x with
  | nil => simp
  | cons a as ih =>
    obtain ⟨h1, h2⟩ := ih (min x a)
    refine ⟨le_trans h1 (min_le_left _ _), ?_⟩
    intro y hy
    rcases List.mem_cons.1 hy with rfl | hy
    · exact le_trans h1 (min_le_right _ _)
    · exact h2 y hy

theorem foldl_min_mem (x : Rat) (xs : List Rat) : xs.foldl min x ∈ x :: xs := by
  induction xs generalizing x with
  | nil => simp
  | cons a as ih =>
    have := ih (min x a)
    rcases List.mem_cons.1 this with h | h
    · rw [List.foldl_cons, h]
      rcases min_choice x a with h' | h' <;> simp [h']
    · rw [List.foldl_cons]; simp [h]

/-- `argmin` gives a position of a least element. -/
theorem argmin_spec (sums : List Rat) (h : sums ≠ []) :
    ∃ m, argmin sums = .ok m ∧ ∃ hm : m < sums.length, ∀ j (hj : j < sums.length), sums[m] ≤ sums[j] := by
  cases sums with
  | nil => exact absurd rfl h
  | cons x xs =>
    refine ⟨_, rfl, ?_⟩
    have hmem := foldl_min_mem x xs
    have hlt := List.idxOf_lt_length_of_mem hmem
    refine ⟨hlt, ?_⟩
    intro j hj
    rw [List.getElem_idxOf]
    have hle := foldl_min_le x xs
    have hmj : (x :: xs)[j] ∈ x :: xs := List.getElem_mem hj
    rcases List.mem_cons.1 hmj with h' | h'
    · rw [h']; exact hle.1
    · exact hle.2 _ h'

theorem flatten_modify_perm {β : Type} (xs : List (List β)) (m : Nat) (b : β) (h : m < xs.length) :
    (xs.modify m (· ++ [b])).flatten.Perm (b :: xs.flatten) := by
  induction xs generalizing m with
  | nil => simp at h
  | cons x xs ih =>
    cases m with
    | zero =>
      simp only [List.modify_zero_cons, List.flatten_cons, List.append_assoc, List.singleton_append]
      exact List.perm_middle
    | succ m =>
      simp only [List.modify_succ_cons, List.flatten_cons]
      have := ih m (by simpa using h)
      exact (this.append_left x).trans List.perm_middle

theorem map_modify' {β γ : Type} (f : β → γ) (g : β → β) (g' : γ → γ) (h : ∀ b, f (g b) = g' (f b)) (xs : List β) (m : Nat) :
    (xs.modify m g).map f = (xs.map f).modify m g' := by
  induction xs generalizing m with
  | nil => cases m <;> rfl
  | cons x xs ih =>
    cases m with
    | zero => simp [h]
    | succ m => simp [ih]

/-- The invariant of the loop after the indices `done`. -/
structure PInv (values : List Rat) (n : Nat) (s : Parts) (done : List Nat) : Prop where
  lenI : s.idxs.length = n
  lenS : s.sums.length = n
  perm : s.idxs.flatten.Perm done
  vals : s.parts = s.idxs.map fun is => is.map fun i => values.getD i 0
  sums : s.sums = s.parts.map List.sum

theorem partStep_inv (values : List Rat) (n : Nat) (hn : 0 < n) (s : Parts) (done : List Nat) (i : Nat) (hi : i < values.length)
    (inv : PInv values n s done) :
    ∃ s' m, partStep values s i = .ok s' ∧ PInv values n s' (done ++ [i]) ∧ s'.sums = s.sums.modify m (· + values[i]) ∧
      ∃ hm : m < s.sums.length, ∀ j (hj : j < s.sums.length), s.sums[m] ≤ s.sums[j] := by
  obtain ⟨m, hm, hml, hmin⟩ := argmin_spec s.sums (by intro h; have := inv.lenS; rw [h] at this; simp at this; omega)
  have hv := pyGet_nat values i hi
  have hmI : m < s.idxs.length := by rw [inv.lenI, ← inv.lenS]; exact hml
  refine ⟨{ parts := s.parts.modify m (· ++ [values[i]]), idxs := s.idxs.modify m (· ++ [i]), sums := s.sums.modify m (· + values[i]) },
    m, ?_, ⟨?_, ?_, ?_, ?_, ?_⟩, rfl, hml, hmin⟩
  · unfold partStep
    rw [hm, Except.bind_ok', hv, Except.bind_ok']
  · simp [inv.lenI]
  · simp [inv.lenS]
  · exact (flatten_modify_perm _ _ _ hmI).trans (((List.Perm.cons i inv.perm)).trans (List.perm_append_comm (l₁ := [i])))
  · show s.parts.modify m (· ++ [values[i]]) = (s.idxs.modify m (· ++ [i])).map _
    rw [inv.vals, map_modify' _ _ (· ++ [values[i]])]
    intro is
    simp [List.getD, hi]
  · show s.sums.modify m (· + values[i]) = (s.parts.modify m (· ++ [values[i]])).map List.sum
    rw [inv.sums, map_modify' _ _ (· + values[i])]
    intro p
    simp

theorem partLoop_inv (values : List Rat) (n : Nat) (hn : 0 < n) (s : Parts) (done is : List Nat) (his : ∀ i ∈ is, i < values.length)
    (inv : PInv values n s done) : ∃ s', partLoop values s is = .ok s' ∧ PInv values n s' (done ++ is) := by
  induction is generalizing s done with
  | nil => exact ⟨s, rfl, by simpa using inv⟩
  | cons i is ih =>
    obtain ⟨s1, m, h1, inv1, _⟩ := partStep_inv values n hn s done i (his i (by simp)) inv
    obtain ⟨s2, h2, inv2⟩ := ih s1 (done ++ [i]) (fun j hj => his j (by simp [hj])) inv1
    refine ⟨s2, ?_, by simpa using inv2⟩
    unfold partLoop
    rw [h1, Except.bind_ok', h2]

theorem flatten_replicate_nil' {β : Type} (n : Nat) : (List.replicate n ([] : List β)).flatten = [] := by
  induction n with
  | zero => rfl
  | succ n ih => simp [List.replicate_succ]

theorem pinv_init (values : List Rat) (n : Nat) :
    PInv values n ⟨List.replicate n [], List.replicate n [], List.replicate n 0⟩ [] :=
  ⟨by simp, by simp, by simp, by simp, by simp⟩

/-- C71: the indices of the `n` partitions together are a permutation of all positions, and the values are those at the indices
(whatever order the indices are visited in). -/
theorem C71_partition (values : List Rat) (n : Nat) (hn : 0 < n) (shuffle sort : Bool) (hf : (shuffle && sort) = false)
    (order : List Nat) (ho : order.Perm (List.range values.length)) :
    ∃ parts idxs, partitionBySum values n shuffle sort order = .ok (parts, idxs) ∧
      parts.length = n ∧ idxs.length = n ∧ idxs.flatten.Perm (List.range values.length) ∧
      ∀ (k : Nat) (is : List Nat) (p : List Rat), idxs[k]? = some is → parts[k]? = some p → p.map some = is.map fun i => values[i]? := by
  have hlt : ∀ i ∈ order, i < values.length := fun i hi => List.mem_range.1 (ho.mem_iff.1 hi)
  obtain ⟨s, hs, inv⟩ := partLoop_inv values n hn _ [] order hlt (pinv_init values n)
  rw [List.nil_append] at inv
  refine ⟨s.parts, s.idxs, ?_, ?_, inv.lenI, inv.perm.trans ho, ?_⟩
  · unfold partitionBySum
    simp only [hf, Bool.false_eq_true, if_false]
    rw [hs, Except.bind_ok']
  · rw [inv.vals]; simp [inv.lenI]
  · intro k is p hk hp
    rw [inv.vals, List.getElem?_map, hk] at hp
    simp only [Option.map_some, Option.some.injEq] at hp
    subst hp
    rw [List.map_map]
    apply List.map_congr_left
    intro i hi
    have hmem : i ∈ s.idxs.flatten := List.mem_flatten.2 ⟨is, List.mem_of_getElem? hk, hi⟩
    have : i < values.length := hlt i (inv.perm.mem_iff.1 hmem)
    simp [List.getD, this]

/-- `partition_by_sum` raises for no partitions and at least one value (C71 needs `n ≥ 1`). -/
theorem C71_none (values : List Rat) (sort : Bool) (i : Nat) (order : List Nat) :
    partitionBySum values 0 false sort (i :: order) = .error .valueError := by
  rfl

/-- `partition_by_sum` refuses to shuffle and sort (C71 excludes it). -/
theorem C71_exclusive (values : List Rat) (n : Nat) (order : List Nat) : partitionBySum values n true true order = .error .valueError := by
  simp [partitionBySum]

theorem partStep_balanced (M : Rat) (hM : 0 ≤ M) (sums : List Rat) (m : Nat) (hm : m < sums.length) (v : Rat) (hv : 0 ≤ v) (hvM : v ≤ M)
    (hmin : ∀ j (hj : j < sums.length), sums[m] ≤ sums[j])
    (hb : ∀ i j (hi : i < sums.length) (hj : j < sums.length), sums[i] - sums[j] ≤ M) :
    ∀ i j (hi : i < (sums.modify m (· + v)).length) (hj : j < (sums.modify m (· + v)).length),
      (sums.modify m (· + v))[i] - (sums.modify m (· + v))[j] ≤ M := by
  intro i j hi hj
  have hi' : i < sums.length := by simpa using hi
  have hj' : j < sums.length := by simpa using hj
  rw [List.getElem_modify, List.getElem_modify]
  have h1 := hmin j hj'
  have h2 := hb i j hi' hj'
  by_cases hmi : m = i <;> by_cases hmj : m = j
  · subst hmi; subst hmj; simpa using hM
  · subst hmi
    rw [if_pos rfl, if_neg hmj]
    linarith
  · subst hmj
    rw [if_neg hmi, if_pos rfl]
    linarith
  · rw [if_neg hmi, if_neg hmj]
    exact h2

theorem partLoop_balanced (values : List Rat) (M : Rat) (hM : 0 ≤ M) (hv : ∀ v ∈ values, 0 ≤ v ∧ v ≤ M) (n : Nat) (hn : 0 < n)
    (s : Parts) (done is : List Nat) (his : ∀ i ∈ is, i < values.length) (inv : PInv values n s done)
    (hb : ∀ i j (hi : i < s.sums.length) (hj : j < s.sums.length), s.sums[i] - s.sums[j] ≤ M) :
    ∃ s', partLoop values s is = .ok s' ∧ ∀ i j (hi : i < s'.sums.length) (hj : j < s'.sums.length), s'.sums[i] - s'.sums[j] ≤ M := by
  induction is generalizing s done with
  | nil => exact ⟨s, rfl, hb⟩
  | cons i is ih =>
    obtain ⟨s1, m, h1, inv1, hs1, hm, hmin⟩ := partStep_inv values n hn s done i (his i (by simp)) inv
    have hvi := hv (values[i]'(his i (by simp))) (List.getElem_mem _)
    have hb1 := partStep_balanced M hM s.sums m hm _ hvi.1 hvi.2 hmin hb
    obtain ⟨s2, h2, hb2⟩ := ih s1 (done ++ [i]) (fun j hj => his j (by simp [hj])) inv1 (by
      intro a b ha hb'
      simp only [hs1] at ha hb' ⊢
      exact hb1 a b ha hb')
    refine ⟨s2, ?_, hb2⟩
    unfold partLoop
    rw [h1, Except.bind_ok', h2]

/-- C72: for non-negative values, none larger than `M`, the sums of any two partitions differ by at most `M`, for every visiting order. -/
theorem C72_balanced (values : List Rat) (n : Nat) (hn : 0 < n) (shuffle sort : Bool)
    (order : List Nat) (ho : order.Perm (List.range values.length)) (M : Rat) (hM : 0 ≤ M) (hv : ∀ v ∈ values, 0 ≤ v ∧ v ≤ M)
    (parts : List (List Rat)) (idxs : List (List Nat)) (h : partitionBySum values n shuffle sort order = .ok (parts, idxs)) :
    ∀ p ∈ parts, ∀ q ∈ parts, p.sum - q.sum ≤ M := by
  have hlt : ∀ i ∈ order, i < values.length := fun i hi => List.mem_range.1 (ho.mem_iff.1 hi)
  obtain ⟨s, hs, hb⟩ := partLoop_balanced values M hM hv n hn _ [] order hlt (pinv_init values n) (by
    intro i j hi hj
    simpa using hM)
  obtain ⟨s', hs', inv⟩ := partLoop_inv values n hn _ [] order hlt (pinv_init values n)
  rw [hs] at hs'
  cases hs'
  unfold partitionBySum at h
  split at h
  · cases h
  · rw [hs, Except.bind_ok'] at h
    cases h
    intro p hp q hq
    obtain ⟨i, hi, rfl⟩ := List.getElem_of_mem hp
    obtain ⟨j, hj, rfl⟩ := List.getElem_of_mem hq
    have := hb i j (by rw [inv.sums]; simpa using hi) (by rw [inv.sums]; simpa using hj)
    simpa [inv.sums] using this

/-- C72: the largest value itself bounds the difference as soon as there is a value. -/
theorem C72_largest (values : List Rat) (n : Nat) (hn : 0 < n) (shuffle sort : Bool)
    (order : List Nat) (ho : order.Perm (List.range values.length)) (hv : ∀ v ∈ values, 0 ≤ v) (M : Rat) (hM : M ∈ values) (hmax : ∀ v ∈ values, v ≤ M)
    (parts : List (List Rat)) (idxs : List (List Nat)) (h : partitionBySum values n shuffle sort order = .ok (parts, idxs)) :
    ∀ p ∈ parts, ∀ q ∈ parts, p.sum - q.sum ≤ M :=
  C72_balanced values n hn shuffle sort order ho M (hv M hM) (fun v h => ⟨hv v h, hmax v h⟩) parts idxs h

-- Non-trivial cases: five files, two workers, visited in ascending order.
example : [3, 1, 4, 0, 2].Perm (List.range ([3, 1, 4, 1, 5] : List Rat).length) := by decide
example : partitionBySum [3, 1, 4, 1, 5] 2 false true [1, 3, 0, 2, 4] = .ok ([[1, 3, 5], [1, 4]], [[1, 0, 4], [3, 2]]) := by
  decide +kernel
example : partitionBySum [3, 1] 2 true true [0, 1] = .error .valueError := by decide
example : (0 : Rat) ≤ 5 ∧ ∀ v ∈ ([3, 1, 4, 1, 5] : List Rat), 0 ≤ v ∧ v ≤ 5 := by decide +kernel

end DS.Data
