import Verif.Lemmas.SyncRepeat
import Verif.Props.Batches
import Mathlib.Tactic.IntervalCases
/-! C207: files that are listed several times. -/

namespace DS.Data
section
variable {α : Type}

theorem everyFrom_at {i b : Nat} {order : List String} {x : String} (hi : i < b) (h : x ∈ everyFrom i b order) : ∃ p : Nat, order[p]? = some x ∧ p % b = i := by
  obtain ⟨⟨y, p⟩, hp, rfl⟩ := List.mem_map.1 h
  obtain ⟨hp, hc⟩ := List.mem_filter.1 hp
  simp only [Bool.and_eq_true, decide_eq_true_eq] at hc
  refine ⟨p, by simpa using List.mem_zipIdx_iff_getElem?.1 hp, ?_⟩
  have : p = i + b * ((p - i) / b) := by
    have := Nat.div_add_mod (p - i) b
    omega
  rw [this, Nat.add_mul_mod_self_left, Nat.mod_eq_of_lt hi]

/-- All copies of a file come in the same stream: their positions in the list are equal modulo the batch size. -/
def SameLane (b : Nat) (order : List String) : Prop := ∀ (i j : Nat) (x : String), order[i]? = some x → order[j]? = some x → i % b = j % b

theorem lane_unique {b : Nat} {order : List String} (h : SameLane b order) {i j : Nat} (hi : i < b) (hj : j < b) {x : String} (hx : x ∈ everyFrom i b order) (hx' : x ∈ everyFrom j b order) : i = j := by
  obtain ⟨p, hp, rfl⟩ := everyFrom_at hi hx
  obtain ⟨q, hq, rfl⟩ := everyFrom_at hj hx'
  exact h p q x hp hq

theorem lane_filter {b : Nat} (hb : 0 < b) {order : List String} (h : SameLane b order) {i : Nat} (hi : i < b) {x : String} (hx : x ∈ everyFrom i b order) :
    (everyFrom i b order).filter (· == x) = order.filter (· == x) := by
  obtain ⟨p, hp, hpi⟩ := everyFrom_at hi hx
  have h1 : order = order.zipIdx.map Prod.fst := by simp
  conv_rhs => rw [h1, List.filter_map]
  unfold everyFrom
  rw [List.filter_map, List.filter_filter]
  congr 1
  apply List.filter_congr
  rintro ⟨y, q⟩ hq
  have hq' : order[q]? = some y := by simpa using List.mem_zipIdx_iff_getElem?.1 hq
  simp only [Function.comp_apply]
  by_cases hyx : y = x
  · subst hyx
    have hqi := h q p y hq' hp
    rw [hpi] at hqi
    have h2 := Nat.mod_add_div q b
    have h3 : q - i = b * (q / b) := by omega
    have h4 : i ≤ q := by rw [← hqi]; exact Nat.mod_le q b
    simp [h3, h4]
  · simp [hyx]

theorem ofFile_copies (S : String → List (Sample α)) (l : List String) (hS : ∀ y ∈ l, ∀ s ∈ S y, s.id = y) (x : String) :
    ofFile x (l.flatMap S) = (List.replicate (l.count x) (S x)).flatten := by
  induction l with
  | nil => rfl
  | cons y ys ih =>
    rw [List.flatMap_cons, ofFile_append, ih (fun z hz => hS z (by simp [hz])), List.count_cons]
    by_cases hxy : y = x
    · subst hxy
      rw [ofFile_self (hS y (by simp))]
      simp [List.replicate_succ]
    · rw [ofFile_none (fun s hs => by rw [hS y (by simp) s hs]; exact hxy)]
      simp [hxy]

theorem streams_copies (S : String → List (Sample α)) (b : Nat) (hb : 0 < b) (order : List String) (h : SameLane b order)
    (hS : ∀ x ∈ order, ∀ s ∈ S x, s.id = x) (x : String) :
    ofFile x (zipLongest (streamsOf S b order)).flatten = (List.replicate (order.count x) (S x)).flatten := by
  by_cases hx : x ∈ order
  · obtain ⟨i, hi, hxi⟩ := everyFrom_exists hb hx
    obtain ⟨pre, post, hr, hne⟩ := range_split hi
    have hother : ∀ j, (j ∈ pre ∨ j ∈ post) → ∀ s ∈ (everyFrom j b order).flatMap S, s.id ≠ x := by
      rintro j hj s hs rfl
      obtain ⟨h1, h2⟩ := hne j hj
      exact h1 (lane_unique h h2 hi (streamsOf_ids S b order hS j s hs) hxi)
    unfold ofFile streamsOf
    rw [hr, List.map_append, List.map_cons, filter_eq_flatMap', zipLongest_flatMap, ← filter_eq_flatMap']
    · show ofFile x _ = _
      rw [ofFile_copies S _ (fun y hy => hS y ((everyFrom_sublist i b order).subset hy))]
      have := congrArg List.length (lane_filter hb h hi hxi)
      rw [← List.countP_eq_length_filter, ← List.countP_eq_length_filter] at this
      rw [show (everyFrom i b order).count x = order.count x from this]
    · intro l hl s hs
      obtain ⟨j, hj, rfl⟩ := List.mem_map.1 hl
      simp [hother j (Or.inl hj) s hs]
    · intro l hl s hs
      obtain ⟨j, hj, rfl⟩ := List.mem_map.1 hl
      simp [hother j (Or.inr hj) s hs]
  · rw [List.count_eq_zero.2 hx, ofFile_none]
    · rfl
    · rintro s hs rfl
      exact hx (mem_streams_flatten S b order hS s hs)

theorem lanes_pairwise (S : String → List (Sample α)) (b : Nat) (order : List String) (h : SameLane b order) (hS : ∀ x ∈ order, ∀ s ∈ S x, s.id = x) :
    (streamsOf S b order).Pairwise fun s t => ∀ a ∈ s, ∀ c ∈ t, a.id ≠ c.id := by
  unfold streamsOf
  rw [List.pairwise_map]
  have : (List.range b).Pairwise fun i j => i ≠ j ∧ i < b ∧ j < b := by
    rw [List.pairwise_iff_getElem]
    intro i j hi hj hij
    simp at hi hj ⊢
    omega
  refine this.imp ?_
  rintro i j ⟨hij, hi, hj⟩ a ha c hc heq
  have h1 := streamsOf_ids S b order hS i a ha
  have h2 := streamsOf_ids S b order hS j c hc
  rw [← heq] at h2
  exact hij (lane_unique h hi hj h1 h2)

/-- C207, the part that holds, overlapping batches: if all copies of a file come in the same stream, the batches hold every file as often as it is listed, one copy after the other, and no batch holds a file twice. Missing: copies in different streams
(`C207_repeated_false`). -/
theorem C207_copies_partial (f : String → Py (List (Sample α))) (S : String → List (Sample α)) (b : Nat) (hb : 0 < b) (order : List String) (hl : SameLane b order)
    (hf : ∀ x ∈ order, f x = .ok (S x)) (hS : ∀ x ∈ order, WholeFile x (S x)) :
    ∃ bs, getStreams f b false order = .ok bs ∧ (∀ x, ofFile x bs.flatten = (List.replicate (order.count x) (S x)).flatten) ∧
      ∀ a ∈ bs, a ≠ [] ∧ a.length ≤ b ∧ (a.map Sample.id).Nodup := by
  have hS' : ∀ x ∈ order, ∀ s ∈ S x, s.id = x := fun x hx => whole_id (hS x hx)
  refine ⟨zipLongest (streamsOf S b order), ?_, streams_copies S b hb order hl hS', ?_⟩
  · rw [getStreams_ok f S b false order hf]; rfl
  · intro a ha
    obtain ⟨k, hk, rfl⟩ := mem_zipLongest ha
    refine ⟨layer_ne_nil _ _ hk, ?_, layer_nodup _ _ (lanes_pairwise S b order hl hS') k⟩
    refine Nat.le_trans (layer_length_le _ _) ?_
    simp [streamsOf]

/-- C207, the part that holds, without overlapping batches: under the same condition the loader returns, delivers every file as often as it is listed, one copy after the other, in groups of different files that start together, and a group is smaller than the first
only if nothing but further copies of its files is left. Missing: copies in different streams (`C207_repeated_false`). -/
theorem C207_synchronous_partial (f : String → Py (List (Sample α))) (S : String → List (Sample α)) (b : Nat) (hb : 0 < b) (order : List String) (hne : order ≠ []) (hl : SameLane b order)
    (hf : ∀ x ∈ order, f x = .ok (S x)) (hS : ∀ x ∈ order, WholeFile x (S x)) :
    ∃ b0 rest fuel out, getStreams f b false order = .ok (b0 :: rest) ∧ sync fuel (b0 :: rest) = (out, .returned) ∧
      (∀ x, ofFile x out.flatten = (List.replicate (order.count x) (S x)).flatten) ∧ SynchronousR b0.length out ∧ FullUnlessAlone b0.length out := by
  obtain ⟨bs, h1, h2, h3⟩ := C207_copies_partial f S b hb order hl hf hS
  cases bs with
  | nil =>
    exfalso
    obtain ⟨x, hx⟩ := List.exists_mem_of_ne_nil _ hne
    have := h2 x
    have hc := List.count_pos_iff.2 hx
    obtain ⟨k, hk⟩ : ∃ k, order.count x = k + 1 := ⟨order.count x - 1, by omega⟩
    rw [hk, List.replicate_succ, List.flatten_cons] at this
    exact (hS x hx).1 (List.append_eq_nil_iff.1 this.symm).1
  | cons b0 rest =>
    have hc : ∀ x, Copies x (ofFile x (b0 :: rest).flatten) := by
      intro x
      refine ⟨List.replicate (order.count x) (S x), h2 x, ?_⟩
      intro p hp
      obtain ⟨hc, rfl⟩ := List.mem_replicate.1 hp
      exact hS x (List.count_pos_iff.1 (by omega))
    obtain ⟨fuel, out, g1, g2, g3, g4⟩ := syncR_spec b0 rest ⟨⟨b0, rest, rfl, (h3 b0 (by simp)).1, (h3 b0 (by simp)).2.2⟩, hc⟩
    exact ⟨b0, rest, fuel, out, h1, g1, fun x => by rw [g2, h2], g3, g4⟩

/-- Two files, `a` of two samples and `b` of one. -/
def exTwice : String → Py (List (Sample Nat))
  | "a" => .ok [⟨[1], true, false, 1, 0, 2, "a"⟩, ⟨[2], false, true, 1, 1, 2, "a"⟩]
  | _ => .ok [⟨[3], true, true, 1, 0, 1, "b"⟩]

/-- C207 is false of the code: `a` is listed twice and the two copies come in different streams. With overlapping batches both are in one batch (the docstring says "Each batch is sampled to consist only of unique files"); without, the first sample of one of
them is lost, and the first batch holds the first and the second sample of the other. -/
theorem C207_repeated_false :
    getStreams exTwice 2 false ["a", "a"] = .ok [[⟨[1], true, false, 1, 0, 2, "a"⟩, ⟨[1], true, false, 1, 0, 2, "a"⟩], [⟨[2], false, true, 1, 1, 2, "a"⟩, ⟨[2], false, true, 1, 1, 2, "a"⟩]] ∧
    sync 20 ([[⟨[1], true, false, 1, 0, 2, "a"⟩, ⟨[1], true, false, 1, 0, 2, "a"⟩], [⟨[2], false, true, 1, 1, 2, "a"⟩, ⟨[2], false, true, 1, 1, 2, "a"⟩]] : List (List (Sample Nat))) =
      ([[⟨[1], true, false, 1, 0, 2, "a"⟩, ⟨[2], false, true, 1, 1, 2, "a"⟩], [⟨[2], false, true, 1, 1, 2, "a"⟩]], .returned) := by
  decide +kernel

-- `a` is listed twice, at positions 0 and 2; the batch size is 2
example : SameLane 2 ["a", "b", "a"] ∧ ["a", "b", "a"].count "a" = 2 ∧ ∀ x ∈ ["a", "b", "a"], ∃ ss, exTwice x = .ok ss ∧ WholeFile x ss := by
  refine ⟨?_, by decide, ?_⟩
  · intro i j x hi hj
    have h1 := (List.getElem?_eq_some_iff.1 hi).1
    have h2 := (List.getElem?_eq_some_iff.1 hj).1
    simp at h1 h2
    rw [← hj] at hi
    interval_cases i <;> interval_cases j <;> simp at hi ⊢
  · intro x hx
    simp at hx
    rw [or_left_comm, or_self, or_comm] at hx
    rcases hx with rfl | rfl
    · refine ⟨_, rfl, by simp, ?_⟩
      intro k s hk
      have h1 := (List.getElem?_eq_some_iff.1 hk).1
      simp at h1
      interval_cases k <;> simp at hk <;> subst hk <;> simp
    · refine ⟨_, rfl, by simp, ?_⟩
      intro k s hk
      have h1 := (List.getElem?_eq_some_iff.1 hk).1
      simp at h1
      subst h1
      simp at hk
      subst hk
      simp

-- the result for that list, and for one in which only copies of `a` are left at the end
example : (getStreams exTwice 2 false ["a", "b", "a"]).map (fun bs => ((sync 20 bs).1.map fun b => b.map fun s => (s.id, s.chunkIndex), (sync 20 bs).2)) =
    .ok ([[("a", 0), ("b", 0)], [("a", 1)], [("a", 0)], [("a", 1)]], .returned) := by decide +kernel

end
end DS.Data
