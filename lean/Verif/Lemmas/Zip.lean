import Verif.Model.Dataset
import Verif.Props.Closure
/-!
# Lemmas about zipping streams and about strided file lists
-/

namespace DS.Data

section
variable {β γ : Type}

theorem layer_append (a b : List (List β)) (k : Nat) : layer (a ++ b) k = layer a k ++ layer b k := List.filterMap_append

theorem layer_cons (s : List β) (ss : List (List β)) (k : Nat) : layer (s :: ss) k = s[k]?.toList ++ layer ss k := by
  unfold layer
  rw [List.filterMap_cons]
  cases s[k]? <;> simp

theorem mem_layer {ss : List (List β)} {k : Nat} {b : β} : b ∈ layer ss k ↔ ∃ s ∈ ss, s[k]? = some b := List.mem_filterMap

theorem le_maxLen {ss : List (List β)} {s : List β} (h : s ∈ ss) : s.length ≤ maxLen ss := by
  unfold maxLen
  induction ss with
  | nil => cases h
  | cons a as ih =>
    rw [List.map_cons, List.foldr_cons]
    rcases List.mem_cons.1 h with rfl | h
    · exact Nat.le_max_left _ _
    · exact Nat.le_trans (ih h) (Nat.le_max_right _ _)

theorem maxLen_mem {ss : List (List β)} {k : Nat} (h : k < maxLen ss) : ∃ s ∈ ss, k < s.length := by
  unfold maxLen at h
  induction ss with
  | nil => simp at h
  | cons a as ih =>
    rw [List.map_cons, List.foldr_cons] at h
    by_cases ha : k < a.length
    · exact ⟨a, by simp, ha⟩
    · have h' : k < (List.map List.length as).foldr max 0 := by omega
      obtain ⟨s, hs, hk⟩ := ih h'
      exact ⟨s, by simp [hs], hk⟩

theorem foldr_min_le (x : Nat) (xs : List Nat) : xs.foldr min x ≤ x ∧ ∀ y ∈ xs, xs.foldr min x ≤ y := by
  induction xs with
  | nil => simp
  | cons a as ih =>
    simp only [List.foldr_cons]
    refine ⟨Nat.le_trans (Nat.min_le_right _ _) ih.1, ?_⟩
    intro y hy
    rcases List.mem_cons.1 hy with rfl | hy
    · exact Nat.min_le_left _ _
    · exact Nat.le_trans (Nat.min_le_right _ _) (ih.2 y hy)

theorem minLen_le {ss : List (List β)} {s : List β} (h : s ∈ ss) : minLen ss ≤ s.length := by
  cases ss with
  | nil => cases h
  | cons a as =>
    have := foldr_min_le a.length (as.map List.length)
    rcases List.mem_cons.1 h with rfl | h
    · exact this.1
    · exact this.2 _ (List.mem_map_of_mem h)

theorem range_flatMap_getElem (l : List β) (n : Nat) (h : l.length ≤ n) : (List.range n).flatMap (fun k => (l[k]?).toList) = l := by
  induction n generalizing l with
  | zero => have : l = [] := List.length_eq_zero_iff.1 (by omega); subst this; rfl
  | succ n ih =>
    rw [List.range_succ_eq_map, List.flatMap_cons, List.flatMap_map]
    cases l with
    | nil => simp
    | cons a as =>
      simp only [List.getElem?_cons_zero, Option.toList_some, Nat.succ_eq_add_one, List.getElem?_cons_succ, List.singleton_append]
      rw [ih as (by simpa using h)]

theorem flatMap_nil_of {g : β → List γ} {l : List β} (h : ∀ b ∈ l, g b = []) : l.flatMap g = [] := by
  induction l with
  | nil => rfl
  | cons a as ih => rw [List.flatMap_cons, h a (by simp), ih (fun b hb => h b (by simp [hb]))]; rfl

theorem filter_eq_flatMap' (p : β → Bool) (l : List β) : l.filter p = l.flatMap fun b => if p b then [b] else [] := by
  induction l with
  | nil => rfl
  | cons a as ih =>
    rw [List.flatMap_cons, List.filter_cons, ih]
    split <;> rfl

/-- Looking only at what one stream contributes, a zip of streams is that stream. -/
theorem zipLongest_flatMap (g : β → List γ) (pre : List (List β)) (s : List β) (post : List (List β))
    (h1 : ∀ l ∈ pre, ∀ b ∈ l, g b = []) (h2 : ∀ l ∈ post, ∀ b ∈ l, g b = []) :
    (zipLongest (pre ++ s :: post)).flatten.flatMap g = s.flatMap g := by
  have hk : ∀ k, (layer (pre ++ s :: post) k).flatMap g = (s[k]?).toList.flatMap g := by
    intro k
    rw [layer_append, layer_cons, List.flatMap_append, List.flatMap_append]
    rw [flatMap_nil_of (l := layer pre k), flatMap_nil_of (l := layer post k)]
    · simp
    · intro b hb
      obtain ⟨l, hl, hb⟩ := mem_layer.1 hb
      exact h2 l hl b (List.mem_of_getElem? hb)
    · intro b hb
      obtain ⟨l, hl, hb⟩ := mem_layer.1 hb
      exact h1 l hl b (List.mem_of_getElem? hb)
  unfold zipLongest
  rw [← List.flatMap_def, List.flatMap_assoc]
  have : ((List.range (maxLen (pre ++ s :: post))).flatMap fun k => (layer (pre ++ s :: post) k).flatMap g) =
      (List.range (maxLen (pre ++ s :: post))).flatMap fun k => (s[k]?).toList.flatMap g := by
    congr 1; funext k; exact hk k
  rw [this, ← List.flatMap_assoc, range_flatMap_getElem]
  exact le_maxLen (by simp)

theorem layer_length_anti (ss : List (List β)) {k k' : Nat} (h : k ≤ k') : (layer ss k').length ≤ (layer ss k).length := by
  induction ss with
  | nil => simp [layer]
  | cons s ss ih =>
    rw [layer_cons, layer_cons, List.length_append, List.length_append]
    have : (s[k']?).toList.length ≤ (s[k]?).toList.length := by
      by_cases hk : k' < s.length
      · have hk2 : k < s.length := by omega
        simp [hk, hk2]
      · simp [hk]
    omega

theorem layer_length_le (ss : List (List β)) (k : Nat) : (layer ss k).length ≤ ss.length := List.length_filterMap_le _ _

theorem layer_length_full (ss : List (List β)) (k : Nat) (h : k < minLen ss) : (layer ss k).length = ss.length := by
  have hk : ∀ s ∈ ss, k < s.length := fun s hs => Nat.lt_of_lt_of_le h (minLen_le hs)
  clear h
  induction ss with
  | nil => rfl
  | cons s ss ih =>
    rw [layer_cons, List.length_append, ih (fun t ht => hk t (by simp [ht]))]
    have := hk s (by simp)
    simp [this]
    omega

theorem layer_ne_nil (ss : List (List β)) (k : Nat) (h : k < maxLen ss) : layer ss k ≠ [] := by
  obtain ⟨s, hs, hk⟩ := maxLen_mem h
  intro hn
  have : s[k] ∈ layer ss k := mem_layer.2 ⟨s, hs, by simp [hk]⟩
  rw [hn] at this
  cases this

theorem layer_nodup {δ : Type} (key : β → δ) (ss : List (List β)) (h : ss.Pairwise fun s t => ∀ a ∈ s, ∀ b ∈ t, key a ≠ key b) (k : Nat) :
    ((layer ss k).map key).Nodup := by
  induction ss with
  | nil => simp [layer]
  | cons s ss ih =>
    rw [List.pairwise_cons] at h
    rw [layer_cons, List.map_append, List.nodup_append]
    refine ⟨?_, ih h.2, ?_⟩
    · cases s[k]? <;> simp
    · intro a ha b hb
      obtain ⟨a', ha', rfl⟩ := List.mem_map.1 ha
      obtain ⟨b', hb', rfl⟩ := List.mem_map.1 hb
      obtain ⟨t, ht, hb'⟩ := mem_layer.1 hb'
      exact h.1 t ht a' (List.mem_of_getElem? (by simpa using ha')) b' (List.mem_of_getElem? hb')

end

/-! ## `file_list[i :: b]` -/

theorem mem_everyFrom {β : Type} {i b : Nat} {xs : List β} {y : β} :
    y ∈ everyFrom i b xs ↔ ∃ j, xs[j]? = some y ∧ i ≤ j ∧ (j - i) % b = 0 := by
  unfold everyFrom
  simp only [List.mem_map, List.mem_filter, Bool.and_eq_true, decide_eq_true_eq, Prod.exists]
  constructor
  · rintro ⟨a, j, ⟨hm, h1, h2⟩, rfl⟩
    exact ⟨j, List.mem_zipIdx_iff_getElem?.1 hm, h1, h2⟩
  · rintro ⟨j, hj, h1, h2⟩
    exact ⟨y, j, ⟨List.mem_zipIdx_iff_getElem?.2 hj, h1, h2⟩, rfl⟩

theorem everyFrom_sublist {β : Type} (i b : Nat) (xs : List β) : (everyFrom i b xs).Sublist xs := by
  unfold everyFrom
  have h : ((xs.zipIdx.filter fun p => decide (i ≤ p.2) && decide ((p.2 - i) % b = 0)).map Prod.fst).Sublist (xs.zipIdx.map Prod.fst) :=
    List.filter_sublist.map _
  rwa [List.zipIdx_map_fst] at h

theorem mod_of_class {i b j : Nat} (hi : i < b) (h1 : i ≤ j) (h2 : (j - i) % b = 0) : j % b = i := by
  obtain ⟨c, hc⟩ := Nat.dvd_of_mod_eq_zero h2
  have : j = i + b * c := by omega
  rw [this, Nat.add_mul_mod_self_left, Nat.mod_eq_of_lt hi]

/-- Every file is in the list of exactly one residue class. -/
theorem everyFrom_unique {β : Type} {b i i' : Nat} {xs : List β} (hn : xs.Nodup) (hi : i < b) (hi' : i' < b) {y : β}
    (h : y ∈ everyFrom i b xs) (h' : y ∈ everyFrom i' b xs) : i = i' := by
  obtain ⟨j, hj, h1, h2⟩ := mem_everyFrom.1 h
  obtain ⟨j', hj', h1', h2'⟩ := mem_everyFrom.1 h'
  obtain ⟨hl, hg⟩ := List.getElem?_eq_some_iff.1 hj
  obtain ⟨hl', hg'⟩ := List.getElem?_eq_some_iff.1 hj'
  have : j = j' := (List.Nodup.getElem_inj_iff hn).1 (hg.trans hg'.symm)
  subst this
  rw [← mod_of_class hi h1 h2, ← mod_of_class hi' h1' h2']

theorem everyFrom_exists {β : Type} {b : Nat} (hb : 0 < b) {xs : List β} {y : β} (h : y ∈ xs) : ∃ i, i < b ∧ y ∈ everyFrom i b xs := by
  obtain ⟨j, hj, rfl⟩ := List.getElem_of_mem h
  refine ⟨j % b, Nat.mod_lt _ hb, mem_everyFrom.2 ⟨j, by simp [hj], Nat.mod_le _ _, ?_⟩⟩
  have := Nat.div_add_mod j b
  rw [show j - j % b = b * (j / b) by omega]
  simp

end DS.Data
