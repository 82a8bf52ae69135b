import Verif.Props.Repeat
import Mathlib.Data.List.Perm.Basic
/-! C207: files that are listed several times, wherever their copies come. -/

namespace DS.Data
section
variable {α : Type}

theorem maxLen_cons {β : Type} (s : List β) (ss : List (List β)) : maxLen (s :: ss) = max s.length (maxLen ss) := rfl

theorem layer_cons_toList {β : Type} (s : List β) (ss : List (List β)) (k : Nat) : layer (s :: ss) k = s[k]?.toList ++ layer ss k := by
  unfold layer
  rw [List.filterMap_cons]
  cases s[k]? <;> rfl

theorem range_get {β : Type} (s : List β) (n : Nat) (h : s.length ≤ n) : (List.range n).flatMap (fun k => s[k]?.toList) = s := by
  induction s generalizing n with
  | nil => simp
  | cons x s ih =>
    obtain ⟨m, rfl⟩ : ∃ m, n = m + 1 := ⟨n - 1, by simp at h; omega⟩
    rw [List.range_succ_eq_map, List.flatMap_cons, List.flatMap_map]
    simp only [List.getElem?_cons_zero, Option.toList_some, List.getElem?_cons_succ, List.singleton_append]
    rw [ih m (by simpa using h)]

theorem layers_perm {β : Type} (ss : List (List β)) : ∀ n, maxLen ss ≤ n → ((List.range n).flatMap (layer ss)).Perm ss.flatten := by
  induction ss with
  | nil => intro n _; simp [layer]
  | cons s ss ih =>
    intro n hn
    rw [maxLen_cons] at hn
    have h1 : layer (s :: ss) = fun k => s[k]?.toList ++ layer ss k := by funext k; exact layer_cons_toList s ss k
    rw [h1, List.flatten_cons]
    refine (List.flatMap_append_perm _ _ _).symm.trans ?_
    rw [range_get s n (by omega)]
    exact (ih n (by omega)).append_left s

theorem zipLongest_perm {β : Type} (ss : List (List β)) : (zipLongest ss).flatten.Perm ss.flatten := by
  unfold zipLongest
  rw [← List.flatMap_def]
  exact layers_perm ss _ (Nat.le_refl _)

/-- Taking a list apart by a number below `b` loses nothing. -/
theorem classes_perm {β : Type} (g : β → Nat) (b : Nat) (l : List β) (h : ∀ x ∈ l, g x < b) :
    ((List.range b).flatMap fun i => l.filter fun x => decide (g x = i)).Perm l := by
  induction l with
  | nil => simp
  | cons x l ih =>
    have h1 : (fun i => (x :: l).filter fun y => decide (g y = i)) = fun i => (if g x = i then [x] else []) ++ l.filter fun y => decide (g y = i) := by
      funext i
      rw [List.filter_cons]
      by_cases hx : g x = i <;> simp [hx]
    rw [h1]
    refine (List.flatMap_append_perm _ _ _).symm.trans ?_
    have h2 : (List.range b).flatMap (fun i => if g x = i then [x] else []) = [x] := by
      have hlt := h x (by simp)
      have : ∀ n, (List.range n).flatMap (fun i => if g x = i then [x] else []) = if g x < n then [x] else [] := by
        intro n
        induction n with
        | zero => simp
        | succ n ih =>
          rw [List.range_succ, List.flatMap_append, ih]
          simp only [List.flatMap_cons, List.flatMap_nil, List.append_nil]
          by_cases h3 : g x < n
          · rw [if_pos h3, if_neg (by omega), if_pos (by omega)]; rfl
          · by_cases h4 : g x = n
            · rw [if_neg h3, if_pos h4, if_pos (by omega)]; rfl
            · rw [if_neg h3, if_neg h4, if_neg (by omega)]; rfl
      rw [this b, if_pos hlt]
    rw [h2]
    exact (ih fun y hy => h y (by simp [hy])).append_left [x]

theorem lanes_perm {β : Type} (b : Nat) (hb : 0 < b) (order : List β) : ((List.range b).flatMap fun i => everyFrom i b order).Perm order := by
  have h1 : ∀ i ∈ List.range b, everyFrom i b order = (order.zipIdx.filter fun p => decide (p.2 % b = i)).map Prod.fst := by
    intro i hi
    have hi : i < b := by simpa using hi
    unfold everyFrom
    congr 1
    apply List.filter_congr
    rintro ⟨x, p⟩ -
    by_cases hp : i ≤ p
    · have : (p - i) % b = 0 ↔ p % b = i := by
        constructor
        · intro h
          have h2 := Nat.div_add_mod (p - i) b
          have : p = i + b * ((p - i) / b) := by omega
          rw [this, Nat.add_mul_mod_self_left, Nat.mod_eq_of_lt hi]
        · intro h
          have h2 := Nat.mod_add_div p b
          have h3 : p - i = b * (p / b) := by omega
          rw [h3, Nat.mul_mod_right]
      simp [hp, this]
    · have : ¬ p % b = i := by rw [Nat.mod_eq_of_lt (by omega)]; omega
      simp [hp, this]
  have h2 : (List.range b).flatMap (fun i => everyFrom i b order) = ((List.range b).flatMap fun i => order.zipIdx.filter fun p => decide (p.2 % b = i)).map Prod.fst := by
    rw [List.map_flatMap]
    exact List.flatMap_congr h1
  rw [h2]
  have h3 := (classes_perm (fun p : β × Nat => p.2 % b) b order.zipIdx (fun p _ => Nat.mod_lt _ hb)).map Prod.fst
  simpa using h3

/-- C207, the part that holds for any list of files, overlapping batches: wherever the copies come, the batches hold the samples of every file exactly as often as it is listed, and nothing else; no batch is empty or larger than the batch size.
Missing: batches of different files, and batches that do not overlap, which lose samples (`C207_repeated_false`). -/
theorem C207_all_partial (f : String → Py (List (Sample α))) (S : String → List (Sample α)) (b : Nat) (hb : 0 < b) (order : List String) (hf : ∀ x ∈ order, f x = .ok (S x)) :
    ∃ bs, getStreams f b false order = .ok bs ∧ bs.flatten.Perm (order.flatMap S) ∧ ∀ a ∈ bs, a ≠ [] ∧ a.length ≤ b := by
  refine ⟨zipLongest (streamsOf S b order), ?_, ?_, ?_⟩
  · rw [getStreams_ok f S b false order hf]; rfl
  · refine (zipLongest_perm _).trans ?_
    have h := (lanes_perm b hb order).flatMap_right S
    refine List.Perm.trans (List.Perm.of_eq ?_) h
    unfold streamsOf
    rw [List.flatMap_assoc, List.flatMap_def]
  · intro a ha
    obtain ⟨k, hk, rfl⟩ := mem_zipLongest ha
    refine ⟨layer_ne_nil _ _ hk, Nat.le_trans (layer_length_le _ _) ?_⟩
    simp [streamsOf]

/-- `a` listed twice next to each other, which the batches of `C207_repeated_false` hold side by side. -/
example : ∀ x ∈ ["a", "a", "b"], ∃ ss, exTwice x = .ok ss ∧ WholeFile x ss := by
  intro x hx
  simp only [List.mem_cons, List.not_mem_nil, or_false] at hx
  rcases hx with rfl | rfl | rfl
  all_goals
    refine ⟨_, rfl, by simp, ?_⟩
    intro k s hk
    rcases k with _ | _ | k <;> simp at hk <;> subst hk <;> simp

end
end DS.Data
