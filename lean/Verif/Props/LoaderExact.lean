import Verif.Props.Loader
/-! C77: exactly when drop_last ends every started file with several workers. -/

namespace DS.Data
variable {α : Type}

theorem minLen_eq {β : Type} (ss : List (List β)) (n : Nat) (h1 : ∃ s ∈ ss, s.length = n) (h2 : ∀ s ∈ ss, n ≤ s.length) : minLen ss = n := by
  cases ss with
  | nil => simp at h1
  | cons a as =>
    show (as.map List.length).foldr min a.length = n
    have key : ∀ (l : List (List β)) (m : Nat), n ≤ m → (∀ s ∈ l, n ≤ s.length) → (m = n ∨ ∃ s ∈ l, s.length = n) → (l.map List.length).foldr min m = n := by
      intro l
      induction l with
      | nil => intro m _ _ h; simpa using h
      | cons c cs ih =>
        intro m hm hl h
        rw [List.map_cons, List.foldr_cons]
        have hc := hl c (by simp)
        by_cases hcn : c.length = n
        · have hge : n ≤ (cs.map List.length).foldr min m := by
            have : ∀ (l : List (List β)), (∀ s ∈ l, n ≤ s.length) → n ≤ (l.map List.length).foldr min m := by
              intro l
              induction l with
              | nil => intro _; exact hm
              | cons d ds ih => intro hd; rw [List.map_cons, List.foldr_cons]; exact Nat.le_min.2 ⟨hd d (by simp), ih fun s hs => hd s (by simp [hs])⟩
            exact this cs fun s hs => hl s (by simp [hs])
          rw [hcn]
          exact Nat.min_eq_left hge
        · rw [ih m hm (fun s hs => hl s (by simp [hs])) ?_]
          · exact Nat.min_eq_right hc
          · rcases h with h | ⟨s, hs, e⟩
            · exact .inl h
            · rcases List.mem_cons.1 hs with rfl | hs
              · exact absurd e hcn
              · exact .inr ⟨s, hs, e⟩
    refine key as a.length (h2 a (by simp)) (fun s hs => h2 s (by simp [hs])) ?_
    obtain ⟨s, hs, e⟩ := h1
    rcases List.mem_cons.1 hs with rfl | hs
    · exact .inl e
    · exact .inr ⟨s, hs, e⟩

theorem zipShort_mem_iff {β : Type} (ss : List (List β)) (n : Nat) (h1 : ∃ s ∈ ss, s.length = n) (h2 : ∀ s ∈ ss, n ≤ s.length) (b : β) :
    b ∈ (zipShort ss).flatten ↔ ∃ s ∈ ss, b ∈ s.take n := by
  unfold zipShort
  rw [minLen_eq ss n h1 h2]
  constructor
  · intro h
    obtain ⟨l, hl, hb⟩ := List.mem_flatten.1 h
    obtain ⟨k, hk, rfl⟩ := List.mem_map.1 hl
    obtain ⟨s, hs, hb⟩ := mem_layer.1 hb
    refine ⟨s, hs, List.mem_of_getElem? (i := k) ?_⟩
    rw [List.getElem?_take, if_pos (List.mem_range.1 hk)]
    exact hb
  · rintro ⟨s, hs, hb⟩
    obtain ⟨k, hk, he⟩ := List.getElem_of_mem hb
    rw [List.length_take] at hk
    refine List.mem_flatten.2 ⟨layer ss k, List.mem_map.2 ⟨k, List.mem_range.2 (by omega), rfl⟩, mem_layer.2 ⟨s, hs, ?_⟩⟩
    rw [List.getElem_take] at he
    rw [← he]
    exact List.getElem?_eq_getElem _

/-- **C77, exactly when it holds.** For workers with different files: every file in the output of the loader is ended iff the first batches of every worker, as many as the worker with the fewest has,
end the files they start. Missing: an end for the files that a worker with more batches has not ended by then. -/
theorem C77_exact_partial (streams : List (List (List (Sample α)))) (n : Nat) (h1 : ∃ st ∈ streams, st.length = n) (h2 : ∀ st ∈ streams, n ≤ st.length)
    (hd : ∀ st ∈ streams, ∀ st' ∈ streams, ∀ s ∈ st.flatten, ∀ s' ∈ st'.flatten, s.id = s'.id → st = st') :
    AllEnded (mergeWorkers true streams).flatten ↔ ∀ st ∈ streams, AllEnded (st.take n).flatten := by
  have hmem : ∀ s : Sample α, s ∈ (mergeWorkers true streams).flatten ↔ ∃ st ∈ streams, s ∈ (st.take n).flatten := by
    intro s
    have hfl : (mergeWorkers true streams).flatten = (zipShort streams).flatten.flatten := List.flatten_flatten.symm
    rw [hfl]
    constructor
    · intro h
      obtain ⟨b, hb, hs⟩ := List.mem_flatten.1 h
      obtain ⟨st, hst, hb⟩ := (zipShort_mem_iff streams n h1 h2 b).1 hb
      exact ⟨st, hst, List.mem_flatten.2 ⟨b, hb, hs⟩⟩
    · rintro ⟨st, hst, h⟩
      obtain ⟨b, hb, hs⟩ := List.mem_flatten.1 h
      exact List.mem_flatten.2 ⟨b, (zipShort_mem_iff streams n h1 h2 b).2 ⟨st, hst, hb⟩, hs⟩
  have hsub : ∀ (st : List (List (Sample α))) (s : Sample α), s ∈ (st.take n).flatten → s ∈ st.flatten := by
    intro st s h
    obtain ⟨b, hb, hs⟩ := List.mem_flatten.1 h
    exact List.mem_flatten.2 ⟨b, List.mem_of_mem_take hb, hs⟩
  constructor
  · intro h st hst s hs
    obtain ⟨t, ht, hid, he⟩ := h s ((hmem s).2 ⟨st, hst, hs⟩)
    obtain ⟨st', hst', ht⟩ := (hmem t).1 ht
    have := hd st' hst' st hst t (hsub _ _ ht) s (hsub _ _ hs) hid
    exact ⟨t, this ▸ ht, hid, he⟩
  · intro h s hs
    obtain ⟨st, hst, hs⟩ := (hmem s).1 hs
    obtain ⟨t, ht, hid, he⟩ := h st hst s hs
    exact ⟨t, (hmem t).2 ⟨st, hst, ht⟩, hid, he⟩

/-- Two workers with three batches and one batch; the first has ended its file "a" with the first batch. -/
def exWorkers : List (List (List (Sample Int))) :=
  [[[⟨[1], true, true, 1, 0, 1, "a"⟩], [⟨[2], true, false, 1, 0, 2, "c"⟩], [⟨[3], false, true, 1, 1, 2, "c"⟩]], [[⟨[4], true, true, 1, 0, 1, "b"⟩]]]

instance (l : List (Sample Int)) : Decidable (AllEnded l) := by unfold AllEnded; infer_instance

example : (∃ st ∈ exWorkers, st.length = 1) ∧ (∀ st ∈ exWorkers, 1 ≤ st.length) ∧
    (∀ st ∈ exWorkers, ∀ st' ∈ exWorkers, ∀ s ∈ st.flatten, ∀ s' ∈ st'.flatten, s.id = s'.id → st = st') ∧ ∀ st ∈ exWorkers, AllEnded (st.take 1).flatten := by decide

end DS.Data
