import Verif.Model.Sync
import Verif.Props.Batches
/-!
# Lemmas about the buffers of `make_streams_synchronous`
-/

namespace DS.Data

section
variable {α : Type}

/-- The ids with an entry, in insertion order. -/
def Bufs.keys (d : Bufs α) : List String := d.map Prod.fst

theorem get_cons (e : String × List (Sample α)) (d : Bufs α) (j : String) : Bufs.get (e :: d) j = if j = e.1 then e.2 else Bufs.get d j := by
  obtain ⟨k, v⟩ := e
  unfold Bufs.get
  rw [List.lookup_cons]
  by_cases h : j = k
  · subst h; simp
  · have : (j == k) = false := by simpa using h
    simp [this, h]

theorem get_set (d : Bufs α) (k : String) (v : List (Sample α)) (j : String) : (d.set k v).get j = if j = k then v else d.get j := by
  induction d with
  | nil =>
    unfold Bufs.set
    rw [get_cons]
  | cons e es ih =>
    unfold Bufs.set
    by_cases he : e.1 = k
    · rw [if_pos he, get_cons, get_cons]
      subst he
      by_cases hj : j = e.1 <;> simp [hj]
    · rw [if_neg he, get_cons, get_cons, ih]
      by_cases hj : j = e.1
      · subst hj; simp [he]
      · simp [hj]

theorem keys_set (d : Bufs α) (k : String) (v : List (Sample α)) : (d.set k v).keys = if k ∈ d.keys then d.keys else d.keys ++ [k] := by
  induction d with
  | nil => rfl
  | cons e es ih =>
    unfold Bufs.set
    by_cases he : e.1 = k
    · rw [if_pos he]
      simp [Bufs.keys, he]
    · rw [if_neg he]
      have hk : ¬ k = e.1 := fun h => he h.symm
      show e.1 :: (Bufs.set es k v).keys = _
      rw [ih]
      simp only [Bufs.keys, List.map_cons, List.mem_cons, hk, false_or]
      by_cases hm : k ∈ List.map Prod.fst es <;> simp [hm]

theorem keys_set_nodup (d : Bufs α) (k : String) (v : List (Sample α)) (h : d.keys.Nodup) : (d.set k v).keys.Nodup := by
  rw [keys_set]
  split
  · exact h
  · rename_i hk
    rw [List.nodup_append]
    refine ⟨h, by simp, ?_⟩
    intro a ha b hb
    rw [List.mem_singleton.1 hb]
    rintro rfl
    exact hk ha

theorem mem_keys_set (d : Bufs α) (k : String) (v : List (Sample α)) (j : String) : j ∈ (d.set k v).keys ↔ j = k ∨ j ∈ d.keys := by
  rw [keys_set]
  split
  · rename_i h
    constructor
    · exact Or.inr
    · rintro (rfl | h') <;> assumption
  · simp [or_comm]

theorem get_of_mem (d : Bufs α) (h : d.keys.Nodup) (e : String × List (Sample α)) (he : e ∈ d) : d.get e.1 = e.2 := by
  induction d with
  | nil => cases he
  | cons x xs ih =>
    rw [get_cons]
    have hn := List.nodup_cons.1 (show (x.1 :: Bufs.keys xs).Nodup from h)
    rcases List.mem_cons.1 he with rfl | he'
    · simp
    · have : e.1 ≠ x.1 := by
        intro heq
        exact hn.1 (heq ▸ List.mem_map_of_mem he')
      rw [if_neg this]
      exact ih hn.2 he'

theorem mem_keys_of_get (d : Bufs α) (j : String) (h : d.get j ≠ []) : j ∈ d.keys := by
  induction d with
  | nil => exact absurd rfl h
  | cons x xs ih =>
    rw [get_cons] at h
    by_cases hj : j = x.1
    · simp [Bufs.keys, hj]
    · rw [if_neg hj] at h
      have := ih h
      simp only [Bufs.keys, List.map_cons, List.mem_cons] at this ⊢
      exact Or.inr this

theorem lookup_of_mem_keys (d : Bufs α) (j : String) (h : j ∈ d.keys) : d.lookup j ≠ none := by
  induction d with
  | nil => cases h
  | cons x xs ih =>
    obtain ⟨k, v⟩ := x
    rw [List.lookup_cons]
    by_cases hj : j = k
    · simp [hj]
    · have hb : (j == k) = false := by simpa using hj
      rw [hb]
      apply ih
      simpa [Bufs.keys, hj] using h

theorem addAll_cons (d : Bufs α) (s : Sample α) (b : List (Sample α)) : d.addAll (s :: b) = (d.set s.id (d.get s.id ++ [s])).addAll b := rfl

theorem get_addAll (d : Bufs α) (b : List (Sample α)) (j : String) : (d.addAll b).get j = d.get j ++ ofFile j b := by
  induction b generalizing d with
  | nil => simp [Bufs.addAll, ofFile]
  | cons s b ih =>
    rw [addAll_cons, ih, get_set]
    by_cases h : j = s.id
    · subst h; simp [ofFile]
    · have h' : ¬ s.id = j := fun e => h e.symm
      simp [ofFile, h, h']

theorem keys_addAll (d : Bufs α) (b : List (Sample α)) (h : d.keys.Nodup) :
    (d.addAll b).keys.Nodup ∧ ∀ j ∈ d.keys, j ∈ (d.addAll b).keys := by
  induction b generalizing d with
  | nil => exact ⟨h, fun j hj => hj⟩
  | cons s b ih =>
    rw [addAll_cons]
    obtain ⟨h1, h2⟩ := ih _ (keys_set_nodup d s.id (d.get s.id ++ [s]) h)
    exact ⟨h1, fun j hj => h2 j ((mem_keys_set _ _ _ _).2 (Or.inr hj))⟩

theorem first_foldl (b : List (Sample α)) (d : Bufs α) (hk : d.keys.Nodup) (hn : (b.map Sample.id).Nodup) (hd : ∀ s ∈ b, d.get s.id = []) :
    let d' := b.foldl (fun d s => d.set s.id [s]) d
    d'.keys.Nodup ∧ (∀ j, d'.get j = d.get j ++ ofFile j b) ∧ ∀ s ∈ b, s.id ∈ d'.keys := by
  induction b generalizing d with
  | nil => exact ⟨hk, fun j => by simp [ofFile], fun s hs => absurd hs (List.not_mem_nil)⟩
  | cons s b ih =>
    rw [List.map_cons, List.nodup_cons] at hn
    have hne : ∀ t ∈ b, t.id ≠ s.id := fun t ht heq => hn.1 (heq ▸ List.mem_map_of_mem ht)
    obtain ⟨h1, h2, h3⟩ := ih (d.set s.id [s]) (keys_set_nodup _ _ _ hk) hn.2 (by
      intro t ht
      rw [get_set, if_neg (hne t ht)]
      exact hd t (by simp [ht]))
    have hget : ∀ j, (List.foldl (fun d s => Bufs.set d s.id [s]) (d.set s.id [s]) b).get j = d.get j ++ ofFile j (s :: b) := by
      intro j
      rw [h2 j, get_set]
      by_cases h : j = s.id
      · subst h; simp [ofFile, hd s (by simp)]
      · have h' : ¬ s.id = j := fun e => h e.symm
        simp [ofFile, h, h']
    refine ⟨h1, hget, ?_⟩
    intro t ht
    apply mem_keys_of_get
    rw [show List.foldl (fun d s => Bufs.set d s.id [s]) d (s :: b) = List.foldl (fun d s => Bufs.set d s.id [s]) (d.set s.id [s]) b from rfl, hget]
    intro hnil
    have hm : t ∈ ofFile t.id (s :: b) := List.mem_filter.2 ⟨ht, by simp⟩
    rw [(List.append_eq_nil_iff.1 hnil).2] at hm
    cases hm

theorem first_spec (b : List (Sample α)) (hn : (b.map Sample.id).Nodup) :
    (Bufs.first b).keys.Nodup ∧ (∀ j, (Bufs.first b).get j = ofFile j b) ∧ ∀ s ∈ b, s.id ∈ (Bufs.first b).keys := by
  have := first_foldl b [] List.nodup_nil hn (fun _ _ => rfl)
  exact ⟨this.1, fun j => this.2.1 j, this.2.2⟩

/-- What the inner loop leaves: nothing is lost, and it stops only when the stream is exhausted or all active files are buffered to their ends and
enough others are. -/
theorem fill_spec (active : List String) (n : Nat) (empty : Bool) (d : Bufs α) (stream : List (List (Sample α))) (hk : d.keys.Nodup)
    (he : empty = true → stream = []) :
    let r := fill active n empty d stream
    r.2.2.keys.Nodup ∧ (∀ j ∈ d.keys, j ∈ r.2.2.keys) ∧ (∀ j, ∃ more, r.2.2.get j = d.get j ++ more ∧ more ++ ofFile j r.1.flatten = ofFile j stream.flatten) ∧
      (r.2.1 = true → r.1 = []) ∧ continueBuffering r.2.1 active r.2.2 n = false := by
  induction stream generalizing d with
  | nil =>
    unfold fill
    cases hc : continueBuffering empty active d n
    · simp only [Bool.false_eq_true, if_false]
      exact ⟨hk, fun j hj => hj, fun j => ⟨[], by simp, by simp⟩, fun _ => trivial, hc⟩
    · simp only [if_true]
      exact ⟨hk, fun j hj => hj, fun j => ⟨[], by simp, by simp⟩, fun _ => trivial, rfl⟩
  | cons b bs ih =>
    have hemp : empty = false := by
      cases empty
      · rfl
      · exact absurd (he rfl) (by simp)
    unfold fill
    cases hc : continueBuffering empty active d n
    · simp only [Bool.false_eq_true, if_false]
      refine ⟨hk, fun j hj => hj, fun j => ⟨[], by simp, by simp⟩, ?_, hc⟩
      intro h
      rw [hemp] at h
      cases h
    · simp only [if_true]
      obtain ⟨hk1, hk2⟩ := keys_addAll d b hk
      obtain ⟨h1, h2, h3, h4, h5⟩ := ih (d.addAll b) hk1 (by intro h; rw [hemp] at h; cases h)
      refine ⟨h1, fun j hj => h2 j (hk2 j hj), ?_, h4, h5⟩
      intro j
      obtain ⟨more, hm1, hm2⟩ := h3 j
      refine ⟨ofFile j b ++ more, ?_, ?_⟩
      · rw [hm1, get_addAll, List.append_assoc]
      · rw [List.append_assoc, hm2, List.flatten_cons, ofFile_append]

/-- Popping from non-empty buffers. -/
theorem popAll_spec (d : Bufs α) (active : List String) (hn : active.Nodup) (hk : d.keys.Nodup) (hne : ∀ i ∈ active, d.get i ≠ []) :
    let r := popAll d active
    r.1.map some = active.map (fun i => (d.get i).head?) ∧ r.2.keys.Nodup ∧ (∀ j, j ∈ r.2.keys ↔ j ∈ d.keys) ∧
      ∀ j, r.2.get j = if j ∈ active then (d.get j).tail else d.get j := by
  induction active generalizing d with
  | nil => exact ⟨rfl, hk, fun j => Iff.rfl, fun j => by simp [popAll]⟩
  | cons i is ih =>
    rw [List.nodup_cons] at hn
    have hi := hne i (by simp)
    cases hq : d.get i with
    | nil => exact absurd hq hi
    | cons s q =>
      have hother : ∀ j ∈ is, (d.set i q).get j = d.get j := by
        intro j hj
        rw [get_set, if_neg]
        rintro rfl
        exact hn.1 hj
      obtain ⟨h1, h2, h3, h4⟩ := ih (d.set i q) hn.2 (keys_set_nodup _ _ _ hk) (fun j hj => by rw [hother j hj]; exact hne j (by simp [hj]))
      have hik : i ∈ d.keys := mem_keys_of_get d i hi
      unfold popAll
      rw [hq]
      simp only
      refine ⟨?_, h2, ?_, ?_⟩
      · simp only [List.map_cons, h1, hq, List.head?_cons]
        congr 1
        apply List.map_congr_left
        intro j hj
        rw [hother j hj]
      · intro j
        rw [h3, mem_keys_set]
        constructor
        · rintro (rfl | h) <;> assumption
        · exact Or.inr
      · intro j
        rw [h4, get_set]
        by_cases hji : j = i
        · subst hji
          simp [hn.1, hq]
        · simp [hji]

end
end DS.Data
