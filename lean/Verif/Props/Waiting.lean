import Verif.Spec.Waiting
import Verif.Props.Faults
import Verif.Props.Sync
import Verif.Lemmas.SyncInv
/-!
# C216: A batch is delivered as soon as it has been read

A source that cannot be read further is a stream that raises (`Gen.fail`): what was given out by then is what the loader gave out from the batches read so far.
-/

namespace DS.Data

section
variable {α : Type}

/-- The buffers hold samples that were read, each under its own id. -/
def HoldsRead (read : List (List (Sample α))) (d : Bufs α) : Prop := ∀ e ∈ d, ∀ s ∈ e.2, s.id = e.1 ∧ s ∈ read.flatten

theorem entry_of_lookup (d : Bufs α) (k : String) (q : List (Sample α)) (h : d.lookup k = some q) : (k, q) ∈ d := by
  induction d with
  | nil => cases h
  | cons e es ih =>
    rw [List.lookup_cons] at h
    by_cases hk : k = e.1
    · rw [hk] at h ⊢
      simp only [beq_self_eq_true] at h
      rw [← Option.some.inj h]
      simp
    · rw [show (k == e.1) = false from by simpa using hk] at h
      exact List.mem_cons_of_mem _ (ih h)

theorem holds_get {read : List (List (Sample α))} {d : Bufs α} (h : HoldsRead read d) (k : String) : ∀ s ∈ d.get k, s.id = k ∧ s ∈ read.flatten := by
  intro s hs
  unfold Bufs.get at hs
  cases hl : d.lookup k with
  | none => rw [hl] at hs; cases hs
  | some q =>
    rw [hl] at hs
    exact h _ (entry_of_lookup d k q hl) s hs

theorem entry_of_set (d : Bufs α) (k : String) (v : List (Sample α)) (e : String × List (Sample α)) (h : e ∈ d.set k v) : e = (k, v) ∨ e ∈ d := by
  induction d with
  | nil => exact .inl (List.mem_singleton.1 h)
  | cons f fs ih =>
    unfold Bufs.set at h
    split at h
    · rcases List.mem_cons.1 h with h | h
      · exact .inl h
      · exact .inr (List.mem_cons_of_mem _ h)
    · rcases List.mem_cons.1 h with h | h
      · exact .inr (by rw [h]; simp)
      · exact (ih h).imp id (List.mem_cons_of_mem _)

theorem holds_set {read : List (List (Sample α))} {d : Bufs α} (h : HoldsRead read d) (k : String) (v : List (Sample α))
    (hv : ∀ s ∈ v, s.id = k ∧ s ∈ read.flatten) : HoldsRead read (d.set k v) := by
  intro e he
  rcases entry_of_set d k v e he with rfl | he
  · exact hv
  · exact h e he

theorem holds_addAll {read : List (List (Sample α))} {d : Bufs α} (h : HoldsRead read d) (b : List (Sample α)) (hb : ∀ s ∈ b, s ∈ read.flatten) :
    HoldsRead read (d.addAll b) := by
  unfold Bufs.addAll
  induction b generalizing d with
  | nil => exact h
  | cons t l ih =>
    refine ih (holds_set h _ _ fun s hs => ?_) fun s hs => hb s (List.mem_cons_of_mem _ hs)
    rcases List.mem_append.1 hs with hs | hs
    · exact holds_get h _ s hs
    · rw [List.mem_singleton.1 hs]
      exact ⟨rfl, hb t (by simp)⟩

theorem holds_first {read : List (List (Sample α))} (b : List (Sample α)) (hb : ∀ s ∈ b, s ∈ read.flatten) : HoldsRead read (Bufs.first b) := by
  unfold Bufs.first
  suffices ∀ (l : List (Sample α)) (d : Bufs α), (∀ s ∈ l, s ∈ b) → HoldsRead read d → HoldsRead read (l.foldl (fun d s => d.set s.id [s]) d) from
    this b [] (fun _ h => h) (by intro e he; cases he)
  intro l
  induction l with
  | nil => exact fun d _ h => h
  | cons t l ih =>
    intro d hl h
    refine ih _ (fun s hs => hl s (List.mem_cons_of_mem _ hs)) (holds_set h _ _ fun s hs => ?_)
    rw [List.mem_singleton.1 hs]
    exact ⟨rfl, hb t (hl t (by simp))⟩

theorem holds_fill {read : List (List (Sample α))} (active : List String) (n : Nat) (empty : Bool) (d : Bufs α) (stream : List (List (Sample α)))
    (h : HoldsRead read d) (hs : ∀ b ∈ stream, b ∈ read) :
    HoldsRead read (fill active n empty d stream).2.2 ∧ ∀ b ∈ (fill active n empty d stream).1, b ∈ read := by
  induction stream generalizing d with
  | nil => unfold fill; split <;> exact ⟨h, by simp⟩
  | cons b bs ih =>
    unfold fill
    split
    · exact ih _ (holds_addAll h b fun s hb => List.mem_flatten.2 ⟨b, hs b (by simp), hb⟩) fun c hc => hs c (List.mem_cons_of_mem _ hc)
    · exact ⟨h, hs⟩

/-- The inner loop ends where it does not want more, or has found the stream exhausted and wanted more. -/
theorem fill_stops (active : List String) (n : Nat) (d : Bufs α) (stream : List (List (Sample α))) :
    continueBuffering false active (fill active n false d stream).2.2 n = (fill active n false d stream).2.1 := by
  induction stream generalizing d with
  | nil =>
    unfold fill
    split
    · rename_i h; exact h
    · rename_i h; simpa using h
  | cons b bs ih =>
    unfold fill
    split
    · exact ih _
    · rename_i h; simpa using h

theorem holds_pop {read : List (List (Sample α))} (d : Bufs α) (active : List String) (h : HoldsRead read d) :
    HoldsRead read (popAll d active).2 ∧ ∀ s ∈ (popAll d active).1, s.id ∈ active := by
  induction active generalizing d with
  | nil => exact ⟨h, by simp [popAll]⟩
  | cons i is ih =>
    unfold popAll
    split
    · have h' : HoldsRead read (if d.lookup i = none then d.set i [] else d) := by
        split
        · exact holds_set h _ _ (by simp)
        · exact h
      obtain ⟨h1, h2⟩ := ih _ h'
      exact ⟨h1, fun s hs => List.mem_cons_of_mem _ (h2 s hs)⟩
    · rename_i t q hq
      have hg := holds_get h i
      rw [hq] at hg
      obtain ⟨h1, h2⟩ := ih _ (holds_set h i q fun s hs => hg s (List.mem_cons_of_mem _ hs))
      refine ⟨h1, fun s hs => ?_⟩
      rcases List.mem_cons.1 hs with rfl | hs
      · rw [(hg s (by simp)).1]; simp
      · exact List.mem_cons_of_mem _ (h2 s hs)

theorem endBuffered_last {q : List (Sample α)} (h : endBuffered q = true) : ∃ t ∈ q, t.eos = true := by
  unfold endBuffered at h
  split at h
  · rename_i s hs
    exact ⟨s, List.mem_of_getLast? hs, h⟩
  · cases h

theorem run_read (read : List (List (Sample α))) (e : PyErr) (n fuel : Nat) (st : SyncSt α) (hemp : st.empty = false) (hd : HoldsRead read st.bufs)
    (hs : ∀ b ∈ st.stream, b ∈ read) : ∀ b ∈ (syncRunG (some e) n fuel st).1, ∀ s ∈ b, ReadToEnd s.id read := by
  induction fuel generalizing st with
  | zero => intro b hb; cases hb
  | succ fuel ih =>
    unfold syncRunG syncStepG
    simp only [hemp, Bool.not_false, Bool.and_true]
    have hst := fill_stops st.active n st.bufs st.stream
    obtain ⟨hf1, hf2⟩ := holds_fill st.active n false st.bufs st.stream hd hs
    by_cases hf : (fill st.active n false st.bufs st.stream).2.1 = true
    · simp only [hf, if_true]
      intro b hb; cases hb
    · rw [Bool.not_eq_true] at hf
      simp only [hf, Bool.false_eq_true, if_false]
      rw [hf] at hst
      have hend := ((cont_false hst).resolve_left (by simp)).1
      obtain ⟨hp1, hp2⟩ := holds_pop _ st.active hf1
      unfold syncStep
      simp only [hemp, hf]
      by_cases hp : (popAll (fill st.active n false st.bufs st.stream).2.2 st.active).1.isEmpty = true
      · simp only [hp, if_true]
        cases ha : st.active.isEmpty
        · simp only [Bool.false_eq_true, if_false]
          intro b hb; cases hb
        · simp only [if_true, Bool.false_and, Bool.false_eq_true, if_false]
          exact ih ⟨_, _, _, _⟩ rfl (fun e he => hp1 e (List.mem_filter.1 he).1) hf2
      · rw [Bool.not_eq_true] at hp
        simp only [hp, Bool.false_eq_true, if_false]
        intro b hb
        rcases List.mem_cons.1 hb with rfl | hb
        · intro s hs
          obtain ⟨t, ht, hte⟩ := endBuffered_last (hend s.id (hp2 s hs))
          obtain ⟨h1, h2⟩ := holds_get hf1 s.id t ht
          exact ⟨t, h2, h1, hte⟩
        · exact ih ⟨_, _, _, _⟩ rfl hp1 hf2 b hb

/-- **C216, what is given out.** Whatever the loader without overlapping batches gives out before its source stops belongs to files that were read to their ends by then. This holds of every stream of batches. Missing: chunks are held back until the whole file was read. -/
theorem C216_read_partial (read : List (List (Sample α))) (e : PyErr) (fuel : Nat) : ∀ b ∈ (syncG fuel ⟨read, some e⟩).1, ∀ s ∈ b, ReadToEnd s.id read := by
  cases read with
  | nil => intro b hb; cases hb
  | cons a as => exact run_read (a :: as) e a.length fuel _ rfl (holds_first a fun s hs => List.mem_flatten.2 ⟨a, by simp, hs⟩) fun b hb => List.mem_cons_of_mem _ hb

theorem prefix_ended {x : String} {p w : List (Sample α)} (hw : WholeFile x w) (hp : p <+: w) {t : Sample α} (ht : t ∈ p) (he : t.eos = true) : endBuffered p = true := by
  obtain ⟨k, hk⟩ := List.mem_iff_getElem?.1 ht
  obtain ⟨q, rfl⟩ := hp
  have hkl := (List.getElem?_eq_some_iff.1 hk).1
  have h1 := ((hw.2 k t (by rw [List.getElem?_append_left hkl]; exact hk)).2.2).1 he
  rw [List.length_append] at h1
  unfold endBuffered
  rw [List.getLast?_eq_getElem?, show p.length - 1 = k by omega, hk]
  exact he

/-- **C216, the first batch.** The loader without overlapping batches gives out its first batch exactly if all files in it were read to their ends; otherwise it has given out nothing. Missing: files with several chunks, of which the first has been read. -/
theorem C216_first_partial (b : List (Sample α)) (bs more : List (List (Sample α))) (h : WellFormed (b :: bs ++ more)) (e : PyErr) (fuel : Nat) :
    ((∃ rest, (syncG (fuel + 1) ⟨b :: bs, some e⟩).1 = b :: rest) ↔ ∀ s ∈ b, ReadToEnd s.id (b :: bs)) ∧
      ((∃ rest, (syncG (fuel + 1) ⟨b :: bs, some e⟩).1 = b :: rest) ∨ (syncG (fuel + 1) ⟨b :: bs, some e⟩) = ([], .raised e)) := by
  obtain ⟨⟨b', rest, he, hb, hn⟩, hw⟩ := h
  rw [List.cons_append] at he
  obtain ⟨rfl, _⟩ := List.cons.inj he
  obtain ⟨hk1, hk2, hk3⟩ := first_spec b hn
  obtain ⟨hs1, _, hs3, hs4, _⟩ := fill_spec (b.map Sample.id) b.length false (Bufs.first b) bs hk1 (by simp)
  have hst := fill_stops (b.map Sample.id) b.length (Bufs.first b) bs
  have key : (fill (b.map Sample.id) b.length false (Bufs.first b) bs).2.1 = false → ∃ rest, (syncG (fuel + 1) ⟨b :: bs, some e⟩).1 = b :: rest := by
    intro hf
    have hne : ∀ i ∈ b.map Sample.id, (fill (b.map Sample.id) b.length false (Bufs.first b) bs).2.2.get i ≠ [] := by
      rw [hf] at hst
      exact fun i hi => endBuffered_ne (((cont_false hst).resolve_left (by simp)).1 i hi)
    obtain ⟨hp1, _⟩ := popAll_spec _ (b.map Sample.id) hn hs1 hne
    have hpb : (popAll (fill (b.map Sample.id) b.length false (Bufs.first b) bs).2.2 (b.map Sample.id)).1 = b := by
      apply List.map_injective_iff.2 (Option.some_injective _)
      rw [hp1, List.map_map]
      apply List.map_congr_left
      intro s hs
      obtain ⟨m, hm, _⟩ := hs3 s.id
      have h1 : ofFile s.id b = [s] := by
        have hmem : s ∈ ofFile s.id b := List.mem_filter.2 ⟨hs, by simp⟩
        have hlen : (ofFile s.id b).length ≤ 1 := by
          have h2 := List.nodup_iff_count_le_one.1 hn s.id
          rw [List.count, List.countP_map] at h2
          rw [ofFile, ← List.countP_eq_length_filter]
          refine le_trans (le_of_eq (List.countP_congr fun t _ => ?_)) h2
          simp
        match ho : ofFile s.id b, hlen, hmem with
        | [u], _, hmem => rw [List.mem_singleton.1 hmem]
        | _ :: _ :: _, hlen, _ => simp at hlen
      simp only [Function.comp_apply, hm, hk2, h1, List.cons_append, List.head?_cons]
    have hbe : b.isEmpty = false := by simpa using hb
    simp only [syncG, syncRunG, syncStepG, syncStep, hf, hpb, hbe, Bool.false_and, Bool.false_eq_true, if_false]
    exact ⟨_, rfl⟩
  have key2 : (fill (b.map Sample.id) b.length false (Bufs.first b) bs).2.1 = true → syncG (fuel + 1) ⟨b :: bs, some e⟩ = ([], .raised e) := by
    intro hf
    simp only [syncG, syncRunG, syncStepG, hf, Bool.not_false, Bool.and_self, if_true]
  refine ⟨⟨?_, ?_⟩, ?_⟩
  · rintro ⟨rest, hr⟩
    exact C216_read_partial (b :: bs) e (fuel + 1) b (by rw [hr]; simp)
  · intro hr
    apply key
    by_contra hf
    rw [Bool.not_eq_false] at hf
    have hx := hs4 hf
    rw [hf] at hst
    have hall : ∀ i ∈ b.map Sample.id, endBuffered ((fill (b.map Sample.id) b.length false (Bufs.first b) bs).2.2.get i) = true := by
      intro i hi
      obtain ⟨s, hs, rfl⟩ := List.mem_map.1 hi
      obtain ⟨m, hm1, hm2⟩ := hs3 s.id
      rw [hx] at hm2
      simp only [List.flatten_nil, ofFile, List.filter_nil, List.append_nil] at hm2
      rw [hm1, hk2, hm2]
      obtain ⟨t, ht1, ht2, ht3⟩ := hr s hs
      have hcat : ofFile s.id b ++ List.filter (fun u => decide (u.id = s.id)) bs.flatten = ofFile s.id (b :: bs).flatten := by
        rw [List.flatten_cons, ofFile_append]; rfl
      rw [hcat]
      refine prefix_ended (hw s (by simp [hs])) ?_ (List.mem_filter.2 ⟨ht1, by simpa using ht2⟩) ht3
      rw [List.flatten_append, ofFile_append]
      exact List.prefix_append _ _
    unfold continueBuffering at hst
    have h1 : ((b.map Sample.id).filter fun i => endBuffered ((fill (b.map Sample.id) b.length false (Bufs.first b) bs).2.2.get i)) = b.map Sample.id := List.filter_eq_self.2 hall
    rw [h1] at hst
    simp at hst
    omega
  · cases hf : (fill (b.map Sample.id) b.length false (Bufs.first b) bs).2.1
    · exact .inl (key hf)
    · exact .inr (key2 hf)

theorem drive_one (g : Gen (List (Sample α))) (n k : Nat) (hk : k ≤ g.items.length) (hn : g.items.length < n + k) :
    drive (fun k => longNext k [g]) n k = ⟨(g.items.drop k).map fun b => [b], g.fail⟩ := by
  induction n generalizing k with
  | zero => omega
  | succ n ih =>
    unfold drive
    by_cases hlt : k < g.items.length
    · have h1 : longNext k [g] = .item [g.items[k]] := by
        simp only [longNext, longLoop, List.getElem?_eq_getElem hlt]
      simp only [h1, ih (k + 1) hlt (by omega)]
      rw [List.drop_eq_getElem_cons hlt, List.map_cons]
    · have hnone : g.items[k]? = none := by simpa using hlt
      have hd : g.items.drop k = [] := by simpa using hlt
      cases hf : g.fail with
      | none =>
        have h1 : longNext k [g] = .stop := by simp only [longNext, longLoop, hnone, hf]
        simp only [h1, hd, List.map_nil]
      | some e =>
        have h1 : longNext k [g] = .raise e := by simp only [longNext, longLoop, hnone, hf]
        simp only [h1, hd, List.map_nil]

/-- **C216, with overlapping batches.** Every batch that was read is given out, and then the exception of the source is raised. Missing: loaders without overlapping batches. -/
theorem C216_overlapping_partial (read : List (List (Sample α))) (e : PyErr) (fuel : Nat) :
    loaderG false true fuel [⟨read, some e⟩] = (read, .raised e) := by
  have h : longG [(⟨read, some e⟩ : Gen (List (Sample α)))] = ⟨read.map fun b => [b], some e⟩ := by
    unfold longG
    rw [drive_one ⟨read, some e⟩ _ 0 (Nat.zero_le _) (by simp [callsOf, maxLen])]
    simp
  simp only [loaderG, mergeG, h, Bool.false_eq_true, if_false, if_true, List.map_map]
  congr 1
  exact (List.map_congr_left fun b _ => by simp).trans (List.map_id _)

/-- Two files in batches of two: `a` has three chunks, `b` one, and then `c` follows. -/
def exWait : List (List (Sample Nat)) :=
  [[⟨[1], true, false, 1, 0, 3, "a"⟩, ⟨[4], true, true, 1, 0, 1, "b"⟩], [⟨[2], false, false, 1, 1, 3, "a"⟩, ⟨[5], true, true, 1, 0, 1, "c"⟩], [⟨[3], false, true, 1, 2, 3, "a"⟩]]

/-- **C216 is false of the code.** Two of the three chunks of `a`, all of `b` and all of `c` have been read, and the loader has given out nothing; the loader with overlapping batches has given out both batches. -/
theorem C216_delivered_false :
    loaderG false false 9 [⟨exWait.take 2, some .runtimeError⟩] = ([], .raised .runtimeError) ∧
      loaderG false true 9 [⟨exWait.take 2, some .runtimeError⟩] = (exWait.take 2, .raised .runtimeError) := by decide +kernel

theorem exWait_wf : WellFormed exWait := by
  refine ⟨⟨_, _, rfl, by decide, by decide⟩, fun s hs => wholeFileB_sound _ _ ?_⟩
  revert s hs
  decide +kernel

/-- `C216_first_partial` on it: after two of the three batches nothing is given out, after three the first batch is. -/
example : (∃ rest, (syncG 9 ⟨exWait, some .runtimeError⟩).1 = exWait.head (by decide) :: rest) ∧ (syncG 9 ⟨exWait.take 2, some .runtimeError⟩).1 = [] := by
  constructor
  · exact (C216_first_partial _ _ [] (by exact exWait_wf) .runtimeError 8).1.2 (by unfold ReadToEnd; decide +kernel)
  · have h := C216_first_partial (exWait.head (by decide)) [exWait[1]] [exWait[2]] exWait_wf .runtimeError 8
    rcases h.2 with h2 | h2
    · have := h.1.1 h2
      exact absurd this (by unfold ReadToEnd; decide +kernel)
    · exact congrArg Prod.fst h2

/-- Once `a` was read to its end, the first batch is given out, and everything else of `a` too, but not `c`: nothing that ends follows to fill its batch. -/
example : loaderG false false 9 [⟨exWait, some .runtimeError⟩] =
    ([[⟨[1], true, false, 1, 0, 3, "a"⟩, ⟨[4], true, true, 1, 0, 1, "b"⟩], [⟨[2], false, false, 1, 1, 3, "a"⟩], [⟨[3], false, true, 1, 2, 3, "a"⟩]], .raised .runtimeError) := by
  decide +kernel

end
end DS.Data
