import Verif.Lemmas.SyncInv
/-!
# C79-C81: `make_streams_synchronous`
-/

namespace DS.Data

section
variable {α : Type}

theorem synchronous_snoc {n : Nat} {out : List (List (Sample α))} {b : List (Sample α)} (h : Synchronous n out) (hb : b ≠ []) (hl : b.length ≤ n)
    (hn : (b.map Sample.id).Nodup)
    (hc : (AllStart b ∧ AllEnded out.flatten) ∨ ((∀ s ∈ b, s.sos = false) ∧ ∃ pre' l, out = pre' ++ [l] ∧ b.map Sample.id = unfinished l)) :
    Synchronous n (out ++ [b]) := by
  intro pre c post heq
  rcases List.eq_nil_or_concat post with rfl | ⟨post', x, rfl⟩
  · have := List.append_inj' heq rfl
    obtain ⟨h1, h2⟩ := this
    obtain rfl : b = c := by simpa using h2
    subst h1
    exact ⟨hb, hl, hn, hc⟩
  · have heq' : out ++ [b] = (pre ++ c :: post') ++ [x] := by rw [heq]; simp
    obtain ⟨h1, h2⟩ := List.append_inj' heq' rfl
    exact h pre c post' h1

theorem groupsFull_snoc {n : Nat} {out : List (List (Sample α))} {b : List (Sample α)} (h : GroupsFull n out) (hb : AllStart b → b.length = n) :
    GroupsFull n (out ++ [b]) := by
  intro c hc
  rcases List.mem_append.1 hc with hc | hc
  · exact h c hc
  · rw [List.mem_singleton.1 hc]
    exact hb

/-- The part of the invariant that concerns what was yielded. -/
structure Hist (F : String → List (Sample α)) (n : Nat) (out : List (List (Sample α))) (st : SyncSt α) : Prop where
  inv : SInv F n out st
  sync : Synchronous n out
  phase : (Fresh out st ∧ GroupsFull n out ∧ (st.active.length = n ∨ ∀ j, j ∉ st.active → ofFile j out.flatten = F j)) ∨
    (Mid F out st ∧ (st.active ≠ [] → ∃ pre' l, out = pre' ++ [l] ∧ st.active = unfinished l) ∧
      (GroupsFull n out ∨ ((∃ pre b post, out = pre ++ b :: post ∧ GroupsFull n pre ∧ AllStart b ∧ ∀ s ∈ post.flatten, s.sos = false) ∧
        ∀ j, j ∉ st.active → ofFile j out.flatten = F j)))

theorem mem_ofFile {s : Sample α} {l : List (Sample α)} (h : s ∈ l) : s ∈ ofFile s.id l := List.mem_filter.2 ⟨h, by simp⟩

theorem ended_of_full {F : String → List (Sample α)} (hF : ∀ j, F j ≠ [] → WholeFile j (F j)) {out : List (Sample α)} (s : Sample α) (hs : s ∈ out)
    (h : ofFile s.id out = F s.id) : ∃ t ∈ out, t.id = s.id ∧ t.eos = true := by
  have hne : F s.id ≠ [] := by rw [← h]; exact List.ne_nil_of_mem (mem_ofFile hs)
  have hw := hF s.id hne
  have hpos : 0 < (F s.id).length := List.length_pos_iff.2 hne
  have hlt : (F s.id).length - 1 < (F s.id).length := by omega
  have hg := hw.2 _ _ (List.getElem?_eq_getElem hlt)
  refine ⟨(F s.id)[(F s.id).length - 1], ?_, hg.1, hg.2.2.2 (by omega)⟩
  have : (F s.id)[(F s.id).length - 1] ∈ ofFile s.id out := by rw [h]; exact List.getElem_mem hlt
  exact (List.mem_filter.1 this).1

/-- One yielding step keeps everything. -/
theorem hist_yield {F : String → List (Sample α)} (hF : ∀ j, F j ≠ [] → WholeFile j (F j)) {n : Nat} {out : List (List (Sample α))} {st : SyncSt α}
    (h : Hist F n out st) (hne : st.active ≠ []) :
    ∃ b st', syncStep n st = .yield b st' ∧ Hist F n (out ++ [b]) st' ∧
      (∀ j ∈ st.active, (ofFile j (out ++ [b]).flatten).length = (ofFile j out.flatten).length + 1) ∧
      ∀ j, j ∉ st.active → ofFile j (out ++ [b]).flatten = ofFile j out.flatten := by
  have hp : Fresh out st ∨ Mid F out st := h.phase.imp (·.1) (·.1)
  obtain ⟨b, st', h1, h2, h3, h4, h5, h6, h7, h8, h9⟩ := step_yield hF h.inv hp hne
  have hb : b ≠ [] := by
    rintro rfl
    exact hne h4.symm
  have hlen : b.length = st.active.length := by rw [← h4, List.length_map]
  have hnd : (b.map Sample.id).Nodup := by rw [h4]; exact h.inv.nodup
  have hlast : st'.active ≠ [] → ∃ pre' l, out ++ [b] = pre' ++ [l] ∧ st'.active = unfinished l := fun _ => ⟨out, b, rfl, h5⟩
  refine ⟨b, st', h1, ?_, h8, h9⟩
  rcases h.phase with ⟨hf, hg, hcnt⟩ | ⟨hm, hl, hg⟩
  · have hstart : AllStart b := h6 hf
    have hend : AllEnded out.flatten := by
      intro s hs
      apply ended_of_full hF s hs
      by_cases hj : s.id ∈ st.active
      · have := (hf.2 s.id hj).1
        have hm := mem_ofFile hs
        rw [this] at hm
        cases hm
      · rcases h.inv.others s.id hj with h' | h'
        · have hm := mem_ofFile hs
          rw [h'] at hm
          cases hm
        · exact h'
    refine ⟨h2, synchronous_snoc h.sync hb (by rw [hlen]; exact h.inv.size) hnd (Or.inl ⟨hstart, hend⟩), Or.inr ⟨h3, hlast, ?_⟩⟩
    rcases hcnt with hcnt | hcnt
    · left
      exact groupsFull_snoc hg fun _ => by rw [hlen, hcnt]
    · right
      refine ⟨⟨out, b, [], rfl, hg, hstart, by simp⟩, ?_⟩
      intro j hj
      by_cases hja : j ∈ st.active
      · rcases h2.others j hj with h' | h'
        · have := h8 j hja
          rw [h'] at this
          simp at this
        · exact h'
      · rw [h9 j hja]
        exact hcnt j hja
  · have hns := h7 hm
    obtain ⟨s0, hs0⟩ := List.exists_mem_of_ne_nil b hb
    have hnot : ¬ AllStart b := fun ha => by
      have := ha s0 hs0
      rw [hns s0 hs0] at this
      cases this
    obtain ⟨pre', l, ho, hact⟩ := hl hne
    refine ⟨h2, synchronous_snoc h.sync hb (by rw [hlen]; exact h.inv.size) hnd (Or.inr ⟨hns, pre', l, ho, by rw [h4, hact]⟩), Or.inr ⟨h3, hlast, ?_⟩⟩
    rcases hg with hg | ⟨⟨pre, c, post, he, hgp, hc, hpost⟩, hrest⟩
    · left
      exact groupsFull_snoc hg fun ha => absurd ha hnot
    · right
      refine ⟨⟨pre, c, post ++ [b], by rw [he]; simp, hgp, hc, ?_⟩, ?_⟩
      · intro s hs
        rw [List.flatten_append, List.mem_append, List.flatten_singleton] at hs
        exact hs.elim (hpost s) (hns s)
      · intro j hj
        by_cases hja : j ∈ st.active
        · rcases h2.others j hj with h' | h'
          · have := h8 j hja
            rw [h'] at this
            simp at this
          · exact h'
        · rw [h9 j hja]
          exact hrest j hja

/-- What is left to yield. -/
def remaining (ids : List String) (F : String → List (Sample α)) (out : List (List (Sample α))) : Nat :=
  (ids.map fun j => (F j).length - (ofFile j out.flatten).length).sum

theorem sum_lt_of {ids : List String} {f g : String → Nat} (hle : ∀ j ∈ ids, f j ≤ g j) (j0 : String) (hj : j0 ∈ ids) (hlt : f j0 < g j0) :
    (ids.map f).sum < (ids.map g).sum := by
  induction ids with
  | nil => cases hj
  | cons a as ih =>
    simp only [List.map_cons, List.sum_cons]
    have hle' : (as.map f).sum ≤ (as.map g).sum := by
      clear ih hj
      induction as with
      | nil => simp
      | cons b bs ih =>
        simp only [List.map_cons, List.sum_cons]
        have h1 := hle b (by simp)
        have h2 := ih (fun j hj => hle j (by
          rcases List.mem_cons.1 hj with h | h
          · simp [h]
          · simp [h]))
        omega
    rcases List.mem_cons.1 hj with rfl | hj
    · omega
    · have h1 := hle a (by simp)
      have h2 := ih (fun j hj => hle j (by simp [hj])) hj
      omega

theorem conserve_le {F : String → List (Sample α)} {n : Nat} {out : List (List (Sample α))} {st : SyncSt α} (inv : SInv F n out st) (j : String) :
    (ofFile j out.flatten).length ≤ (F j).length := by
  rw [← inv.conserve j, List.length_append]
  omega

theorem remaining_lt {F : String → List (Sample α)} {n : Nat} {ids : List String} (hids : ∀ j, F j ≠ [] → j ∈ ids) {out : List (List (Sample α))} {b : List (Sample α)}
    {st st' : SyncSt α} (hne : st.active ≠ []) (inv' : SInv F n (out ++ [b]) st')
    (h8 : ∀ j ∈ st.active, (ofFile j (out ++ [b]).flatten).length = (ofFile j out.flatten).length + 1)
    (h9 : ∀ j, j ∉ st.active → ofFile j (out ++ [b]).flatten = ofFile j out.flatten) :
    remaining ids F (out ++ [b]) < remaining ids F out := by
  obtain ⟨j0, hj0⟩ := List.exists_mem_of_ne_nil _ hne
  have hle0 := conserve_le inv' j0
  have h80 := h8 j0 hj0
  unfold remaining
  refine sum_lt_of ?_ j0 (hids j0 ?_) ?_
  · intro j _
    by_cases hj : j ∈ st.active
    · have := h8 j hj; omega
    · rw [h9 j hj]
  · intro h
    rw [h] at hle0
    simp only [List.length_nil] at hle0
    omega
  · omega

theorem run_all {F : String → List (Sample α)} (hF : ∀ j, F j ≠ [] → WholeFile j (F j)) {n : Nat} (hn : 0 < n) {ids : List String}
    (hids : ∀ j, F j ≠ [] → j ∈ ids) (m : Nat) (out : List (List (Sample α))) (st : SyncSt α) (h : Hist F n out st) (hm : remaining ids F out ≤ m) :
    ∃ fuel, (syncRun n fuel st).2 = .returned ∧ (∀ j, ofFile j (out ++ (syncRun n fuel st).1).flatten = F j) ∧
      Synchronous n (out ++ (syncRun n fuel st).1) ∧ FullButLast n (out ++ (syncRun n fuel st).1) := by
  induction m generalizing out st with
  | zero =>
    by_cases hne : st.active = []
    · rcases step_choose (fun j a as h => (((hF j (by simp [h])).2 0 a (by simp [h])).2.1).2 rfl) hn h.inv hne with ⟨hs, hall⟩ | ⟨st', hs, inv', hf, hc⟩
      · exact finish F n out st h hs hall
      · have hcnt : GroupsFull n out := by
          rcases h.phase with ⟨hf', _⟩ | ⟨_, _, hg⟩
          · exact absurd hne hf'.1
          · rcases hg with hg | ⟨_, hrest⟩
            · exact hg
            · exfalso
              obtain ⟨j, hj⟩ := List.exists_mem_of_ne_nil _ hf.1
              have h1 := hrest j (by rw [hne]; simp)
              have h2 := inv'.conserve j
              rw [h1] at h2
              exact (hf.2 j hj).2 (List.append_eq_nil_iff.1 (List.append_right_eq_self.1 h2)).1
        obtain ⟨b, st'', hy, hist'', h8, h9⟩ := hist_yield hF (⟨inv', h.sync, Or.inl ⟨hf, hcnt, hc⟩⟩ : Hist F n out st') hf.1
        have := remaining_lt hids hf.1 hist''.inv h8 h9
        omega
    · obtain ⟨b, st', hy, hist', h8, h9⟩ := hist_yield hF h hne
      have := remaining_lt hids hne hist'.inv h8 h9
      omega
  | succ m ih =>
    by_cases hne : st.active = []
    · rcases step_choose (fun j a as h => (((hF j (by simp [h])).2 0 a (by simp [h])).2.1).2 rfl) hn h.inv hne with ⟨hs, hall⟩ | ⟨st', hs, inv', hf, hc⟩
      · exact finish F n out st h hs hall
      · have hcnt : GroupsFull n out := by
          rcases h.phase with ⟨hf', _⟩ | ⟨_, _, hg⟩
          · exact absurd hne hf'.1
          · rcases hg with hg | ⟨_, hrest⟩
            · exact hg
            · exfalso
              obtain ⟨j, hj⟩ := List.exists_mem_of_ne_nil _ hf.1
              have h1 := hrest j (by rw [hne]; simp)
              have h2 := inv'.conserve j
              rw [h1] at h2
              exact (hf.2 j hj).2 (List.append_eq_nil_iff.1 (List.append_right_eq_self.1 h2)).1
        obtain ⟨b, st'', hy, hist'', h8, h9⟩ := hist_yield hF (⟨inv', h.sync, Or.inl ⟨hf, hcnt, hc⟩⟩ : Hist F n out st') hf.1
        have hlt := remaining_lt hids hf.1 hist''.inv h8 h9
        obtain ⟨fuel, hr⟩ := ih (out ++ [b]) st'' hist'' (by omega)
        refine ⟨fuel + 2, ?_⟩
        have hrun : syncRun n (fuel + 2) st = (b :: (syncRun n fuel st'').1, (syncRun n fuel st'').2) := by
          show (match syncStep n st with | .yield b st' => _ | .next st' => _ | .stop => _ | .raise e => _) = _
          rw [hs]
          show (match syncStep n st' with | .yield b st' => _ | .next st' => _ | .stop => _ | .raise e => _) = _
          rw [hy]
        rw [hrun]
        simpa using hr
    · obtain ⟨b, st', hy, hist', h8, h9⟩ := hist_yield hF h hne
      have hlt := remaining_lt hids hne hist'.inv h8 h9
      obtain ⟨fuel, hr⟩ := ih (out ++ [b]) st' hist' (by omega)
      refine ⟨fuel + 1, ?_⟩
      have hrun : syncRun n (fuel + 1) st = (b :: (syncRun n fuel st').1, (syncRun n fuel st').2) := by
        show (match syncStep n st with | .yield b st' => _ | .next st' => _ | .stop => _ | .raise e => _) = _
        rw [hy]
      rw [hrun]
      simpa using hr
where
  finish (F : String → List (Sample α)) (n : Nat) (out : List (List (Sample α))) (st : SyncSt α) (h : Hist F n out st) (hs : syncStep n st = .stop)
      (hall : ∀ j, ofFile j out.flatten = F j) :
      ∃ fuel, (syncRun n fuel st).2 = .returned ∧ (∀ j, ofFile j (out ++ (syncRun n fuel st).1).flatten = F j) ∧
        Synchronous n (out ++ (syncRun n fuel st).1) ∧ FullButLast n (out ++ (syncRun n fuel st).1) := by
    refine ⟨1, ?_⟩
    have hrun : syncRun n 1 st = ([], .returned) := by
      show (match syncStep n st with | .yield b st' => _ | .next st' => _ | .stop => _ | .raise e => _) = _
      rw [hs]
    rw [hrun]
    simp only [List.append_nil, true_and]
    refine ⟨hall, h.sync, ?_⟩
    rcases h.phase with ⟨_, hg, _⟩ | ⟨_, _, hg⟩
    · exact Or.inl hg
    · exact hg.imp id (·.1)

/-- The state before the first iteration satisfies the invariant. -/
theorem hist_init (b : List (Sample α)) (rest : List (List (Sample α))) (hb : b ≠ []) (hn : (b.map Sample.id).Nodup) :
    Hist (fun j => ofFile j (b :: rest).flatten) b.length [] ⟨rest, false, b.map Sample.id, Bufs.first b⟩ := by
  obtain ⟨h1, h2, _⟩ := first_spec b hn
  refine ⟨⟨?_, h1, hn, by simp, by simp, ?_⟩, ?_, Or.inl ⟨⟨by simpa using hb, ?_⟩, ?_, Or.inl (by simp)⟩⟩
  · intro j
    show _ ++ ((Bufs.first b).get j ++ _) = _
    rw [h2 j, List.flatten_cons, ofFile_append]
    rfl
  · intro j _
    exact Or.inl rfl
  · intro pre c post h
    simp at h
  · intro j hj
    refine ⟨rfl, ?_⟩
    obtain ⟨s, hs, rfl⟩ := List.mem_map.1 hj
    show (Bufs.first b).get s.id ≠ []
    rw [h2]
    exact List.ne_nil_of_mem (mem_ofFile hs)
  · intro c hc
    cases hc

theorem wellFormed_F {stream : List (List (Sample α))} (h : WellFormed stream) :
    ∀ j, ofFile j stream.flatten ≠ [] → WholeFile j (ofFile j stream.flatten) := by
  intro j hj
  obtain ⟨s, hs⟩ := List.exists_mem_of_ne_nil _ hj
  obtain ⟨hs, he⟩ := List.mem_filter.1 hs
  have : s.id = j := by simpa using he
  rw [← this]
  exact h.2 s hs

/-- C79, C80 and C81 in one statement. -/
theorem sync_spec (stream : List (List (Sample α))) (h : WellFormed stream) :
    ∃ fuel out n, (∃ b rest, stream = b :: rest ∧ n = b.length) ∧ sync fuel stream = (out, .returned) ∧ (∀ j, ofFile j out.flatten = ofFile j stream.flatten) ∧
      Synchronous n out ∧ FullButLast n out := by
  obtain ⟨b, rest, rfl, hb, hn⟩ := h.1
  have hids : ∀ j, ofFile j (b :: rest).flatten ≠ [] → j ∈ (b :: rest).flatten.map Sample.id := by
    intro j hj
    obtain ⟨s, hs⟩ := List.exists_mem_of_ne_nil _ hj
    obtain ⟨hs, he⟩ := List.mem_filter.1 hs
    have : s.id = j := by simpa using he
    rw [← this]
    exact List.mem_map_of_mem hs
  obtain ⟨fuel, h1, h2, h3, h4⟩ := run_all (wellFormed_F h) (List.length_pos_iff.2 hb) hids _ [] _ (hist_init b rest hb hn) (Nat.le_refl _)
  rw [List.nil_append] at h2 h3 h4
  refine ⟨fuel, (syncRun b.length fuel ⟨rest, false, b.map Sample.id, Bufs.first b⟩).1, b.length, ⟨b, rest, rfl, rfl⟩, ?_, h2, h3, h4⟩
  show syncRun _ _ _ = _
  rw [← h1]

/-- More fuel does not change a run that has ended. -/
theorem syncRun_mono (n fuel : Nat) (st : SyncSt α) (k : Nat) (h : (syncRun n fuel st).2 ≠ .running) : syncRun n (fuel + k) st = syncRun n fuel st := by
  induction fuel generalizing st with
  | zero => exact absurd rfl h
  | succ m ih =>
    rw [show m + 1 + k = (m + k) + 1 by omega]
    unfold syncRun at h ⊢
    cases hs : syncStep n st with
    | yield b st' => rw [hs] at h; simp only at h ⊢; rw [ih st' h]
    | next st' => rw [hs] at h; simp only at h ⊢; exact ih st' h
    | stop => rfl
    | raise e => rfl

/-- The run is deterministic: two runs that have ended agree. -/
theorem sync_unique (fuel fuel' : Nat) (stream out out' : List (List (Sample α))) (e e' : Ended) (h : sync fuel stream = (out, e)) (h' : sync fuel' stream = (out', e'))
    (he : e ≠ .running) (he' : e' ≠ .running) : out = out' ∧ e = e' := by
  cases stream with
  | nil => cases h; cases h'; exact ⟨rfl, rfl⟩
  | cons b bs =>
    have h1 := syncRun_mono b.length fuel ⟨bs, false, b.map Sample.id, Bufs.first b⟩ fuel' (by rw [show syncRun _ _ _ = (out, e) from h]; exact he)
    have h2 := syncRun_mono b.length fuel' ⟨bs, false, b.map Sample.id, Bufs.first b⟩ fuel (by rw [show syncRun _ _ _ = (out', e') from h']; exact he')
    rw [show syncRun _ fuel _ = (out, e) from h] at h1
    rw [show syncRun _ fuel' _ = (out', e') from h', Nat.add_comm, h1] at h2
    cases h2
    exact ⟨rfl, rfl⟩

/-- C79: on every well-formed stream the generator terminates without error and yields every file's samples exactly once and in order. -/
theorem C79_loses_nothing (stream : List (List (Sample α))) (h : WellFormed stream) :
    ∃ fuel out, sync fuel stream = (out, .returned) ∧ ∀ j, ofFile j out.flatten = ofFile j stream.flatten := by
  obtain ⟨fuel, out, _, _, h1, h2, _⟩ := sync_spec stream h
  exact ⟨fuel, out, h1, h2⟩

/-- C79: an empty stream raises RuntimeError (`StopIteration` inside a generator). -/
theorem C79_empty (fuel : Nat) : sync fuel ([] : List (List (Sample α))) = ([], .raised .runtimeError) := rfl

/-- C80: whatever a completed run yields is synchronous, with batches no larger than the first input batch. -/
theorem C80_synchronous (b : List (Sample α)) (rest : List (List (Sample α))) (h : WellFormed (b :: rest)) (fuel : Nat) (out : List (List (Sample α)))
    (hr : sync fuel (b :: rest) = (out, .returned)) : Synchronous b.length out := by
  obtain ⟨fuel', out', n, ⟨b', rest', he, hn⟩, h1, _, h3, _⟩ := sync_spec _ h
  cases he
  obtain ⟨rfl, _⟩ := sync_unique _ _ _ _ _ _ _ hr h1 (by simp) (by simp)
  rw [← hn]
  exact h3

/-- C81: all groups but possibly the last have the size of the first input batch. -/
theorem C81_groups_full (b : List (Sample α)) (rest : List (List (Sample α))) (h : WellFormed (b :: rest)) (fuel : Nat) (out : List (List (Sample α)))
    (hr : sync fuel (b :: rest) = (out, .returned)) : FullButLast b.length out := by
  obtain ⟨fuel', out', n, ⟨b', rest', he, hn⟩, h1, _, _, h4⟩ := sync_spec _ h
  cases he
  obtain ⟨rfl, _⟩ := sync_unique _ _ _ _ _ _ _ hr h1 (by simp) (by simp)
  rw [← hn]
  exact h4

/-- The hypothesis on the first batch matters: if it is empty the generator loops for ever without yielding. -/
theorem C79_empty_first_batch (fuel : Nat) (b : List (Sample α)) (rest : List (List (Sample α))) :
    sync fuel ([] :: b :: rest) = ([], .running) := by
  show syncRun 0 fuel ⟨b :: rest, false, [], []⟩ = _
  induction fuel with
  | zero => rfl
  | succ m ih =>
    show syncRun 0 m ⟨b :: rest, false, [], []⟩ = _
    exact ih

end

-- Non-trivial case: files of 2, 1, 1 and 2 chunks, two streams; "c" and "d" wait for "a".
/-- `a` is longer than `b`; `c` follows `b`; `d` comes last. -/
def exStream : List (List (Sample Nat)) :=
  [[⟨[], true, false, 1, 0, 2, "a"⟩, ⟨[], true, true, 1, 0, 1, "b"⟩],
   [⟨[], false, true, 1, 1, 2, "a"⟩, ⟨[], true, true, 1, 0, 1, "c"⟩],
   [⟨[], true, false, 1, 0, 2, "d"⟩], [⟨[], false, true, 1, 1, 2, "d"⟩]]

/-- Decidable form of `WholeFile`. -/
def wholeFileB (x : String) (xs : List (Sample Nat)) : Bool :=
  !xs.isEmpty && (List.range xs.length).all fun k => (xs[k]?).all fun s =>
    decide (s.id = x) && (s.sos == decide (k = 0)) && (s.eos == decide (k + 1 = xs.length))

theorem wholeFileB_sound (x : String) (xs : List (Sample Nat)) (h : wholeFileB x xs = true) : WholeFile x xs := by
  unfold wholeFileB at h
  rw [Bool.and_eq_true, List.all_eq_true] at h
  refine ⟨by rintro rfl; simp at h, ?_⟩
  intro k s hk
  have hlt := (List.getElem?_eq_some_iff.1 hk).1
  have := h.2 k (List.mem_range.2 hlt)
  rw [hk] at this
  simp only [Option.all_some, Bool.and_eq_true, decide_eq_true_eq, beq_iff_eq] at this
  refine ⟨this.1.1, ?_, ?_⟩
  · rw [this.1.2]; simp
  · rw [this.2]; simp

example : WellFormed exStream := by
  refine ⟨⟨_, _, rfl, by decide, by decide⟩, ?_⟩
  intro s hs
  apply wholeFileB_sound
  revert s hs
  decide

example : (sync 20 exStream).1.map (fun b => b.map fun s => (s.id, s.chunkIndex)) =
    [[("a", 0), ("b", 0)], [("a", 1)], [("c", 0), ("d", 0)], [("d", 1)]] ∧ (sync 20 exStream).2 = .returned := by decide

/-- The hypothesis that the first batch holds no file twice matters: one of two samples of a file in the first batch is lost. -/
theorem C79_duplicate_in_first_batch : (sync 20 [[⟨[0], true, false, 1, 0, 2, "a"⟩, ⟨[1], false, true, 1, 1, 2, "a"⟩]] : List (List (Sample Nat)) × Ended) =
    ([[⟨[1], false, true, 1, 1, 2, "a"⟩]], .returned) := by decide

/-! ### A stream that ends within a file -/

theorem trunc_fill (i : String) (cs : List (Sample α)) (hid : ∀ s ∈ cs, s.id = i) (heos : ∀ s ∈ cs, s.eos = false) (q : List (Sample α)) (hq : ∀ s ∈ q, s.eos = false) :
    fill [i] 1 false [(i, q)] (cs.map fun s => [s]) = ([], true, [(i, q ++ cs)]) := by
  have hc : ∀ q' : List (Sample α), (∀ s ∈ q', s.eos = false) → continueBuffering false [i] [(i, q')] 1 = true := by
    intro q' hq'
    have : endBuffered q' = false := by
      unfold endBuffered
      cases hl : q'.getLast? with
      | none => rfl
      | some s => exact hq' s (List.mem_of_getLast? hl)
    simp [continueBuffering, Bufs.get, this]
  induction cs generalizing q with
  | nil => simp [fill, hc q hq]
  | cons c cs ih =>
    have hci : c.id = i := hid c (by simp)
    simp only [List.map_cons, fill, hc q hq, if_true]
    have hadd : Bufs.addAll [(i, q)] [c] = [(i, q ++ [c])] := by simp [Bufs.addAll, Bufs.get, Bufs.set, hci]
    rw [hadd, ih (fun s hs => hid s (by simp [hs])) (fun s hs => heos s (by simp [hs])) (q ++ [c]) (by
      intro s hs
      rcases List.mem_append.1 hs with hs | hs
      · exact hq s hs
      · simp at hs; rw [hs]; exact heos c (by simp))]
    simp

theorem trunc_run (i : String) (q : List (Sample α)) (hid : ∀ s ∈ q, s.id = i) (heos : ∀ s ∈ q, s.eos = false) :
    syncRun 1 (q.length + 1) ⟨[], true, [i], [(i, q)]⟩ = (q.map fun s => [s], .raised .runtimeError) := by
  induction q with
  | nil => simp [syncRun, syncStep, fill, continueBuffering, popAll, Bufs.get]
  | cons c q ih =>
    have hci : c.id = i := hid c (by simp)
    have hce : c.eos = false := heos c (by simp)
    have hstep : syncStep 1 (⟨[], true, [i], [(i, c :: q)]⟩ : SyncSt α) = .yield [c] ⟨[], true, [i], [(i, q)]⟩ := by
      simp [syncStep, fill, continueBuffering, popAll, Bufs.get, Bufs.set, hci, hce]
    rw [List.length_cons, syncRun, hstep]
    simp only [ih (fun s hs => hid s (by simp [hs])) (fun s hs => heos s (by simp [hs])), List.map_cons]

/-- C169, where it holds: if the stream ends within its only file, the samples are yielded and then RuntimeError is raised. Missing: several files, for which `C169_exact_partial` says when it raises. -/
theorem C169_truncated_partial (i : String) (c : Sample α) (cs : List (Sample α)) (hid : ∀ s ∈ c :: cs, s.id = i) (heos : ∀ s ∈ c :: cs, s.eos = false) :
    sync (cs.length + 2) ((c :: cs).map fun s => [s]) = ((c :: cs).map fun s => [s], .raised .runtimeError) := by
  have hci : c.id = i := hid c (by simp)
  have hce : c.eos = false := heos c (by simp)
  show syncRun 1 (cs.length + 1 + 1) ⟨cs.map fun s => [s], false, [c.id], Bufs.first [c]⟩ = _
  have hfirst : Bufs.first [c] = [(i, [c])] := by simp [Bufs.first, Bufs.set, hci]
  rw [hfirst, hci]
  have hfill := trunc_fill i cs (fun s hs => hid s (by simp [hs])) (fun s hs => heos s (by simp [hs])) [c] (by simpa using hce)
  have hstep : syncStep 1 (⟨cs.map fun s => [s], false, [i], [(i, [c])]⟩ : SyncSt α) = .yield [c] ⟨[], true, [i], [(i, cs)]⟩ := by
    unfold syncStep
    dsimp only
    rw [hfill]
    simp [popAll, Bufs.get, Bufs.set, hci, hce]
  rw [syncRun, hstep]
  simp only [trunc_run i cs (fun s hs => hid s (by simp [hs])) (fun s hs => heos s (by simp [hs])), List.map_cons]

/-- **C169 is false of the code.** A truncated file goes unnoticed if it is not the longest of its group: `a` lacks its end, and nothing is raised. -/
theorem C169_truncated_false : sync 20 ([[⟨[0], true, false, 1, 0, 3, "a"⟩, ⟨[5], true, false, 1, 0, 2, "b"⟩], [⟨[6], false, true, 1, 1, 2, "b"⟩]] : List (List (Sample Nat))) =
    ([[⟨[0], true, false, 1, 0, 3, "a"⟩, ⟨[5], true, false, 1, 0, 2, "b"⟩], [⟨[6], false, true, 1, 1, 2, "b"⟩]], .returned) := by decide

example : sync 3 ([[⟨[0], true, false, 1, 0, 3, "a"⟩], [⟨[1], false, false, 1, 1, 3, "a"⟩]] : List (List (Sample Nat))) =
    ([[⟨[0], true, false, 1, 0, 3, "a"⟩], [⟨[1], false, false, 1, 1, 3, "a"⟩]], .raised .runtimeError) :=
  C169_truncated_partial "a" _ [_] (by decide) (by decide)

end DS.Data
