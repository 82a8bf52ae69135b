import Verif.Lemmas.SyncTruncate
import Verif.Props.Sync
/-!
# C169: streams that end within files
-/

namespace DS.Data

section
variable {α : Type}

theorem openStream_F {stream : List (List (Sample α))} (h : OpenStream stream) :
    ∀ j, ofFile j stream.flatten ≠ [] → OpenFile j (ofFile j stream.flatten) := by
  intro j hj
  obtain ⟨s, hs⟩ := List.exists_mem_of_ne_nil _ hj
  obtain ⟨hs, he⟩ := List.mem_filter.1 hs
  have : s.id = j := by simpa using he
  rw [← this]
  exact h.2 s hs

/-- The groups from a state in which one is about to start. -/
theorem run_groups {F : String → List (Sample α)} (hF : ∀ j, F j ≠ [] → OpenFile j (F j)) {n : Nat} (hn : 0 < n) {ids : List String} (hids : ∀ j, F j ≠ [] → j ∈ ids)
    (m : Nat) (out : List (List (Sample α))) (st : SyncSt α) (inv : SInv F n out st) (hf : Fresh out st)
    (hfull : st.active.length = n ∨ ∀ j, j ∉ st.active → ofFile j out.flatten = F j) (hm : remaining ids F out ≤ m) :
    ∃ fuel gs g, (∃ rest, gs ++ [g] = st.active :: rest) ∧ (gs ++ [g]).flatten.Nodup ∧ (∀ j ∈ (gs ++ [g]).flatten, ofFile j out.flatten = [] ∧ F j ≠ []) ∧
      (∀ x ∈ gs, x.length = n) ∧ g.length ≤ n ∧ (∀ x ∈ gs, ¬ Cut F x) ∧
      ((Cut F g ∧ syncRun n fuel st = ((gs ++ [g]).flatMap (rounds F), .raised .runtimeError)) ∨
        (¬ Cut F g ∧ (∀ j, F j ≠ [] → ofFile j out.flatten = F j ∨ j ∈ (gs ++ [g]).flatten) ∧
          syncRun n fuel st = ((gs ++ [g]).flatMap (rounds F), .returned))) := by
  induction m using Nat.strongRecOn generalizing out st with
  | _ m ih =>
    have hact : ∀ j ∈ st.active, ofFile j out.flatten = [] ∧ F j ≠ [] := by
      intro j hj
      refine ⟨(hf.2 j hj).1, ?_⟩
      intro h0
      have := inv.conserve j
      rw [h0] at this
      exact (hf.2 j hj).2 (List.append_eq_nil_iff.1 (List.append_eq_nil_iff.1 this).2).1
    obtain ⟨hcut, hgo⟩ := group_run hF inv hf
    by_cases hc : Cut F st.active
    · refine ⟨longest F st.active + (0 + 1), [], st.active, ⟨[], by simp⟩, by simpa using inv.nodup, by simpa using hact, by simp, inv.size, by simp, Or.inl ⟨hc, ?_⟩⟩
      rw [hcut hc 0]
      simp
    · obtain ⟨st1, inv1, ha1, hmine, hoth, hr⟩ := hgo hc
      have hsos : ∀ j a as, F j = a :: as → a.sos = true := fun j a as h => (((hF j (by simp [h])).2 0 a (by simp [h])).2.1).2 rfl
      rcases step_choose hsos hn inv1 ha1 with ⟨hs, hall⟩ | ⟨st2, hs, inv2, hf2, hfull2⟩
      · refine ⟨longest F st.active + 1, [], st.active, ⟨[], by simp⟩, by simpa using inv.nodup, by simpa using hact, by simp, inv.size, by simp, Or.inr ⟨hc, ?_, ?_⟩⟩
        · intro j _
          by_cases hj : j ∈ st.active
          · right
            simpa using hj
          · left
            rw [← hoth j hj]
            exact hall j
        · rw [hr 1, syncRun, hs]
          simp
      · have hlt : remaining ids F (out ++ rounds F st.active) < remaining ids F out := by
          obtain ⟨j0, hj0⟩ := List.exists_mem_of_ne_nil _ hf.1
          unfold remaining
          refine sum_lt_of ?_ j0 (hids j0 (hact j0 hj0).2) ?_
          · intro j _
            by_cases hj : j ∈ st.active
            · rw [hmine j hj]; omega
            · rw [hoth j hj]
          · rw [hmine j0 hj0, (hact j0 hj0).1]
            have := List.length_pos_iff.2 (hact j0 hj0).2
            simp only [List.length_nil]
            omega
        have hn1 : st.active.length = n := by
          rcases hfull with h | h
          · exact h
          · exfalso
            obtain ⟨j, hj⟩ := List.exists_mem_of_ne_nil _ hf2.1
            have h1 : ofFile j (out ++ rounds F st.active).flatten = F j := by
              by_cases hja : j ∈ st.active
              · exact hmine j hja
              · rw [hoth j hja]
                exact h j hja
            have h2 := inv2.conserve j
            rw [h1] at h2
            exact (hf2.2 j hj).2 (List.append_eq_nil_iff.1 (List.append_right_eq_self.1 h2)).1
        obtain ⟨fuel, gs, g, ⟨rest, hrest⟩, hnd, hfr, hgs, hg, hnc, hres⟩ := ih _ (by omega) _ _ inv2 hf2 hfull2 (Nat.le_refl _)
        have hrun : syncRun n (longest F st.active + (fuel + 1)) st = (rounds F st.active ++ (syncRun n fuel st2).1, (syncRun n fuel st2).2) := by
          rw [hr (fuel + 1), run_next hs]
        have hdisj : ∀ j ∈ st.active, j ∉ (gs ++ [g]).flatten := by
          intro j hj hj'
          have := (hfr j hj').1
          rw [hmine j hj] at this
          exact (hact j hj).2 this
        refine ⟨longest F st.active + (fuel + 1), st.active :: gs, g, ⟨gs ++ [g], by simp⟩, ?_, ?_, ?_, hg, ?_, ?_⟩
        · rw [List.cons_append, List.flatten_cons, List.nodup_append]
          exact ⟨inv.nodup, hnd, fun a ha b hb hab => hdisj a ha (hab ▸ hb)⟩
        · intro j hj
          rw [List.cons_append, List.flatten_cons, List.mem_append] at hj
          rcases hj with hj | hj
          · exact hact j hj
          · have hja : j ∉ st.active := fun h => hdisj j h hj
            have := hfr j hj
            rw [hoth j hja] at this
            exact this
        · intro x hx
          rcases List.mem_cons.1 hx with rfl | hx
          · exact hn1
          · exact hgs x hx
        · intro x hx
          rcases List.mem_cons.1 hx with rfl | hx
          · exact hc
          · exact hnc x hx
        · rcases hres with ⟨h1, h2⟩ | ⟨h1, h2, h3⟩
          · left
            refine ⟨h1, ?_⟩
            rw [hrun, h2]
            simp
          · right
            refine ⟨h1, ?_, ?_⟩
            · intro j hj
              by_cases hja : j ∈ st.active
              · right
                simp [hja]
              · rcases h2 j hj with h | h
                · left
                  rw [← hoth j hja]
                  exact h
                · right
                  rw [List.cons_append, List.flatten_cons]
                  exact List.mem_append_right _ h
            · rw [hrun, h3]
              simp

/-- C169, exactly: on a stream whose files may lack their end, the generator plays groups of different files one after the other, starting with the first batch, each chunk by chunk; all groups but the last
have the size of the first batch. It raises RuntimeError after the first group with a longest file that lacks its end, and returns, having delivered every sample of the stream, if there is no such group.
Missing: files that lack their end and are shorter than others of their group go unnoticed (`C169_truncated_false`). -/
theorem C169_exact_partial (b : List (Sample α)) (rest : List (List (Sample α))) (h : OpenStream (b :: rest)) :
    let F : String → List (Sample α) := fun j => ofFile j (b :: rest).flatten
    ∃ gs g, (∃ more, gs ++ [g] = b.map Sample.id :: more) ∧ (gs ++ [g]).flatten.Nodup ∧ (∀ j ∈ (gs ++ [g]).flatten, F j ≠ []) ∧ (∀ x ∈ gs, x.length = b.length) ∧ g.length ≤ b.length ∧ (∀ x ∈ gs, ¬ Cut F x) ∧
      ((Cut F g ∧ ∃ fuel, sync fuel (b :: rest) = ((gs ++ [g]).flatMap (rounds F), .raised .runtimeError)) ∨
        (¬ Cut F g ∧ (∀ s ∈ (b :: rest).flatten, s.id ∈ (gs ++ [g]).flatten) ∧ ∃ fuel, sync fuel (b :: rest) = ((gs ++ [g]).flatMap (rounds F), .returned))) := by
  intro F
  obtain ⟨b', rest', he, hb, hn⟩ := h.1
  cases he
  have hids : ∀ j, ofFile j (b :: rest).flatten ≠ [] → j ∈ (b :: rest).flatten.map Sample.id := by
    intro j hj
    obtain ⟨s, hs⟩ := List.exists_mem_of_ne_nil _ hj
    obtain ⟨hs, he⟩ := List.mem_filter.1 hs
    have : s.id = j := by simpa using he
    rw [← this]
    exact List.mem_map_of_mem hs
  have hist := hist_init b rest hb hn
  have hfr : Fresh [] (⟨rest, false, b.map Sample.id, Bufs.first b⟩ : SyncSt α) := by
    obtain ⟨_, h2, _⟩ := first_spec b hn
    refine ⟨by simpa using hb, ?_⟩
    intro j hj
    refine ⟨rfl, ?_⟩
    obtain ⟨s, hs, rfl⟩ := List.mem_map.1 hj
    show (Bufs.first b).get s.id ≠ []
    rw [h2]
    exact List.ne_nil_of_mem (mem_ofFile hs)
  obtain ⟨fuel, gs, g, hmore, hnd, hin, hgs, hg, hnc, hres⟩ := run_groups (openStream_F h) (List.length_pos_iff.2 hb) hids _ _ _ hist.inv hfr (Or.inl (by simp)) (Nat.le_refl _)
  refine ⟨gs, g, hmore, hnd, fun j hj => (hin j hj).2, hgs, hg, hnc, ?_⟩
  rcases hres with ⟨h1, h2⟩ | ⟨h1, h2, h3⟩
  · exact Or.inl ⟨h1, fuel, h2⟩
  · refine Or.inr ⟨h1, ?_, fuel, h3⟩
    intro s hs
    have hne : ofFile s.id (b :: rest).flatten ≠ [] := List.ne_nil_of_mem (mem_ofFile hs)
    rcases h2 s.id hne with h' | h'
    · exact absurd h'.symm hne
    · exact h'

/-- C169 holds for batches of one file: if any file lacks its end, the generator raises. Missing: several files in a batch (`C169_exact_partial`). -/
theorem C169_single_partial (s : Sample α) (rest : List (List (Sample α))) (h : OpenStream ([s] :: rest)) (t : Sample α) (ht : t ∈ ([s] :: rest).flatten)
    (hc : CutOff (ofFile t.id ([s] :: rest).flatten)) : ∃ fuel out, sync fuel ([s] :: rest) = (out, .raised .runtimeError) := by
  obtain ⟨gs, g, -, -, -, hgs, hg, hnc, hres⟩ := C169_exact_partial [s] rest h
  rcases hres with ⟨-, fuel, hr⟩ | ⟨hn, hall, -⟩
  · exact ⟨fuel, _, hr⟩
  · exfalso
    have hno : ∀ x ∈ gs ++ [g], x.length ≤ 1 ∧ ¬ Cut (fun j => ofFile j ([s] :: rest).flatten) x := by
      intro x hx
      rcases List.mem_append.1 hx with hx | hx
      · exact ⟨by rw [hgs x hx]; simp, hnc x hx⟩
      · rw [List.mem_singleton.1 hx]
        exact ⟨hg, hn⟩
    obtain ⟨x, hx, htx⟩ := List.mem_flatten.1 (hall t ht)
    obtain ⟨h1, h2⟩ := hno x hx
    apply h2
    have hx1 : x = [t.id] := by
      rcases x with _ | ⟨a, _ | ⟨a', x⟩⟩
      · cases htx
      · rw [List.mem_singleton.1 htx]
      · simp at h1
    subst hx1
    exact ⟨t.id, by simp, by simp [longest], hc⟩

/-- C169 holds if all files lack their end. Missing: as in `C169_exact_partial`. -/
theorem C169_all_partial (b : List (Sample α)) (rest : List (List (Sample α))) (h : OpenStream (b :: rest)) (hc : ∀ t ∈ (b :: rest).flatten, t.eos = false) :
    ∃ fuel, sync fuel (b :: rest) = (rounds (fun j => ofFile j (b :: rest).flatten) (b.map Sample.id), .raised .runtimeError) := by
  have hb : b ≠ [] := by
    obtain ⟨b', rest', he, hb, -⟩ := h.1
    cases he
    exact hb
  have hcut : Cut (fun j => ofFile j (b :: rest).flatten) (b.map Sample.id) := by
    obtain ⟨j, hj, hl⟩ := longest_mem (fun j => ofFile j (b :: rest).flatten) (b.map Sample.id) (by simpa using hb)
    refine ⟨j, hj, hl, ?_⟩
    obtain ⟨s, hs, rfl⟩ := List.mem_map.1 hj
    have hm : s ∈ ofFile s.id (b :: rest).flatten := mem_ofFile (by simp [hs])
    cases hq : (ofFile s.id (b :: rest).flatten).getLast? with
    | none =>
      rw [List.getLast?_eq_none_iff.1 hq] at hm
      cases hm
    | some t => exact ⟨t, hq, hc t (List.mem_filter.1 (List.mem_of_getLast? hq)).1⟩
  obtain ⟨gs, g, ⟨more, hmore⟩, -, -, -, -, hnc, hres⟩ := C169_exact_partial b rest h
  rcases gs with _ | ⟨x, gs⟩
  · simp only [List.nil_append, List.cons.injEq] at hmore
    obtain ⟨rfl, -⟩ := hmore
    rcases hres with ⟨-, fuel, hr⟩ | ⟨hn, -⟩
    · exact ⟨fuel, by simpa using hr⟩
    · exact absurd hcut hn
  · simp only [List.cons_append, List.cons.injEq] at hmore
    exact absurd hcut (hmore.1 ▸ hnc x (by simp))

end

/-- Two files per batch; `b` (two chunks) ends, `a` (three chunks) does not; `c` is never reached. -/
def exCut : List (List (Sample Nat)) :=
  [[⟨[0], true, false, 1, 0, 4, "a"⟩, ⟨[5], true, false, 1, 0, 2, "b"⟩], [⟨[1], false, false, 1, 1, 4, "a"⟩, ⟨[6], false, true, 1, 1, 2, "b"⟩],
    [⟨[2], false, false, 1, 2, 4, "a"⟩, ⟨[9], true, true, 1, 0, 1, "c"⟩]]

/-- Decidable form of `OpenFile`. -/
def openFileB (x : String) (xs : List (Sample Nat)) : Bool :=
  !xs.isEmpty && (List.range xs.length).all fun k => (xs[k]?).all fun s =>
    decide (s.id = x) && (s.sos == decide (k = 0)) && (!s.eos || decide (k + 1 = xs.length))

theorem openFileB_sound (x : String) (xs : List (Sample Nat)) (h : openFileB x xs = true) : OpenFile x xs := by
  unfold openFileB at h
  rw [Bool.and_eq_true, List.all_eq_true] at h
  refine ⟨by rintro rfl; simp at h, ?_⟩
  intro k s hk
  have hlt := (List.getElem?_eq_some_iff.1 hk).1
  have := h.2 k (List.mem_range.2 hlt)
  rw [hk] at this
  simp only [Option.all_some, Bool.and_eq_true, decide_eq_true_eq, beq_iff_eq, Bool.or_eq_true, Bool.not_eq_true'] at this
  refine ⟨this.1.1, ?_, ?_⟩
  · rw [this.1.2]; simp
  · intro he
    rcases this.2 with h' | h'
    · rw [he] at h'; cases h'
    · exact h'

theorem exCut_open : OpenStream exCut := by
  refine ⟨⟨_, _, rfl, by decide, by decide⟩, ?_⟩
  intro s hs
  apply openFileB_sound
  revert s hs
  decide

-- `a` is the longest of the first group and lacks its end: the hypotheses hold and the generator raises after the group, without `c`.
example : Cut (fun j => ofFile j exCut.flatten) ["a", "b"] := ⟨"a", by decide, by decide, ⟨_, rfl, by decide⟩⟩

example : sync 20 exCut = (rounds (fun j => ofFile j exCut.flatten) ["a", "b"], .raised .runtimeError) := by decide

example : ∃ fuel out, sync fuel ([[⟨[0], true, true, 1, 0, 1, "a"⟩], [⟨[1], true, false, 1, 0, 2, "b"⟩], [⟨[2], true, true, 1, 0, 1, "c"⟩]] : List (List (Sample Nat))) =
    (out, .raised .runtimeError) :=
  C169_single_partial _ _ (by
    refine ⟨⟨_, _, rfl, by decide, by decide⟩, ?_⟩
    intro s hs
    apply openFileB_sound
    revert s hs
    decide) ⟨[1], true, false, 1, 0, 2, "b"⟩ (by decide) ⟨_, rfl, by decide⟩

end DS.Data
