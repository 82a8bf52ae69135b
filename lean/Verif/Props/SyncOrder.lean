import Verif.Spec.SyncOrder
import Verif.Lemmas.SyncMemory
import Verif.Props.Sync
import Verif.Props.SyncMemory
/-!
# C212: files start in the order in which they arrive
-/

namespace DS.Data

section
variable {α : Type}

theorem starts_append (l m : List (Sample α)) : starts (l ++ m) = starts l ++ starts m := by simp [starts]

/-- The files whose buffer begins with their first chunk, in the order of the dictionary. -/
def ready (d : Bufs α) : List String := (d.filter fun e => headSos e.2).map Prod.fst

theorem ready_keys (d : Bufs α) (h : d.keys.Nodup) : ready d = d.keys.filter fun k => headSos (d.get k) := by
  unfold ready Bufs.keys
  rw [List.filter_map]
  congr 1
  refine List.filter_congr fun e he => ?_
  simp only [Function.comp]
  rw [get_of_mem d h e he]

theorem get_nil_of_not_mem (d : Bufs α) (k : String) (h : k ∉ d.keys) : d.get k = [] := by
  by_contra hn
  exact h (mem_keys_of_get d k hn)

theorem ready_add (d : Bufs α) (hk : d.keys.Nodup) (s : Sample α) (hs : s.sos = true → s.id ∉ d.keys) :
    ready (d.set s.id (d.get s.id ++ [s])) = ready d ++ starts [s] := by
  rw [ready_keys _ (keys_set_nodup _ _ _ hk), ready_keys d hk, keys_set]
  by_cases hm : s.id ∈ d.keys
  · have hsos : s.sos = false := by
      cases h : s.sos
      · rfl
      · exact absurd hm (hs h)
    rw [if_pos hm, show starts [s] = [] by simp [starts, hsos], List.append_nil]
    refine List.filter_congr fun k _ => ?_
    rw [get_set]
    by_cases hki : k = s.id
    · subst hki
      rw [if_pos rfl]
      cases hg : d.get s.id with
      | nil => simp [headSos, hsos]
      | cons x q => simp [headSos]
    · rw [if_neg hki]
  · rw [if_neg hm, List.filter_append]
    congr 1
    · refine List.filter_congr fun k hkm => ?_
      rw [get_set, if_neg (fun h : k = s.id => hm (h ▸ hkm))]
    · rw [List.filter_singleton, get_set, if_pos rfl, get_nil_of_not_mem d _ hm]
      cases h : s.sos <;> simp [headSos, starts, h]

/-- What was read of the stream, `pre`, and the dictionary: the files that started are those that were yielded and then those that are ready. -/
structure Ord (src : List (Sample α)) (done : List String) (d : Bufs α) (rest : List (Sample α)) : Prop where
  keys : d.keys.Nodup
  split : ∃ pre, src = pre ++ rest ∧ (∀ k ∈ d.keys, ofFile k pre ≠ []) ∧ starts pre = done ++ ready d

theorem first_of_sos {src pre rest : List (Sample α)} {s : Sample α} (hw : ∀ j, ofFile j src ≠ [] → WholeFile j (ofFile j src)) (h : src = pre ++ s :: rest)
    (hs : s.sos = true) : ofFile s.id pre = [] := by
  have hf : ofFile s.id src = ofFile s.id pre ++ s :: ofFile s.id rest := by
    rw [h, ofFile_append]
    simp [ofFile]
  have := (((hw s.id (by rw [hf]; simp)).2 (ofFile s.id pre).length s (by rw [hf]; simp)).2.1).1 hs
  exact List.length_eq_zero_iff.1 this

theorem ord_add {src : List (Sample α)} (hw : ∀ j, ofFile j src ≠ [] → WholeFile j (ofFile j src)) (b : List (Sample α)) {done : List String} {d : Bufs α} {rest : List (Sample α)}
    (h : Ord src done d (b ++ rest)) : Ord src done (d.addAll b) rest ∧ ∃ more, ready (d.addAll b) = ready d ++ more := by
  induction b generalizing d with
  | nil => exact ⟨h, [], by simp [Bufs.addAll]⟩
  | cons s b ih =>
    obtain ⟨pre, h1, h2, h3⟩ := h.split
    have hs : s.sos = true → s.id ∉ d.keys := fun hs hm => h2 _ hm (first_of_sos hw (by rw [h1]; rfl) hs)
    have ha := ready_add d h.keys s hs
    rw [addAll_cons]
    have h' : Ord src done (d.set s.id (d.get s.id ++ [s])) (b ++ rest) := by
      refine ⟨keys_set_nodup _ _ _ h.keys, pre ++ [s], by rw [h1]; simp, ?_, ?_⟩
      · intro k hk
        rw [ofFile_append]
        rcases (mem_keys_set _ _ _ _).1 hk with rfl | hk
        · simp [ofFile]
        · intro hn
          exact h2 k hk (List.append_eq_nil_iff.1 hn).1
      · rw [starts_append, h3, ha, List.append_assoc]
    obtain ⟨h4, more, h5⟩ := ih h'
    exact ⟨h4, starts [s] ++ more, by rw [h5, ha, List.append_assoc]⟩

theorem ord_fill {src : List (Sample α)} (hw : ∀ j, ofFile j src ≠ [] → WholeFile j (ofFile j src)) (active : List String) (n : Nat) (empty : Bool)
    (stream : List (List (Sample α))) {done : List String} {d : Bufs α} (h : Ord src done d stream.flatten) :
    Ord src done (fill active n empty d stream).2.2 (fill active n empty d stream).1.flatten ∧ ∃ more, ready (fill active n empty d stream).2.2 = ready d ++ more := by
  induction stream generalizing d with
  | nil =>
    unfold fill
    split <;> exact ⟨h, [], by simp⟩
  | cons b bs ih =>
    unfold fill
    split
    · rw [List.flatten_cons] at h
      obtain ⟨h1, m1, e1⟩ := ord_add hw b h
      obtain ⟨h2, m2, e2⟩ := ih h1
      exact ⟨h2, m1 ++ m2, by rw [e2, e1, List.append_assoc]⟩
    · exact ⟨h, [], by simp⟩

/-- The buffer of a file that was begun does not begin with its first chunk. -/
theorem begun_not_ready {F : String → List (Sample α)} (hF : ∀ j, F j ≠ [] → WholeFile j (F j)) (k : String) (o q r : List (Sample α)) (h : o ++ (q ++ r) = F k) (ho : o ≠ []) :
    headSos q = false := by
  cases q with
  | nil => rfl
  | cons x q =>
    have hne : F k ≠ [] := by rw [← h]; simp
    have := ((hF k hne).2 o.length x (by rw [← h]; simp)).2.1
    show x.sos = false
    cases hx : x.sos
    · rfl
    · have := this.1 hx
      exact absurd (List.length_eq_zero_iff.1 this) ho

theorem ord_yield {src : List (List (Sample α))} (hw : ∀ j, ofFile j src.flatten ≠ [] → WholeFile j (ofFile j src.flatten)) {n : Nat} {out : List (List (Sample α))} {st st' : SyncSt α}
    {b : List (Sample α)} (inv : SInv (fun j => ofFile j src.flatten) n out st) (hp : (Fresh out st ∧ st.active <+: ready st.bufs) ∨ Mid (fun j => ofFile j src.flatten) out st)
    (h : Ord src.flatten (starts out.flatten) st.bufs st.stream.flatten) (hst : syncStep n st = .yield b st') (inv' : SInv (fun j => ofFile j src.flatten) n (out ++ [b]) st')
    (hb : b.map Sample.id = st.active) (hfresh : Fresh out st → ∀ s ∈ b, s.sos = true) (hmid : Mid (fun j => ofFile j src.flatten) out st → ∀ s ∈ b, s.sos = false)
    (hlen : ∀ j ∈ st.active, (ofFile j (out ++ [b]).flatten).length = (ofFile j out.flatten).length + 1) :
    Ord src.flatten (starts (out ++ [b]).flatten) st'.bufs st'.stream.flatten := by
  obtain ⟨hf1, hf2, hf3⟩ := step_yield_fields hst
  obtain ⟨ho, more, hmore⟩ := ord_fill hw st.active n st.empty st.stream h
  have hnon := fill_nonempty inv (hp.imp (·.1) id)
  obtain ⟨_, hk2, hk3, hp4⟩ := popAll_spec _ st.active inv.nodup ho.keys hnon
  have hkeys := keys_popAll (fill st.active n st.empty st.bufs st.stream).2.2 st.active inv.nodup hnon
  have hcons := fill_conserve inv
  obtain ⟨pre, h1, h2, h3⟩ := ho.split
  have hafter : ∀ k ∈ st.active, headSos (st'.bufs.get k) = false := by
    intro k hk
    refine begun_not_ready hw k _ _ _ (inv'.conserve k) ?_
    intro hz
    have := hlen k hk
    rw [hz] at this
    simp at this
  have hready : ready st'.bufs = (ready (fill st.active n st.empty st.bufs st.stream).2.2).filter fun k => !st.active.contains k := by
    have hkn : st'.bufs.keys.Nodup := by rw [hf3]; exact hk2
    rw [ready_keys _ hkn, ready_keys _ ho.keys, List.filter_filter, hf3, hkeys]
    refine List.filter_congr fun k _ => ?_
    by_cases hk : k ∈ st.active
    · have := hafter k hk
      rw [hf3] at this
      simp [this, hk]
    · rw [hp4 k, if_neg hk]
      simp [hk]
  refine ⟨by rw [hf3]; exact hk2, pre, by rw [hf1]; exact h1, ?_, ?_⟩
  · intro k hk
    rw [hf3, hkeys] at hk
    exact h2 k hk
  · rw [h3, List.flatten_append, starts_append, hready]
    simp only [List.flatten_cons, List.flatten_nil, List.append_nil, List.append_assoc]
    congr 1
    rcases hp with ⟨hf, hpre⟩ | hm
    · have hsb : starts b = st.active := by
        rw [← hb]
        unfold starts
        rw [List.filter_eq_self.2 (hfresh hf)]
      obtain ⟨t, ht⟩ := hpre
      have hR : ready (fill st.active n st.empty st.bufs st.stream).2.2 = st.active ++ (t ++ more) := by rw [hmore, ← ht, List.append_assoc]
      have hnd : (ready (fill st.active n st.empty st.bufs st.stream).2.2).Nodup := by
        rw [ready_keys _ ho.keys]
        exact ho.keys.filter _
      rw [hsb, hR]
      congr 1
      rw [hR, List.nodup_append] at hnd
      rw [List.filter_append, List.filter_eq_nil_iff.2 (by simp), List.nil_append, List.filter_eq_self.2]
      intro k hk
      simp only [Bool.not_eq_true', List.contains_eq_mem, decide_eq_false_iff_not]
      intro hka
      exact hnd.2.2 k hka k hk rfl
    · have hsb : starts b = [] := by
        unfold starts
        rw [List.filter_eq_nil_iff.2 (fun s hs => by simp [hmid hm s hs])]
        rfl
      rw [hsb, List.nil_append, List.filter_eq_self.2]
      intro k hk
      simp only [Bool.not_eq_true', List.contains_eq_mem, decide_eq_false_iff_not]
      intro hka
      rw [ready_keys _ ho.keys, List.mem_filter] at hk
      have := begun_not_ready hw k _ _ _ (hcons k) (hm k hka).1
      rw [this] at hk
      exact absurd hk.2 (by simp)

theorem ord_next {src : List (List (Sample α))} (hw : ∀ j, ofFile j src.flatten ≠ [] → WholeFile j (ofFile j src.flatten)) {n : Nat} {out : List (List (Sample α))} {st st' : SyncSt α}
    (h : Ord src.flatten (starts out.flatten) st.bufs st.stream.flatten) (hst : syncStep n st = .next st') (hk' : st'.bufs.keys.Nodup) :
    Ord src.flatten (starts out.flatten) st'.bufs st'.stream.flatten ∧ st'.active <+: ready st'.bufs := by
  obtain ⟨ha, hf1, hf2, hf3, hf4⟩ := step_next_fields hst
  obtain ⟨ho, more, hmore⟩ := ord_fill hw st.active n st.empty st.stream h
  obtain ⟨pre, h1, h2, h3⟩ := ho.split
  have hready : ready st'.bufs = ready (fill st.active n st.empty st.bufs st.stream).2.2 := by
    unfold ready
    rw [hf3, List.filter_filter]
    congr 1
    refine List.filter_congr fun e _ => ?_
    cases hq : e.2 <;> simp [headSos]
  refine ⟨⟨hk', pre, by rw [hf1]; exact h1, ?_, by rw [h3, hready]⟩, ?_⟩
  · intro k hk
    rw [hf3] at hk
    exact h2 k ((List.filter_sublist.map Prod.fst).subset hk)
  · rw [hready, hf4]
    exact List.take_prefix _ _

theorem step_stop_fields {n : Nat} (hn : 0 < n) {st : SyncSt α} (ha : st.active = []) (h : syncStep n st = .stop) :
    (fill st.active n st.empty st.bufs st.stream).2.1 = true ∧ ready (fill st.active n st.empty st.bufs st.stream).2.2 = [] := by
  unfold syncStep at h
  simp only [ha, popAll, List.isEmpty_nil, if_true] at h
  rw [ha]
  split at h
  · rename_i hc
    simp only [Bool.and_eq_true, List.isEmpty_iff] at hc
    refine ⟨hc.1, ?_⟩
    have := hc.2
    rcases List.take_eq_nil_iff.1 this with h0 | h0
    · omega
    · exact h0
  · cases h

theorem order_run {src : List (List (Sample α))} (hw : ∀ j, ofFile j src.flatten ≠ [] → WholeFile j (ofFile j src.flatten)) {n : Nat} (hn : 0 < n) (fuel : Nat)
    (out : List (List (Sample α))) (st : SyncSt α) (inv : SInv (fun j => ofFile j src.flatten) n out st)
    (hp : (Fresh out st ∧ st.active <+: ready st.bufs) ∨ Mid (fun j => ofFile j src.flatten) out st) (h : Ord src.flatten (starts out.flatten) st.bufs st.stream.flatten)
    (r : List (List (Sample α))) (e : Ended) (hr : syncRun n fuel st = (r, e)) :
    starts (out ++ r).flatten <+: starts src.flatten ∧ (e = .returned → starts (out ++ r).flatten = starts src.flatten) := by
  have hnow : starts out.flatten <+: starts src.flatten := by
    obtain ⟨pre, h1, _, h3⟩ := h.split
    rw [h1, starts_append, h3, List.append_assoc]
    exact List.prefix_append _ _
  induction fuel generalizing out st r with
  | zero =>
    cases hr
    rw [List.append_nil]
    exact ⟨hnow, fun h => by cases h⟩
  | succ m ih =>
    unfold syncRun at hr
    by_cases hne : st.active = []
    · rcases step_choose (fun j a as hj => (((hw j (by simp [hj])).2 0 a (by simp [hj])).2.1).2 rfl) hn inv hne with ⟨hstep, _⟩ | ⟨st', hstep, inv', hf, _⟩
      · rw [hstep] at hr
        cases hr
        rw [List.append_nil]
        refine ⟨hnow, fun _ => ?_⟩
        obtain ⟨h1, h2⟩ := step_stop_fields hn hne hstep
        obtain ⟨_, _, _, h4, _⟩ := fill_spec st.active n st.empty st.bufs st.stream inv.keys inv.emp
        obtain ⟨ho, _, _⟩ := ord_fill hw st.active n st.empty st.stream h
        obtain ⟨pre, h5, _, h6⟩ := ho.split
        rw [h4 h1] at h5
        simp only [List.flatten_nil, List.append_nil] at h5
        rw [h5, h6, h2, List.append_nil]
      · rw [hstep] at hr
        obtain ⟨h1, h2⟩ := ord_next hw h hstep inv'.keys
        exact ih out st' inv' (Or.inl ⟨hf, h2⟩) h1 r hr hnow
    · obtain ⟨b, st', hstep, inv', hmid, hb, hact, hfr, hmi, hlen, _⟩ := step_yield hw inv (hp.imp (·.1) id) hne
      rw [hstep] at hr
      have ho := ord_yield hw inv hp h hstep inv' hb hfr hmi hlen
      cases hq : syncRun n m st' with
      | mk r' e' =>
        simp only [hq, Prod.mk.injEq] at hr
        obtain ⟨rfl, rfl⟩ := hr
        have := ih (out ++ [b]) st' inv' (Or.inr hmid) ho r' hq (by
          obtain ⟨pre, h1, _, h3⟩ := ho.split
          rw [h1, starts_append, h3, List.append_assoc]
          exact List.prefix_append _ _)
        rwa [List.append_assoc] at this

theorem first_eq_addAll (b : List (Sample α)) (hn : (b.map Sample.id).Nodup) : Bufs.first b = Bufs.addAll [] b := by
  have key : ∀ (l : List (Sample α)) (d : Bufs α), (l.map Sample.id).Nodup → (∀ s ∈ l, d.get s.id = []) → l.foldl (fun d s => d.set s.id [s]) d = d.addAll l := by
    intro l
    induction l with
    | nil => intro d _ _; rfl
    | cons s l ih =>
      intro d hl hd
      rw [List.map_cons, List.nodup_cons] at hl
      rw [List.foldl_cons, addAll_cons, hd s (by simp), List.nil_append]
      refine ih _ hl.2 fun t ht => ?_
      rw [get_set, if_neg (fun he : t.id = s.id => hl.1 (he ▸ List.mem_map_of_mem ht))]
      exact hd t (by simp [ht])
  exact key b [] hn fun _ _ => rfl

/-- **C212.** On a well-formed stream, files start in the synchronised batches in the order in which they start in the stream: at any time those that were started are the first ones that arrive, and in the end all have been started. -/
theorem C212_order (stream : List (List (Sample α))) (h : WellFormed stream) (fuel : Nat) (out : List (List (Sample α))) (e : Ended) (hr : sync fuel stream = (out, e)) :
    starts out.flatten <+: starts stream.flatten ∧ (e = .returned → starts out.flatten = starts stream.flatten) := by
  obtain ⟨b, rest, rfl, hne, hn⟩ := h.1
  have hw := wellFormed_F h
  have hi := hist_init b rest hne hn
  have h0 : Ord (b :: rest).flatten (starts (([] : List (List (Sample α))).flatten)) ([] : Bufs α) (b ++ rest.flatten) :=
    ⟨List.nodup_nil, [], rfl, (by intro k hk; cases hk), rfl⟩
  obtain ⟨h1, more, h2⟩ := ord_add hw b h0
  have hfr : Fresh [] (⟨rest, false, b.map Sample.id, Bufs.first b⟩ : SyncSt α) := by
    obtain ⟨_, h3, _⟩ := first_spec b hn
    refine ⟨by simpa using hne, fun j hj => ⟨rfl, ?_⟩⟩
    show (Bufs.first b).get j ≠ []
    rw [h3 j]
    exact fun h0 => ofFile_nil_iff.1 h0 hj
  have hall : ready (Bufs.addAll [] b) = b.map Sample.id := by
    obtain ⟨pre, h4, _, h6⟩ := h1.split
    have hpre : pre = b := List.append_cancel_right h4.symm
    rw [hpre] at h6
    rw [show starts b = b.map Sample.id from ?_] at h6
    · exact h6.symm
    · unfold starts
      congr 1
      refine List.filter_eq_self.2 fun s hs => ?_
      obtain ⟨P, Q, hPQ⟩ := List.append_of_mem hs
      have hP : ofFile s.id P = [] := by
        refine ofFile_nil_iff.2 fun hm => ?_
        rw [hPQ, List.map_append, List.map_cons, List.nodup_append] at hn
        exact hn.2.2 _ hm _ (by simp) rfl
      have hf : ofFile s.id (b :: rest).flatten = s :: (ofFile s.id Q ++ ofFile s.id rest.flatten) := by
        rw [List.flatten_cons, hPQ, ofFile_append, ofFile_append, hP]
        simp [ofFile]
      exact ((hw s.id (by rw [hf]; simp)).2 0 s (by rw [hf]; rfl)).2.1.2 rfl
  have := order_run hw (List.length_pos_iff.2 hne) fuel [] ⟨rest, false, b.map Sample.id, Bufs.first b⟩ hi.inv
    (Or.inl ⟨hfr, by show b.map Sample.id <+: ready (Bufs.first b); rw [first_eq_addAll b hn, hall]; exact List.prefix_rfl⟩)
    (by show Ord _ _ (Bufs.first b) _; rw [first_eq_addAll b hn]; exact h1) out e hr
  simpa using this

/-- The stream of four files on which `sync` was run above: they start in the order `a`, `b`, `c`, `d` in which they arrive, and when the run is stopped after two batches `a` and `b` have started. -/
example : starts exStream.flatten = ["a", "b", "c", "d"] ∧ starts (sync 20 exStream).1.flatten = ["a", "b", "c", "d"] ∧ starts (sync 2 exStream).1.flatten = ["a", "b"] ∧
    (sync 20 exStream).2 = .returned := by decide +kernel

/-- The files of a dataset (one worker, batches of two, not shuffled) that are listed as `a`, …, `e` arrive in another order if `b` is long, since every second file is read
by the same lane; the synchroniser starts them in the order in which they arrive. -/
example : starts (zipLongest (streamsOf (fun x => exFile x (if x = "b" then 3 else 1)) 2 ["a", "b", "c", "d", "e"])).flatten = ["a", "b", "c", "e", "d"] ∧
    starts (sync 20 (zipLongest (streamsOf (fun x => exFile x (if x = "b" then 3 else 1)) 2 ["a", "b", "c", "d", "e"]))).1.flatten = ["a", "b", "c", "e", "d"] := by decide +kernel

end
end DS.Data
