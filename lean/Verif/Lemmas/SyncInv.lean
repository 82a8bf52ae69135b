import Verif.Lemmas.Sync
/-!
# The invariant of `make_streams_synchronous`
-/

namespace DS.Data

section
variable {α : Type}

/-- What has been yielded, is buffered and still to come is each file, in order; files that are not active have not started or have ended. -/
structure SInv (F : String → List (Sample α)) (n : Nat) (out : List (List (Sample α))) (st : SyncSt α) : Prop where
  conserve : ∀ j, ofFile j out.flatten ++ (st.bufs.get j ++ ofFile j st.stream.flatten) = F j
  keys : st.bufs.keys.Nodup
  nodup : st.active.Nodup
  size : st.active.length ≤ n
  emp : st.empty = true → st.stream = []
  others : ∀ j, j ∉ st.active → ofFile j out.flatten = [] ∨ ofFile j out.flatten = F j

/-- The active files are buffered but not started. -/
def Fresh (out : List (List (Sample α))) (st : SyncSt α) : Prop :=
  st.active ≠ [] ∧ ∀ j ∈ st.active, ofFile j out.flatten = [] ∧ st.bufs.get j ≠ []

/-- The active files have started and not ended. -/
def Mid (F : String → List (Sample α)) (out : List (List (Sample α))) (st : SyncSt α) : Prop :=
  ∀ j ∈ st.active, ofFile j out.flatten ≠ [] ∧ ofFile j out.flatten ≠ F j

theorem cont_false {empty : Bool} {active : List String} {d : Bufs α} {n : Nat} (h : continueBuffering empty active d n = false) :
    empty = true ∨ ((∀ i ∈ active, endBuffered (d.get i) = true) ∧
      (n : Int) - active.length ≤ (d.filter fun e => !active.contains e.1 && endBuffered e.2).length) := by
  unfold continueBuffering at h
  cases empty
  · right
    simp only [Bool.false_eq_true, if_false, Bool.or_eq_false_iff, decide_eq_false_iff_not, not_lt] at h
    refine ⟨?_, h.2⟩
    have h1 : (active.filter fun i => endBuffered (d.get i)).length = active.length :=
      Nat.le_antisymm (List.length_filter_le _ _) h.1
    exact List.length_filter_eq_length_iff.1 h1
  · exact Or.inl rfl

theorem endBuffered_ne {q : List (Sample α)} (h : endBuffered q = true) : q ≠ [] := by
  rintro rfl
  cases h

/-- After the inner loop every active file has a sample to pop. -/
theorem fill_nonempty {F : String → List (Sample α)} {n : Nat} {out : List (List (Sample α))} {st : SyncSt α} (inv : SInv F n out st)
    (hp : Fresh out st ∨ Mid F out st) :
    ∀ j ∈ st.active, (fill st.active n st.empty st.bufs st.stream).2.2.get j ≠ [] := by
  obtain ⟨_, _, h3, h4, h5⟩ := fill_spec st.active n st.empty st.bufs st.stream inv.keys inv.emp
  intro j hj
  obtain ⟨more, hm1, hm2⟩ := h3 j
  rcases hp with hf | hm
  · intro h
    rw [hm1] at h
    exact (hf.2 j hj).2 (List.append_eq_nil_iff.1 h).1
  · rcases cont_false h5 with he | ⟨ha, _⟩
    · intro h
      have hst := h4 he
      rw [hst] at hm2
      rw [hm1] at h
      obtain ⟨h6, h7⟩ := List.append_eq_nil_iff.1 h
      rw [h7] at hm2
      have hc := inv.conserve j
      rw [h6, ← hm2] at hc
      simp only [List.flatten_nil, ofFile, List.filter_nil, List.append_nil] at hc
      exact (hm j hj).2 hc
    · exact endBuffered_ne (ha j hj)

/-- The state after the inner loop, before popping. -/
theorem fill_conserve {F : String → List (Sample α)} {n : Nat} {out : List (List (Sample α))} {st : SyncSt α} (inv : SInv F n out st) :
    ∀ j, ofFile j out.flatten ++ ((fill st.active n st.empty st.bufs st.stream).2.2.get j ++
      ofFile j (fill st.active n st.empty st.bufs st.stream).1.flatten) = F j := by
  obtain ⟨_, _, h3, _, _⟩ := fill_spec st.active n st.empty st.bufs st.stream inv.keys inv.emp
  intro j
  obtain ⟨more, hm1, hm2⟩ := h3 j
  rw [hm1, List.append_assoc, hm2]
  exact inv.conserve j

theorem F_ids {F : String → List (Sample α)} (hF : ∀ j, F j ≠ [] → WholeFile j (F j)) (j : String) : ∀ s ∈ F j, s.id = j := by
  intro s hs
  exact whole_id (hF j (List.ne_nil_of_mem hs)) s hs

/-- The batch popped from active files: one sample of each, in the order of `active`. -/
theorem pop_batch {d : Bufs α} {active : List String} {b : List (Sample α)} (h : b.map some = active.map fun i => (d.get i).head?)
    (hid : ∀ j, ∀ s ∈ d.get j, s.id = j) : b.map Sample.id = active := by
  induction active generalizing b with
  | nil => simpa using h
  | cons i is ih =>
    cases b with
    | nil => simp at h
    | cons s b =>
      simp only [List.map_cons, List.cons.injEq] at h ⊢
      refine ⟨?_, ih h.2⟩
      exact hid i s (List.mem_of_mem_head? h.1.symm)

theorem pop_ofFile {d : Bufs α} {active : List String} {b : List (Sample α)} (hn : active.Nodup) (h : b.map some = active.map fun i => (d.get i).head?)
    (hid : ∀ j, ∀ s ∈ d.get j, s.id = j) (j : String) : ofFile j b = if j ∈ active then (d.get j).head?.toList else [] := by
  induction active generalizing b with
  | nil =>
    have : b = [] := by simpa using h
    subst this
    rfl
  | cons i is ih =>
    cases b with
    | nil => simp at h
    | cons s b =>
      simp only [List.map_cons, List.cons.injEq] at h
      rw [List.nodup_cons] at hn
      have hs : s.id = i := hid i s (List.mem_of_mem_head? h.1.symm)
      have hrest := ih hn.2 h.2
      have hcons : ofFile j (s :: b) = ofFile j [s] ++ ofFile j b := ofFile_append j [s] b
      rw [hcons, hrest]
      by_cases hji : j = i
      · subst hji
        rw [if_neg hn.1, if_pos (by simp), List.append_nil, ← h.1]
        simp [ofFile, hs]
      · have : ofFile j [s] = [] := by
          apply ofFile_none
          intro t ht
          rw [List.mem_singleton.1 ht, hs]
          exact fun e => hji e.symm
        rw [this, List.nil_append]
        simp [hji]

/-- A step with active files yields one sample of each. -/
theorem step_yield {F : String → List (Sample α)} (hF : ∀ j, F j ≠ [] → WholeFile j (F j)) {n : Nat} {out : List (List (Sample α))} {st : SyncSt α}
    (inv : SInv F n out st) (hp : Fresh out st ∨ Mid F out st) (hne : st.active ≠ []) :
    ∃ b st', syncStep n st = .yield b st' ∧ SInv F n (out ++ [b]) st' ∧ Mid F (out ++ [b]) st' ∧ b.map Sample.id = st.active ∧
      st'.active = (b.filter fun s => !s.eos).map Sample.id ∧ (Fresh out st → ∀ s ∈ b, s.sos = true) ∧ (Mid F out st → ∀ s ∈ b, s.sos = false) ∧
      (∀ j ∈ st.active, (ofFile j (out ++ [b]).flatten).length = (ofFile j out.flatten).length + 1) ∧
      ∀ j, j ∉ st.active → ofFile j (out ++ [b]).flatten = ofFile j out.flatten := by
  obtain ⟨hk1, _, _, h4, h5⟩ := fill_spec st.active n st.empty st.bufs st.stream inv.keys inv.emp
  have hcons := fill_conserve inv
  have hnon := fill_nonempty inv hp
  unfold syncStep
  generalize hfill : fill st.active n st.empty st.bufs st.stream = r at *
  obtain ⟨rs, re, rd⟩ := r
  simp only at *
  obtain ⟨hp1, hp2, hp3, hp4⟩ := popAll_spec rd st.active inv.nodup hk1 hnon
  generalize hpop : popAll rd st.active = p at *
  obtain ⟨b, d'⟩ := p
  simp only at *
  have hid : ∀ j, ∀ s ∈ rd.get j, s.id = j := by
    intro j s hs
    apply F_ids hF j s
    rw [← hcons j]
    simp [hs]
  have hb : b.map Sample.id = st.active := pop_batch hp1 hid
  have hbne : b.isEmpty = false := by
    cases b with
    | nil => exact absurd hb.symm hne
    | cons _ _ => rfl
  rw [hbne]
  simp only [Bool.false_eq_true, if_false]
  have hof : ∀ j, ofFile j b = if j ∈ st.active then (rd.get j).head?.toList else [] := pop_ofFile inv.nodup hp1 hid
  have hout : ∀ j, ofFile j (out ++ [b]).flatten = ofFile j out.flatten ++ ofFile j b := by
    intro j
    rw [List.flatten_append, List.flatten_singleton, ofFile_append]
  -- position of the popped sample within its file
  have hat : ∀ s ∈ b, s.id ∈ st.active ∧ (rd.get s.id).head? = some s ∧ (F s.id)[(ofFile s.id out.flatten).length]? = some s ∧
      (ofFile s.id (out ++ [b]).flatten) = ofFile s.id out.flatten ++ [s] := by
    intro s hs
    have hsa : s.id ∈ st.active := hb ▸ List.mem_map_of_mem hs
    have hh : ofFile s.id b = (rd.get s.id).head?.toList := by rw [hof, if_pos hsa]
    have hsm : s ∈ ofFile s.id b := List.mem_filter.2 ⟨hs, by simp⟩
    have hhead : (rd.get s.id).head? = some s := by
      rw [hh] at hsm
      simpa using hsm
    refine ⟨hsa, hhead, ?_, ?_⟩
    · rw [← hcons s.id, List.getElem?_append_right (Nat.le_refl _), Nat.sub_self]
      cases hg : rd.get s.id with
      | nil => rw [hg] at hhead; cases hhead
      | cons a as =>
        rw [hg] at hhead
        simpa using hhead
    · rw [hout, hh, hhead]
      rfl
  have hwhole : ∀ s ∈ b, WholeFile s.id (F s.id) := by
    intro s hs
    apply hF
    intro h
    have := (hat s hs).2.2.1
    rw [h] at this
    simp at this
  have hsos : ∀ s ∈ b, (s.sos = true ↔ ofFile s.id out.flatten = []) := by
    intro s hs
    rw [((hwhole s hs).2 _ s (hat s hs).2.2.1).2.1, List.length_eq_zero_iff]
  have heos : ∀ s ∈ b, (s.eos = true ↔ ofFile s.id (out ++ [b]).flatten = F s.id) := by
    intro s hs
    obtain ⟨h1, h2, h3, h6⟩ := hat s hs
    rw [((hwhole s hs).2 _ s h3).2.2, h6]
    constructor
    · intro hl
      have hc := hcons s.id
      cases hg : rd.get s.id with
      | nil => rw [hg] at h2; cases h2
      | cons a as =>
        rw [hg] at h2 hc
        simp only [List.head?_cons, Option.some.injEq] at h2
        subst h2
        rw [← hc] at hl ⊢
        simp only [List.length_append, List.length_cons] at hl
        have : as = [] ∧ ofFile a.id rs.flatten = [] := by
          refine ⟨List.length_eq_zero_iff.1 (by omega), List.length_eq_zero_iff.1 (by omega)⟩
        rw [this.1, this.2]
        simp
    · intro heq
      rw [← heq]
      simp
  refine ⟨b, _, rfl, ⟨?_, hp2, ?_, ?_, h4, ?_⟩, ?_, hb, rfl, ?_, ?_, ?_, ?_⟩
  · intro j
    rw [hout, hof, hp4, ← hcons j]
    by_cases hj : j ∈ st.active
    · rw [if_pos hj, if_pos hj]
      have := hnon j hj
      cases hg : rd.get j with
      | nil => exact absurd hg this
      | cons a as => simp
    · simp [hj]
  · have h1 : ((b.filter fun s => !s.eos).map Sample.id).Sublist (b.map Sample.id) := List.filter_sublist.map _
    exact h1.nodup (hb ▸ inv.nodup)
  · show ((b.filter fun s => !s.eos).map Sample.id).length ≤ n
    have h1 : ((b.filter fun s => !s.eos).map Sample.id).length ≤ (b.map Sample.id).length := (List.filter_sublist.map _).length_le
    rw [hb] at h1
    exact Nat.le_trans h1 inv.size
  · intro j hj
    by_cases hja : j ∈ st.active
    · right
      rw [← hb] at hja
      obtain ⟨s, hs, rfl⟩ := List.mem_map.1 hja
      rw [← heos s hs]
      by_contra hne'
      exact hj (List.mem_map_of_mem (List.mem_filter.2 ⟨hs, by simpa using hne'⟩))
    · rw [hout, hof, if_neg hja, List.append_nil]
      exact inv.others j hja
  · intro j hj
    obtain ⟨s, hs, rfl⟩ := List.mem_map.1 hj
    obtain ⟨hs, hse⟩ := List.mem_filter.1 hs
    refine ⟨by rw [(hat s hs).2.2.2]; simp, ?_⟩
    intro heq
    rw [← heos s hs] at heq
    simp [heq] at hse
  · intro hfr s hs
    rw [hsos s hs]
    exact (hfr.2 s.id (hat s hs).1).1
  · intro hmid s hs
    have := (hmid s.id (hat s hs).1).1
    rw [Ne, ← hsos s hs] at this
    simpa using this
  · intro j hj
    rw [← hb] at hj
    obtain ⟨s, hs, rfl⟩ := List.mem_map.1 hj
    rw [(hat s hs).2.2.2]
    simp
  · intro j hj
    rw [hout, hof, if_neg hj, List.append_nil]

theorem sublist_mem_take {β : Type} {l : List β} {n : Nat} (h : (l.take n).length < n) : l.take n = l := by
  rw [List.take_of_length_le]
  rw [List.length_take] at h
  omega

/-- A step without active files starts a new group or stops. -/
theorem step_choose {F : String → List (Sample α)} (hF : ∀ j a as, F j = a :: as → a.sos = true) {n : Nat} (hn : 0 < n) {out : List (List (Sample α))} {st : SyncSt α}
    (inv : SInv F n out st) (ha : st.active = []) :
    (syncStep n st = .stop ∧ ∀ j, ofFile j out.flatten = F j) ∨
    (∃ st', syncStep n st = .next st' ∧ SInv F n out st' ∧ Fresh out st' ∧
      (st'.active.length = n ∨ ∀ j, j ∉ st'.active → ofFile j out.flatten = F j)) := by
  obtain ⟨hk1, _, _, h4, h5⟩ := fill_spec st.active n st.empty st.bufs st.stream inv.keys inv.emp
  have hcons := fill_conserve inv
  have hoth := inv.others
  have hstep : syncStep n st = (if ((fill [] n st.empty st.bufs st.stream).2.1 && ((((fill [] n st.empty st.bufs st.stream).2.2.filter fun e => headSos e.2).map Prod.fst).take n).isEmpty) = true then SyncStep.stop
      else SyncStep.next ⟨(fill [] n st.empty st.bufs st.stream).1, (fill [] n st.empty st.bufs st.stream).2.1, (((fill [] n st.empty st.bufs st.stream).2.2.filter fun e => headSos e.2).map Prod.fst).take n, (fill [] n st.empty st.bufs st.stream).2.2.filter fun e => !e.2.isEmpty⟩) := by
    unfold syncStep
    rw [ha]
    rfl
  rw [hstep]
  rw [ha] at h5 hk1 h4 hcons hoth
  clear hstep
  generalize hfill : fill [] n st.empty st.bufs st.stream = r at *
  obtain ⟨rs, re, rd⟩ := r
  simp only at hk1 h4 h5 hcons
  -- the head of a buffer starts its file
  have hhead : ∀ j, rd.get j ≠ [] → headSos (rd.get j) = true ∧ ofFile j out.flatten = [] ∧ F j ≠ [] := by
    intro j hj
    have hc := hcons j
    cases hg : rd.get j with
    | nil => exact absurd hg hj
    | cons a as =>
      have h0 : ofFile j out.flatten = [] := by
        rcases hoth j (by simp) with h | h
        · exact h
        · rw [h, hg] at hc
          have := congrArg List.length hc
          simp at this
      rw [h0, hg, List.nil_append] at hc
      have hFne : F j ≠ [] := by rw [← hc]; simp
      refine ⟨?_, h0, hFne⟩
      exact hF j a _ hc.symm
  have hmem : ∀ j, j ∈ (rd.filter fun e => headSos e.2).map Prod.fst ↔ rd.get j ≠ [] := by
    intro j
    constructor
    · intro h
      obtain ⟨e, he, rfl⟩ := List.mem_map.1 h
      obtain ⟨he, hs⟩ := List.mem_filter.1 he
      rw [get_of_mem rd hk1 e he]
      intro h0
      rw [h0] at hs
      cases hs
    · intro h
      have hjk := mem_keys_of_get rd j h
      obtain ⟨e, he, rfl⟩ := List.mem_map.1 hjk
      refine List.mem_map_of_mem (List.mem_filter.2 ⟨he, ?_⟩)
      have := (hhead _ h).1
      rwa [get_of_mem rd hk1 e he] at this
  have hcn : ((rd.filter fun e => headSos e.2).map Prod.fst).Nodup := by
    have : ((rd.filter fun e => headSos e.2).map Prod.fst).Sublist (rd.map Prod.fst) := List.filter_sublist.map _
    exact this.nodup hk1
  -- a buffer whose file is complete counts as a candidate
  have hcount : ((rd.filter fun e => !([] : List String).contains e.1 && endBuffered e.2).length) ≤ ((rd.filter fun e => headSos e.2).map Prod.fst).length := by
    rw [List.length_map]
    apply List.Sublist.length_le
    have himp : ∀ e ∈ rd, (!([] : List String).contains e.1 && endBuffered e.2) = true → headSos e.2 = true := by
      intro e he h
      simp only [List.contains_nil, Bool.not_false, Bool.true_and] at h
      have hne := endBuffered_ne h
      rw [← get_of_mem rd hk1 e he] at hne ⊢
      exact (hhead _ hne).1
    have heq : rd.filter (fun e => !([] : List String).contains e.1 && endBuffered e.2) =
        (rd.filter fun e => headSos e.2).filter fun e => !([] : List String).contains e.1 && endBuffered e.2 := by
      rw [List.filter_filter]
      apply List.filter_congr
      intro e he
      cases h : (!([] : List String).contains e.1 && endBuffered e.2)
      · rfl
      · rw [himp e he h]; rfl
    rw [heq]
    exact List.filter_sublist
  obtain ⟨cand, hcand⟩ : ∃ c, c = (rd.filter fun e => headSos e.2).map Prod.fst := ⟨_, rfl⟩
  rw [← hcand] at hcn hcount
  simp only [← hcand] at hmem
  show ((if (re && (((rd.filter fun e => headSos e.2).map Prod.fst).take n).isEmpty) = true then SyncStep.stop
      else SyncStep.next ⟨rs, re, ((rd.filter fun e => headSos e.2).map Prod.fst).take n, rd.filter fun e => !e.2.isEmpty⟩) = _ ∧ _) ∨ (∃ st', (if (re && (((rd.filter fun e => headSos e.2).map Prod.fst).take n).isEmpty) = true then SyncStep.stop
      else SyncStep.next ⟨rs, re, ((rd.filter fun e => headSos e.2).map Prod.fst).take n, rd.filter fun e => !e.2.isEmpty⟩) = _ ∧ _)
  have hgoal : (if (re && (((rd.filter fun e => headSos e.2).map Prod.fst).take n).isEmpty) = true then SyncStep.stop
      else SyncStep.next ⟨rs, re, ((rd.filter fun e => headSos e.2).map Prod.fst).take n, rd.filter fun e => !e.2.isEmpty⟩) =
      (if (re && (cand.take n).isEmpty) = true then SyncStep.stop else SyncStep.next ⟨rs, re, cand.take n, rd.filter fun e => !e.2.isEmpty⟩) := by
    rw [hcand]
  rw [hgoal]
  by_cases hstop : (re && (cand.take n).isEmpty) = true
  · left
    rw [if_pos hstop]
    refine ⟨rfl, ?_⟩
    simp only [Bool.and_eq_true, List.isEmpty_iff] at hstop
    intro j
    have hnil : cand = [] := by
      have : (cand.take n).length < n := by rw [hstop.2]; exact hn
      rw [← sublist_mem_take this]
      exact hstop.2
    have hgj : rd.get j = [] := by
      by_contra h
      have := (hmem j).2 h
      rw [hnil] at this
      cases this
    have hc := hcons j
    rw [hgj, h4 hstop.1] at hc
    simpa [ofFile] using hc
  · right
    rw [if_neg hstop]
    refine ⟨_, rfl, ⟨?_, ?_, ?_, ?_, h4, ?_⟩, ⟨?_, ?_⟩, ?_⟩
    · intro j
      show _ ++ (Bufs.get (rd.filter fun e => !e.2.isEmpty) j ++ _) = _
      rw [show Bufs.get (rd.filter fun e => !e.2.isEmpty) j = rd.get j from ?_]
      · exact hcons j
      · exact get_filter rd hk1 j
    · have : ((rd.filter fun e => !e.2.isEmpty).map Prod.fst).Sublist (rd.map Prod.fst) := List.filter_sublist.map _
      exact this.nodup hk1
    · exact (List.take_sublist n cand).nodup hcn
    · show (cand.take n).length ≤ n
      rw [List.length_take]
      omega
    · intro j _
      exact hoth j (by simp)
    · show cand.take n ≠ []
      intro hnil
      rcases cont_false h5 with he | ⟨_, he⟩
      · exact hstop (by rw [he, hnil]; rfl)
      · have : (cand.take n).length = 0 := by rw [hnil]; rfl
        rw [List.length_take] at this
        simp only [List.length_nil, Nat.cast_zero, sub_zero] at he
        omega
    · intro j hj
      have hj' : j ∈ cand := (List.take_sublist n cand).subset hj
      have hg := (hmem j).1 hj'
      refine ⟨(hhead j hg).2.1, ?_⟩
      show Bufs.get (rd.filter fun e => !e.2.isEmpty) j ≠ []
      rw [get_filter rd hk1 j]
      exact hg
    · by_cases hlen : (cand.take n).length = n
      · exact Or.inl hlen
      · right
        have hlt : (cand.take n).length < n := by
          have : (cand.take n).length ≤ n := by rw [List.length_take]; omega
          omega
        have hall := sublist_mem_take hlt
        intro j hj
        have hgj : rd.get j = [] := by
          by_contra h
          apply hj
          show j ∈ cand.take n
          rw [hall]
          exact (hmem j).2 h
        rcases cont_false h5 with he | ⟨_, he⟩
        · have hc := hcons j
          rw [hgj, h4 he] at hc
          simpa [ofFile] using hc
        · rw [hall] at hlt
          simp only [List.length_nil, Nat.cast_zero, sub_zero] at he
          omega
where
  get_filter (d : Bufs α) (hk : d.keys.Nodup) (j : String) : Bufs.get (d.filter fun e => !e.2.isEmpty) j = d.get j := by
    induction d with
    | nil => rfl
    | cons e es ih =>
      have hn := List.nodup_cons.1 (show (e.1 :: Bufs.keys es).Nodup from hk)
      rw [List.filter_cons]
      by_cases he : e.2 = []
      · rw [if_neg (by simp [he]), ih hn.2, get_cons]
        by_cases hj : j = e.1
        · rw [if_pos hj, he, hj]
          by_contra hne
          exact hn.1 (mem_keys_of_get es _ hne)
        · rw [if_neg hj]
      · rw [if_pos (by simpa using he), get_cons, get_cons, ih hn.2]

end
end DS.Data
