import Verif.Props.Sync
import Verif.Spec.Repeat
/-!
# The invariant of `make_streams_synchronous` for streams in which files come again
-/

namespace DS.Data

section
variable {α : Type}

/-- Nothing yet, or the last sample is an end. -/
def Closed (xs : List (Sample α)) : Prop := ∀ s, xs.getLast? = some s → s.eos = true

/-- All samples are of `x`, and exactly those start that come at the beginning or after an end. -/
def Starts (x : String) (xs : List (Sample α)) : Prop := ∀ pre s post, xs = pre ++ s :: post → s.id = x ∧ (s.sos = true ↔ Closed pre)

theorem closed_nil : Closed ([] : List (Sample α)) := by
  intro s h
  cases h

theorem closed_snoc (xs : List (Sample α)) (s : Sample α) : Closed (xs ++ [s]) ↔ s.eos = true := by
  unfold Closed
  simp

theorem closed_append {xs ys : List (Sample α)} (h : Closed xs) (h' : Closed ys) : Closed (xs ++ ys) := by
  rcases List.eq_nil_or_concat ys with rfl | ⟨q, t, rfl⟩
  · simpa using h
  · rw [List.concat_eq_append] at *
    rw [← List.append_assoc, closed_snoc]
    exact (closed_snoc q t).1 h'

theorem whole_closed {x : String} {xs : List (Sample α)} (h : WholeFile x xs) : Closed xs := by
  intro s hs
  rw [List.getLast?_eq_getElem?] at hs
  have hpos := List.length_pos_iff.2 h.1
  exact (h.2 _ s hs).2.2.2 (by omega)

theorem whole_open {x : String} {xs : List (Sample α)} (h : WholeFile x xs) (pre : List (Sample α)) (s : Sample α) (post : List (Sample α)) (e : xs = pre ++ s :: post) :
    s.id = x ∧ (s.sos = true ↔ pre = []) ∧ (pre ≠ [] → ¬ Closed pre) := by
  have hk : xs[pre.length]? = some s := by rw [e]; simp
  obtain ⟨h1, h2, _⟩ := h.2 _ s hk
  refine ⟨h1, h2.trans List.length_eq_zero_iff, ?_⟩
  intro hne hc
  rcases List.eq_nil_or_concat pre with rfl | ⟨q, t, rfl⟩
  · exact hne rfl
  · rw [List.concat_eq_append] at *
    have ht := (closed_snoc q t).1 hc
    have hkt : xs[q.length]? = some t := by rw [e]; simp
    have := (h.2 _ t hkt).2.2.1 ht
    rw [e] at this
    simp at this

theorem copies_starts {x : String} {xs : List (Sample α)} (h : Copies x xs) : Starts x xs ∧ Closed xs := by
  obtain ⟨parts, rfl, hp⟩ := h
  have key : ∀ (parts : List (List (Sample α))) (done : List (Sample α)), Closed done → (∀ p ∈ parts, WholeFile x p) →
      (∀ pre s post, parts.flatten = pre ++ s :: post → s.id = x ∧ (s.sos = true ↔ Closed (done ++ pre))) ∧ Closed (done ++ parts.flatten) := by
    intro parts
    induction parts with
    | nil =>
      intro done hd _
      refine ⟨fun pre s post e => by simp at e, by simpa using hd⟩
    | cons p ps ih =>
      intro done hd hp
      have hw := hp p (by simp)
      obtain ⟨i1, i2⟩ := ih (done ++ p) (closed_append hd (whole_closed hw)) fun q hq => hp q (by simp [hq])
      refine ⟨?_, by rw [List.flatten_cons, ← List.append_assoc]; exact i2⟩
      intro pre s post e
      rw [List.flatten_cons, List.append_eq_append_iff] at e
      rcases e with ⟨as, e1, e2⟩ | ⟨bs, e1, e2⟩
      · rw [e1, ← List.append_assoc]
        exact i1 as s post e2
      · cases bs with
        | nil =>
          simp only [List.append_nil, List.nil_append] at e1 e2
          have := i1 [] s post (by rw [← e2]; rfl)
          rw [List.append_nil, e1] at this
          exact this
        | cons s' bs' =>
          simp only [List.cons_append, List.cons.injEq] at e2
          obtain ⟨rfl, -⟩ := e2
          obtain ⟨h1, h2, h3⟩ := whole_open hw pre s bs' e1
          refine ⟨h1, h2.trans ⟨?_, ?_⟩⟩
          · rintro rfl
            simpa using hd
          · intro hc
            by_contra hne
            apply h3 hne
            rcases List.eq_nil_or_concat pre with rfl | ⟨q, t, rfl⟩
            · exact absurd rfl hne
            · rw [List.concat_eq_append] at *
              rw [← List.append_assoc, closed_snoc] at hc
              exact (closed_snoc q t).2 hc
  obtain ⟨k1, k2⟩ := key parts [] closed_nil hp
  exact ⟨fun pre s post e => by simpa using k1 pre s post e, by simpa using k2⟩

/-- What has been yielded, is buffered and still to come is each file, in order; sequences of files that are not active have ended. -/
structure RInv (F : String → List (Sample α)) (n : Nat) (out : List (List (Sample α))) (st : SyncSt α) : Prop where
  conserve : ∀ j, ofFile j out.flatten ++ (st.bufs.get j ++ ofFile j st.stream.flatten) = F j
  keys : st.bufs.keys.Nodup
  nodup : st.active.Nodup
  size : st.active.length ≤ n
  emp : st.empty = true → st.stream = []
  others : ∀ j, j ∉ st.active → Closed (ofFile j out.flatten)

/-- The active files are buffered but not started. -/
def FreshR (out : List (List (Sample α))) (st : SyncSt α) : Prop :=
  st.active ≠ [] ∧ ∀ j ∈ st.active, Closed (ofFile j out.flatten) ∧ st.bufs.get j ≠ []

/-- The active files have started and not ended. -/
def MidR (out : List (List (Sample α))) (st : SyncSt α) : Prop := ∀ j ∈ st.active, ¬ Closed (ofFile j out.flatten)

theorem fillR_conserve {F : String → List (Sample α)} {n : Nat} {out : List (List (Sample α))} {st : SyncSt α} (inv : RInv F n out st) :
    ∀ j, ofFile j out.flatten ++ ((fill st.active n st.empty st.bufs st.stream).2.2.get j ++
      ofFile j (fill st.active n st.empty st.bufs st.stream).1.flatten) = F j := by
  obtain ⟨_, _, h3, _, _⟩ := fill_spec st.active n st.empty st.bufs st.stream inv.keys inv.emp
  intro j
  obtain ⟨more, hm1, hm2⟩ := h3 j
  rw [hm1, List.append_assoc, hm2]
  exact inv.conserve j

theorem fillR_nonempty {F : String → List (Sample α)} (hF : ∀ j, Closed (F j)) {n : Nat} {out : List (List (Sample α))} {st : SyncSt α} (inv : RInv F n out st)
    (hp : FreshR out st ∨ MidR out st) : ∀ j ∈ st.active, (fill st.active n st.empty st.bufs st.stream).2.2.get j ≠ [] := by
  obtain ⟨_, _, h3, h4, h5⟩ := fill_spec st.active n st.empty st.bufs st.stream inv.keys inv.emp
  have hcons := fillR_conserve inv
  intro j hj
  obtain ⟨more, hm1, hm2⟩ := h3 j
  rcases hp with hf | hm
  · intro h
    rw [hm1] at h
    exact (hf.2 j hj).2 (List.append_eq_nil_iff.1 h).1
  · rcases cont_false h5 with he | ⟨ha, _⟩
    · intro h
      have hc := hcons j
      rw [h, h4 he] at hc
      simp only [List.flatten_nil, ofFile, List.filter_nil, List.append_nil] at hc
      exact hm j hj (by rw [show ofFile j out.flatten = F j from hc]; exact hF j)
    · exact endBuffered_ne (ha j hj)

/-- A step with active files yields one sample of each. -/
theorem stepR_yield {F : String → List (Sample α)} (hF : ∀ j, Starts j (F j) ∧ Closed (F j)) {n : Nat} {out : List (List (Sample α))} {st : SyncSt α}
    (inv : RInv F n out st) (hp : FreshR out st ∨ MidR out st) (hne : st.active ≠ []) :
    ∃ b st', syncStep n st = .yield b st' ∧ RInv F n (out ++ [b]) st' ∧ MidR (out ++ [b]) st' ∧ b.map Sample.id = st.active ∧
      st'.active = unfinished b ∧ (FreshR out st → ∀ s ∈ b, s.sos = true) ∧ (MidR out st → ∀ s ∈ b, s.sos = false) ∧
      (∀ j ∈ st.active, (ofFile j (out ++ [b]).flatten).length = (ofFile j out.flatten).length + 1) ∧
      ∀ j, j ∉ st.active → ofFile j (out ++ [b]).flatten = ofFile j out.flatten := by
  obtain ⟨hk1, _, _, h4, h5⟩ := fill_spec st.active n st.empty st.bufs st.stream inv.keys inv.emp
  have hcons := fillR_conserve inv
  have hnon := fillR_nonempty (fun j => (hF j).2) inv hp
  unfold syncStep
  generalize hfill : fill st.active n st.empty st.bufs st.stream = r at *
  obtain ⟨rs, re, rd⟩ := r
  simp only at *
  obtain ⟨hp1, hp2, hp3, hp4⟩ := popAll_spec rd st.active inv.nodup hk1 hnon
  generalize hpop : popAll rd st.active = p at *
  obtain ⟨b, d'⟩ := p
  simp only at *
  have hid : ∀ j, ∀ s ∈ rd.get j, s.id = j := by
    intro j s hs
    have hmem : s ∈ F j := by rw [← hcons j]; simp [hs]
    obtain ⟨pre, post, e⟩ := List.append_of_mem hmem
    exact ((hF j).1 pre s post e).1
  have hb : b.map Sample.id = st.active := pop_batch hp1 hid
  have hbne : b.isEmpty = false := by
    cases b with
    | nil => exact absurd hb.symm hne
    | cons _ _ => rfl
  rw [hbne]
  simp only [Bool.false_eq_true, if_false]
  have hof : ∀ j, ofFile j b = if j ∈ st.active then (rd.get j).head?.toList else [] := pop_ofFile inv.nodup hp1 hid
  have hout : ∀ j, ofFile j (out ++ [b]).flatten = ofFile j out.flatten ++ ofFile j b := by
    intro j
    rw [List.flatten_append, List.flatten_singleton, ofFile_append]
  have hat : ∀ s ∈ b, s.id ∈ st.active ∧ (s.sos = true ↔ Closed (ofFile s.id out.flatten)) ∧ ofFile s.id (out ++ [b]).flatten = ofFile s.id out.flatten ++ [s] := by
    intro s hs
    have hsa : s.id ∈ st.active := hb ▸ List.mem_map_of_mem hs
    have hh : ofFile s.id b = (rd.get s.id).head?.toList := by rw [hof, if_pos hsa]
    have hsm : s ∈ ofFile s.id b := List.mem_filter.2 ⟨hs, by simp⟩
    have hhead : (rd.get s.id).head? = some s := by
      rw [hh] at hsm
      simpa using hsm
    refine ⟨hsa, ?_, by rw [hout, hh, hhead]; rfl⟩
    have hc := hcons s.id
    cases hg : rd.get s.id with
    | nil => rw [hg] at hhead; cases hhead
    | cons a as =>
      rw [hg] at hhead hc
      simp only [List.head?_cons, Option.some.injEq] at hhead
      subst hhead
      exact ((hF a.id).1 _ a _ (by rw [← hc]; simp; rfl)).2
  refine ⟨b, _, rfl, ⟨?_, hp2, ?_, ?_, h4, ?_⟩, ?_, hb, rfl, ?_, ?_, ?_, ?_⟩
  · intro j
    rw [hout, hof, hp4, ← hcons j]
    by_cases hj : j ∈ st.active
    · rw [if_pos hj, if_pos hj]
      have := hnon j hj
      cases hg : rd.get j with
      | nil => exact absurd hg this
      | cons a as => simp
    · simp [hj]
  · have h1 : ((b.filter fun s => !s.eos).map Sample.id).Sublist (b.map Sample.id) := List.filter_sublist.map _
    exact h1.nodup (hb ▸ inv.nodup)
  · show ((b.filter fun s => !s.eos).map Sample.id).length ≤ n
    have h1 : ((b.filter fun s => !s.eos).map Sample.id).length ≤ (b.map Sample.id).length := (List.filter_sublist.map _).length_le
    rw [hb] at h1
    exact Nat.le_trans h1 inv.size
  · intro j hj
    by_cases hja : j ∈ st.active
    · rw [← hb] at hja
      obtain ⟨s, hs, rfl⟩ := List.mem_map.1 hja
      rw [(hat s hs).2.2, closed_snoc]
      by_contra hne'
      exact hj (List.mem_map_of_mem (List.mem_filter.2 ⟨hs, by simpa using hne'⟩))
    · rw [hout, hof, if_neg hja, List.append_nil]
      exact inv.others j hja
  · intro j hj
    obtain ⟨s, hs, rfl⟩ := List.mem_map.1 hj
    obtain ⟨hs, hse⟩ := List.mem_filter.1 hs
    rw [(hat s hs).2.2, closed_snoc]
    simpa using hse
  · intro hfr s hs
    exact (hat s hs).2.1.2 (hfr.2 s.id (hat s hs).1).1
  · intro hmid s hs
    have := hmid s.id (hat s hs).1
    rw [← (hat s hs).2.1] at this
    simpa using this
  · intro j hj
    rw [← hb] at hj
    obtain ⟨s, hs, rfl⟩ := List.mem_map.1 hj
    rw [(hat s hs).2.2]
    simp
  · intro j hj
    rw [hout, hof, if_neg hj, List.append_nil]

/-- A step without active files starts a new group or stops. -/
theorem stepR_choose {F : String → List (Sample α)} (hF : ∀ j, Starts j (F j) ∧ Closed (F j)) {n : Nat} (hn : 0 < n) {out : List (List (Sample α))} {st : SyncSt α}
    (inv : RInv F n out st) (ha : st.active = []) :
    (syncStep n st = .stop ∧ ∀ j, ofFile j out.flatten = F j) ∨
    (∃ st', syncStep n st = .next st' ∧ RInv F n out st' ∧ FreshR out st' ∧
      (st'.active.length = n ∨ ∀ j, j ∉ st'.active → ofFile j out.flatten = F j)) := by
  obtain ⟨hk1, _, _, h4, h5⟩ := fill_spec st.active n st.empty st.bufs st.stream inv.keys inv.emp
  have hcons := fillR_conserve inv
  have hoth := inv.others
  have hstep : syncStep n st = (if ((fill [] n st.empty st.bufs st.stream).2.1 && ((((fill [] n st.empty st.bufs st.stream).2.2.filter fun e => headSos e.2).map Prod.fst).take n).isEmpty) = true then SyncStep.stop
      else SyncStep.next ⟨(fill [] n st.empty st.bufs st.stream).1, (fill [] n st.empty st.bufs st.stream).2.1, (((fill [] n st.empty st.bufs st.stream).2.2.filter fun e => headSos e.2).map Prod.fst).take n, (fill [] n st.empty st.bufs st.stream).2.2.filter fun e => !e.2.isEmpty⟩) := by
    unfold syncStep
    rw [ha]
    rfl
  rw [hstep]
  rw [ha] at h5 hk1 h4 hcons hoth
  clear hstep
  generalize hfill : fill [] n st.empty st.bufs st.stream = r at *
  obtain ⟨rs, re, rd⟩ := r
  simp only at hk1 h4 h5 hcons
  have hhead : ∀ j, rd.get j ≠ [] → headSos (rd.get j) = true := by
    intro j hj
    have hc := hcons j
    cases hg : rd.get j with
    | nil => exact absurd hg hj
    | cons a as =>
      rw [hg] at hc
      exact ((hF j).1 _ a (as ++ ofFile j rs.flatten) (by rw [← hc]; simp)).2.2 (hoth j (by simp))
  have hmem : ∀ j, j ∈ (rd.filter fun e => headSos e.2).map Prod.fst ↔ rd.get j ≠ [] := by
    intro j
    constructor
    · intro h
      obtain ⟨e, he, rfl⟩ := List.mem_map.1 h
      obtain ⟨he, hs⟩ := List.mem_filter.1 he
      rw [get_of_mem rd hk1 e he]
      intro h0
      rw [h0] at hs
      cases hs
    · intro h
      have hjk := mem_keys_of_get rd j h
      obtain ⟨e, he, rfl⟩ := List.mem_map.1 hjk
      refine List.mem_map_of_mem (List.mem_filter.2 ⟨he, ?_⟩)
      have := hhead _ h
      rwa [get_of_mem rd hk1 e he] at this
  have hcn : ((rd.filter fun e => headSos e.2).map Prod.fst).Nodup := by
    have : ((rd.filter fun e => headSos e.2).map Prod.fst).Sublist (rd.map Prod.fst) := List.filter_sublist.map _
    exact this.nodup hk1
  have hcount : ((rd.filter fun e => !([] : List String).contains e.1 && endBuffered e.2).length) ≤ ((rd.filter fun e => headSos e.2).map Prod.fst).length := by
    rw [List.length_map]
    apply List.Sublist.length_le
    have himp : ∀ e ∈ rd, (!([] : List String).contains e.1 && endBuffered e.2) = true → headSos e.2 = true := by
      intro e he h
      simp only [List.contains_nil, Bool.not_false, Bool.true_and] at h
      have hne := endBuffered_ne h
      rw [← get_of_mem rd hk1 e he] at hne ⊢
      exact hhead _ hne
    have heq : rd.filter (fun e => !([] : List String).contains e.1 && endBuffered e.2) =
        (rd.filter fun e => headSos e.2).filter fun e => !([] : List String).contains e.1 && endBuffered e.2 := by
      rw [List.filter_filter]
      apply List.filter_congr
      intro e he
      cases h : (!([] : List String).contains e.1 && endBuffered e.2)
      · rfl
      · rw [himp e he h]; rfl
    rw [heq]
    exact List.filter_sublist
  obtain ⟨cand, hcand⟩ : ∃ c, c = (rd.filter fun e => headSos e.2).map Prod.fst := ⟨_, rfl⟩
  rw [← hcand] at hcn hcount
  simp only [← hcand] at hmem
  show ((if (re && (((rd.filter fun e => headSos e.2).map Prod.fst).take n).isEmpty) = true then SyncStep.stop
      else SyncStep.next ⟨rs, re, ((rd.filter fun e => headSos e.2).map Prod.fst).take n, rd.filter fun e => !e.2.isEmpty⟩) = _ ∧ _) ∨ (∃ st', (if (re && (((rd.filter fun e => headSos e.2).map Prod.fst).take n).isEmpty) = true then SyncStep.stop
      else SyncStep.next ⟨rs, re, ((rd.filter fun e => headSos e.2).map Prod.fst).take n, rd.filter fun e => !e.2.isEmpty⟩) = _ ∧ _)
  have hgoal : (if (re && (((rd.filter fun e => headSos e.2).map Prod.fst).take n).isEmpty) = true then SyncStep.stop
      else SyncStep.next ⟨rs, re, ((rd.filter fun e => headSos e.2).map Prod.fst).take n, rd.filter fun e => !e.2.isEmpty⟩) =
      (if (re && (cand.take n).isEmpty) = true then SyncStep.stop else SyncStep.next ⟨rs, re, cand.take n, rd.filter fun e => !e.2.isEmpty⟩) := by
    rw [hcand]
  rw [hgoal]
  by_cases hstop : (re && (cand.take n).isEmpty) = true
  · left
    rw [if_pos hstop]
    refine ⟨rfl, ?_⟩
    simp only [Bool.and_eq_true, List.isEmpty_iff] at hstop
    intro j
    have hnil : cand = [] := by
      have : (cand.take n).length < n := by rw [hstop.2]; exact hn
      rw [← sublist_mem_take this]
      exact hstop.2
    have hgj : rd.get j = [] := by
      by_contra h
      have := (hmem j).2 h
      rw [hnil] at this
      cases this
    have hc := hcons j
    rw [hgj, h4 hstop.1] at hc
    simpa [ofFile] using hc
  · right
    rw [if_neg hstop]
    refine ⟨_, rfl, ⟨?_, ?_, ?_, ?_, h4, ?_⟩, ⟨?_, ?_⟩, ?_⟩
    · intro j
      show _ ++ (Bufs.get (rd.filter fun e => !e.2.isEmpty) j ++ _) = _
      rw [show Bufs.get (rd.filter fun e => !e.2.isEmpty) j = rd.get j from step_choose.get_filter rd hk1 j]
      exact hcons j
    · have : ((rd.filter fun e => !e.2.isEmpty).map Prod.fst).Sublist (rd.map Prod.fst) := List.filter_sublist.map _
      exact this.nodup hk1
    · exact (List.take_sublist n cand).nodup hcn
    · show (cand.take n).length ≤ n
      rw [List.length_take]
      omega
    · intro j _
      exact hoth j (by simp)
    · show cand.take n ≠ []
      intro hnil
      rcases cont_false h5 with he | ⟨_, he⟩
      · exact hstop (by rw [he, hnil]; rfl)
      · have : (cand.take n).length = 0 := by rw [hnil]; rfl
        rw [List.length_take] at this
        simp only [List.length_nil, Nat.cast_zero, sub_zero] at he
        omega
    · intro j hj
      have hj' : j ∈ cand := (List.take_sublist n cand).subset hj
      have hg := (hmem j).1 hj'
      refine ⟨hoth j (by simp), ?_⟩
      show Bufs.get (rd.filter fun e => !e.2.isEmpty) j ≠ []
      rw [step_choose.get_filter rd hk1 j]
      exact hg
    · by_cases hlen : (cand.take n).length = n
      · exact Or.inl hlen
      · right
        have hlt : (cand.take n).length < n := by
          have : (cand.take n).length ≤ n := by rw [List.length_take]; omega
          omega
        have hall := sublist_mem_take hlt
        intro j hj
        have hgj : rd.get j = [] := by
          by_contra h
          apply hj
          show j ∈ cand.take n
          rw [hall]
          exact (hmem j).2 h
        rcases cont_false h5 with he | ⟨_, he⟩
        · have hc := hcons j
          rw [hgj, h4 he] at hc
          simpa [ofFile] using hc
        · rw [hall] at hlt
          simp only [List.length_nil, Nat.cast_zero, sub_zero] at he
          omega

/-- The part of the invariant that concerns what was yielded. -/
structure HistR (F : String → List (Sample α)) (n : Nat) (out : List (List (Sample α))) (st : SyncSt α) : Prop where
  inv : RInv F n out st
  sync : SynchronousR n out
  full : ∀ pre b post, out = pre ++ b :: post → AllStart b → b.length = n ∨ ∀ j, j ∉ b.map Sample.id → ofFile j pre.flatten = F j
  phase : (FreshR out st ∧ (st.active.length = n ∨ ∀ j, j ∉ st.active → ofFile j out.flatten = F j)) ∨
    (MidR out st ∧ (st.active ≠ [] → ∃ pre' l, out = pre' ++ [l] ∧ st.active = unfinished l))

theorem snoc_split {out pre post : List (List (Sample α))} {b c : List (Sample α)} (e : out ++ [b] = pre ++ c :: post) :
    (out = pre ∧ b = c ∧ post = []) ∨ ∃ post', out = pre ++ c :: post' := by
  rcases List.eq_nil_or_concat post with rfl | ⟨post', x, rfl⟩
  · obtain ⟨h1, h2⟩ := List.append_inj' e rfl
    exact .inl ⟨h1, by simpa using h2, rfl⟩
  · have e' : out ++ [b] = (pre ++ c :: post') ++ [x] := by rw [e]; simp
    exact .inr ⟨post', (List.append_inj' e' rfl).1⟩

theorem histR_yield {F : String → List (Sample α)} (hF : ∀ j, Starts j (F j) ∧ Closed (F j)) {n : Nat} {out : List (List (Sample α))} {st : SyncSt α}
    (h : HistR F n out st) (hne : st.active ≠ []) :
    ∃ b st', syncStep n st = .yield b st' ∧ HistR F n (out ++ [b]) st' ∧
      (∀ j ∈ st.active, (ofFile j (out ++ [b]).flatten).length = (ofFile j out.flatten).length + 1) ∧
      ∀ j, j ∉ st.active → ofFile j (out ++ [b]).flatten = ofFile j out.flatten := by
  have hp : FreshR out st ∨ MidR out st := h.phase.imp (·.1) (·.1)
  obtain ⟨b, st', h1, h2, h3, h4, h5, h6, h7, h8, h9⟩ := stepR_yield hF h.inv hp hne
  have hb : b ≠ [] := by
    rintro rfl
    exact hne h4.symm
  have hlen : b.length = st.active.length := by rw [← h4, List.length_map]
  have hnd : (b.map Sample.id).Nodup := by rw [h4]; exact h.inv.nodup
  refine ⟨b, st', h1, ⟨h2, ?_, ?_, .inr ⟨h3, fun _ => ⟨out, b, rfl, h5⟩⟩⟩, h8, h9⟩
  · intro pre c post e
    rcases snoc_split e with ⟨rfl, rfl, rfl⟩ | ⟨post', e'⟩
    · refine ⟨hb, by rw [hlen]; exact h.inv.size, hnd, ?_⟩
      rcases h.phase with ⟨hf, -⟩ | ⟨hm, hl⟩
      · refine .inl ⟨h6 hf, ?_⟩
        intro x
        show Closed (ofFile x out.flatten)
        by_cases hx : x ∈ st.active
        · exact (hf.2 x hx).1
        · exact h.inv.others x hx
      · obtain ⟨pre', l, ho, hact⟩ := hl hne
        exact .inr ⟨h7 hm, pre', l, ho, by rw [h4, hact]⟩
    · exact h.sync pre c post' e'
  · intro pre c post e hs
    rcases snoc_split e with ⟨rfl, rfl, rfl⟩ | ⟨post', e'⟩
    · rcases h.phase with ⟨hf, hcnt⟩ | ⟨hm, -⟩
      · rcases hcnt with hcnt | hcnt
        · exact .inl (by rw [hlen, hcnt])
        · exact .inr (by rw [h4]; exact hcnt)
      · exfalso
        obtain ⟨s0, hs0⟩ := List.exists_mem_of_ne_nil b hb
        have := hs s0 hs0
        rw [h7 hm s0 hs0] at this
        cases this
    · exact h.full pre c post' e' hs

theorem remainingR_lt {F : String → List (Sample α)} {n : Nat} {ids : List String} (hids : ∀ j, F j ≠ [] → j ∈ ids) {out : List (List (Sample α))} {b : List (Sample α)}
    {st st' : SyncSt α} (hne : st.active ≠ []) (inv' : RInv F n (out ++ [b]) st')
    (h8 : ∀ j ∈ st.active, (ofFile j (out ++ [b]).flatten).length = (ofFile j out.flatten).length + 1)
    (h9 : ∀ j, j ∉ st.active → ofFile j (out ++ [b]).flatten = ofFile j out.flatten) :
    remaining ids F (out ++ [b]) < remaining ids F out := by
  obtain ⟨j0, hj0⟩ := List.exists_mem_of_ne_nil _ hne
  have hle0 : (ofFile j0 (out ++ [b]).flatten).length ≤ (F j0).length := by
    rw [← inv'.conserve j0, List.length_append]
    omega
  have h80 := h8 j0 hj0
  unfold remaining
  refine sum_lt_of ?_ j0 (hids j0 ?_) ?_
  · intro j _
    by_cases hj : j ∈ st.active
    · have := h8 j hj; omega
    · rw [h9 j hj]
  · intro h
    rw [h] at hle0
    simp only [List.length_nil] at hle0
    omega
  · omega

theorem runR_all {F : String → List (Sample α)} (hF : ∀ j, Starts j (F j) ∧ Closed (F j)) {n : Nat} (hn : 0 < n) {ids : List String}
    (hids : ∀ j, F j ≠ [] → j ∈ ids) (m : Nat) (out : List (List (Sample α))) (st : SyncSt α) (h : HistR F n out st) (hm : remaining ids F out < m) :
    ∃ fuel st', (syncRun n fuel st).2 = .returned ∧ (∀ j, ofFile j (out ++ (syncRun n fuel st).1).flatten = F j) ∧ HistR F n (out ++ (syncRun n fuel st).1) st' := by
  induction m generalizing out st with
  | zero => omega
  | succ m ih =>
    by_cases hne : st.active = []
    · rcases stepR_choose hF hn h.inv hne with ⟨hs, hall⟩ | ⟨st', hs, inv', hf, hc⟩
      · have hrun : syncRun n 1 st = ([], .returned) := by
          show (match syncStep n st with | .yield b st' => _ | .next st' => _ | .stop => _ | .raise e => _) = _
          rw [hs]
        refine ⟨1, st, ?_⟩
        rw [hrun]
        simpa using ⟨hall, h⟩
      · obtain ⟨b, st'', hy, hist'', h8, h9⟩ := histR_yield hF (⟨inv', h.sync, h.full, .inl ⟨hf, hc⟩⟩ : HistR F n out st') hf.1
        have hlt := remainingR_lt hids hf.1 hist''.inv h8 h9
        obtain ⟨fuel, s, hr⟩ := ih (out ++ [b]) st'' hist'' (by omega)
        refine ⟨fuel + 2, s, ?_⟩
        have hrun : syncRun n (fuel + 2) st = (b :: (syncRun n fuel st'').1, (syncRun n fuel st'').2) := by
          show (match syncStep n st with | .yield b st' => _ | .next st' => _ | .stop => _ | .raise e => _) = _
          rw [hs]
          show (match syncStep n st' with | .yield b st' => _ | .next st' => _ | .stop => _ | .raise e => _) = _
          rw [hy]
        rw [hrun]
        simpa using hr
    · obtain ⟨b, st', hy, hist', h8, h9⟩ := histR_yield hF h hne
      have hlt := remainingR_lt hids hne hist'.inv h8 h9
      obtain ⟨fuel, s, hr⟩ := ih (out ++ [b]) st' hist' (by omega)
      refine ⟨fuel + 1, s, ?_⟩
      have hrun : syncRun n (fuel + 1) st = (b :: (syncRun n fuel st').1, (syncRun n fuel st').2) := by
        show (match syncStep n st with | .yield b st' => _ | .next st' => _ | .stop => _ | .raise e => _) = _
        rw [hy]
      rw [hrun]
      simpa using hr

theorem histR_init (b : List (Sample α)) (rest : List (List (Sample α))) (hb : b ≠ []) (hn : (b.map Sample.id).Nodup) :
    HistR (fun j => ofFile j (b :: rest).flatten) b.length [] ⟨rest, false, b.map Sample.id, Bufs.first b⟩ := by
  obtain ⟨h1, h2, _⟩ := first_spec b hn
  refine ⟨⟨?_, h1, hn, by simp, by simp, ?_⟩, ?_, ?_, Or.inl ⟨⟨by simpa using hb, ?_⟩, Or.inl (by simp)⟩⟩
  · intro j
    show _ ++ ((Bufs.first b).get j ++ _) = _
    rw [h2 j, List.flatten_cons, ofFile_append]
    rfl
  · intro j _
    exact closed_nil
  · intro pre c post h
    simp at h
  · intro pre c post h
    simp at h
  · intro j hj
    refine ⟨closed_nil, ?_⟩
    obtain ⟨s, hs, rfl⟩ := List.mem_map.1 hj
    show (Bufs.first b).get s.id ≠ []
    rw [h2]
    exact List.ne_nil_of_mem (mem_ofFile hs)

/-- `make_streams_synchronous` on a stream in which files may come again. -/
theorem syncR_spec (b : List (Sample α)) (rest : List (List (Sample α))) (h : Repeating (b :: rest)) :
    ∃ fuel out, sync fuel (b :: rest) = (out, .returned) ∧ (∀ j, ofFile j out.flatten = ofFile j (b :: rest).flatten) ∧ SynchronousR b.length out ∧ FullUnlessAlone b.length out := by
  obtain ⟨⟨b', rest', e, hb, hn⟩, hc⟩ := h
  cases e
  have hids : ∀ j, ofFile j (b :: rest).flatten ≠ [] → j ∈ (b :: rest).flatten.map Sample.id := by
    intro j hj
    obtain ⟨s, hs⟩ := List.exists_mem_of_ne_nil _ hj
    obtain ⟨hs, he⟩ := List.mem_filter.1 hs
    have : s.id = j := by simpa using he
    rw [← this]
    exact List.mem_map_of_mem hs
  obtain ⟨fuel, st', h1, h2, h3⟩ := runR_all (fun j => copies_starts (hc j)) (List.length_pos_iff.2 hb) hids _ [] _ (histR_init b rest hb hn) (Nat.lt_succ_self _)
  rw [List.nil_append] at h2 h3
  refine ⟨fuel, (syncRun b.length fuel ⟨rest, false, b.map Sample.id, Bufs.first b⟩).1, ?_, h2, h3.sync, ?_⟩
  · show syncRun _ _ _ = _
    rw [← h1]
  · intro pre c post e hs
    refine (h3.full pre c post e hs).imp id ?_
    intro hall s hs
    by_contra hj
    have ha := hall s.id hj
    have hf := h2 s.id
    rw [e, List.flatten_append, List.flatten_cons, ofFile_append, ofFile_append, ha] at hf
    have : ofFile s.id post.flatten = [] := (List.append_eq_nil_iff.1 (List.append_right_eq_self.1 hf)).2
    have hm := mem_ofFile hs
    rw [this] at hm
    cases hm

end
end DS.Data
