import Verif.Lemmas.SyncInv
import Verif.Spec.Truncate
/-!
# Groups of files, some of which may lack their end
-/

namespace DS.Data

section
variable {α : Type}

/-- Popping from buffers that may be empty. -/
theorem popAll_any (d : Bufs α) (active : List String) (hn : active.Nodup) (hk : d.keys.Nodup) :
    let r := popAll d active
    r.1 = active.filterMap (fun i => (d.get i).head?) ∧ r.2.keys.Nodup ∧ ∀ j, r.2.get j = if j ∈ active then (d.get j).tail else d.get j := by
  induction active generalizing d with
  | nil => exact ⟨rfl, hk, fun j => by simp [popAll]⟩
  | cons i is ih =>
    rw [List.nodup_cons] at hn
    cases hq : d.get i with
    | nil =>
      obtain ⟨d', hd', hget, hk'⟩ : ∃ d', d' = (if d.lookup i = none then d.set i [] else d) ∧ (∀ j, d'.get j = d.get j) ∧ d'.keys.Nodup := by
        refine ⟨_, rfl, ?_, ?_⟩
        · intro j
          split
          · rw [get_set]
            split
            · rename_i h; rw [h, hq]
            · rfl
          · rfl
        · split
          · exact keys_set_nodup _ _ _ hk
          · exact hk
      obtain ⟨h1, h2, h3⟩ := ih d' hn.2 hk'
      unfold popAll
      rw [hq]
      simp only
      rw [← hd']
      refine ⟨?_, h2, ?_⟩
      · rw [h1, List.filterMap_cons, hq]
        simp only [List.head?_nil, hget]
      · intro j
        rw [h3, hget]
        by_cases hji : j = i
        · subst hji
          simp [hn.1, hq]
        · simp [hji]
    | cons s q =>
      have hother : ∀ j ∈ is, (d.set i q).get j = d.get j := by
        intro j hj
        rw [get_set, if_neg]
        rintro rfl
        exact hn.1 hj
      obtain ⟨h1, h2, h3⟩ := ih (d.set i q) hn.2 (keys_set_nodup _ _ _ hk)
      unfold popAll
      rw [hq]
      simp only
      refine ⟨?_, h2, ?_⟩
      · rw [List.filterMap_cons, hq, h1]
        simp only [List.head?_cons, List.cons.injEq, true_and]
        apply List.filterMap_congr
        intro j hj
        rw [hother j hj]
      · intro j
        rw [h3, get_set]
        by_cases hji : j = i
        · subst hji
          simp [hn.1, hq]
        · simp [hji]

/-- After `k` batches of its group the file is still waited for: it has more chunks, or exactly `k` and no end. -/
def going (F : String → List (Sample α)) (k : Nat) (j : String) : Bool :=
  decide (k ≤ (F j).length) && !(decide ((F j).length = k) && endBuffered (F j))

/-- The state after `k` batches of the group `A`. -/
structure TInv (F : String → List (Sample α)) (A : List String) (out : List (List (Sample α))) (k : Nat) (st : SyncSt α) : Prop where
  conserve : ∀ j, ofFile j out.flatten ++ (st.bufs.get j ++ ofFile j st.stream.flatten) = F j
  keys : st.bufs.keys.Nodup
  emp : st.empty = true → st.stream = []
  active : st.active = A.filter (going F k)
  mine : ∀ j ∈ A, ofFile j out.flatten = (F j).take k
  others : ∀ j, j ∉ A → ofFile j out.flatten = [] ∨ ofFile j out.flatten = F j

theorem none_of_not_going {F : String → List (Sample α)} {k : Nat} {j : String} (h : going F k j = false) : (F j)[k]? = none := by
  rw [List.getElem?_eq_none_iff]
  unfold going at h
  simp only [Bool.and_eq_false_iff, decide_eq_false_iff_not, Bool.not_eq_false', Bool.and_eq_true, decide_eq_true_eq] at h
  rcases h with h | h <;> omega

theorem filterMap_going (F : String → List (Sample α)) (k : Nat) (A : List String) :
    (A.filter (going F k)).filterMap (fun j => (F j)[k]?) = A.filterMap fun j => (F j)[k]? := by
  induction A with
  | nil => rfl
  | cons a A ih =>
    rw [List.filter_cons]
    cases h : going F k a
    · rw [if_neg (by simp), List.filterMap_cons, none_of_not_going h]
      exact ih
    · rw [if_pos rfl, List.filterMap_cons, List.filterMap_cons, ih]

theorem endBuffered_of {q : List (Sample α)} {s : Sample α} (h : q.getLast? = some s) : endBuffered q = s.eos := by
  unfold endBuffered
  rw [h]

theorem getLast_of_index {q : List (Sample α)} {s : Sample α} {k : Nat} (h : q[k]? = some s) (hk : k + 1 = q.length) : q.getLast? = some s := by
  rw [List.getLast?_eq_getElem?, ← hk]
  exact h

/-- The files that go on after a batch are those that the code keeps as active. -/
theorem going_next {F : String → List (Sample α)} (hF : ∀ j, F j ≠ [] → OpenFile j (F j)) (k : Nat) (A : List String) :
    ((A.filterMap fun j => (F j)[k]?).filter fun s => !s.eos).map Sample.id = A.filter (going F (k + 1)) := by
  induction A with
  | nil => rfl
  | cons a A ih =>
    rw [List.filterMap_cons, List.filter_cons]
    cases h : (F a)[k]? with
    | none =>
      have hl := List.getElem?_eq_none_iff.1 h
      have : going F (k + 1) a = false := by
        unfold going
        simp only [Bool.and_eq_false_iff, decide_eq_false_iff_not]
        left
        omega
      rw [this, if_neg (by simp)]
      exact ih
    | some s =>
      obtain ⟨hlt, -⟩ := List.getElem?_eq_some_iff.1 h
      have hne : F a ≠ [] := by
        intro h0
        rw [h0] at hlt
        simp at hlt
      obtain ⟨hid, -, heos⟩ := (hF a hne).2 k s h
      simp only
      rw [List.filter_cons]
      cases he : s.eos
      · have : going F (k + 1) a = true := by
          unfold going
          simp only [Bool.and_eq_true, decide_eq_true_eq, Bool.not_eq_true', Bool.and_eq_false_iff, decide_eq_false_iff_not]
          refine ⟨by omega, ?_⟩
          by_cases hl : (F a).length = k + 1
          · right
            rw [endBuffered_of (getLast_of_index h hl.symm), he]
          · exact Or.inl hl
        rw [this, if_pos rfl, if_pos (by simp), List.map_cons, hid, ih]
      · have hl := heos he
        have : going F (k + 1) a = false := by
          unfold going
          simp only [Bool.and_eq_false_iff, decide_eq_false_iff_not, Bool.not_eq_false', Bool.and_eq_true, decide_eq_true_eq]
          right
          exact ⟨hl.symm, by rw [endBuffered_of (getLast_of_index h hl), he]⟩
        rw [this, if_neg (by simp), if_neg (by simp), ih]

theorem ofFile_round {F : String → List (Sample α)} (hF : ∀ j, F j ≠ [] → OpenFile j (F j)) (k : Nat) (A : List String) (hn : A.Nodup) (j : String) :
    ofFile j (A.filterMap fun i => (F i)[k]?) = if j ∈ A then ((F j)[k]?).toList else [] := by
  have hid : ∀ i s, (F i)[k]? = some s → s.id = i := by
    intro i s h
    have hne : F i ≠ [] := by
      intro h0
      rw [h0] at h
      simp at h
    exact ((hF i hne).2 k s h).1
  induction A with
  | nil => rfl
  | cons a A ih =>
    rw [List.nodup_cons] at hn
    have ih := ih hn.2
    rw [List.filterMap_cons]
    cases h : (F a)[k]? with
    | none =>
      simp only
      rw [ih]
      by_cases hja : j = a
      · subst hja
        simp [hn.1, h]
      · simp [hja]
    | some s =>
      simp only
      have hs := hid a s h
      rw [show ofFile j (s :: A.filterMap fun i => (F i)[k]?) = ofFile j [s] ++ ofFile j (A.filterMap fun i => (F i)[k]?) from ofFile_append j [s] _, ih]
      by_cases hja : j = a
      · subst hja
        simp [hn.1, h, ofFile, hs]
      · have h' : ¬ s.id = j := fun e => hja (by rw [← e, hs])
        simp [ofFile, hja, h']

/-- After the inner loop all the rest of every active file is buffered. -/
theorem fill_rest {F : String → List (Sample α)} (hF : ∀ j, F j ≠ [] → OpenFile j (F j)) {A : List String} {out : List (List (Sample α))} {k n : Nat} {st : SyncSt α}
    (inv : TInv F A out k st) (j : String) (hj : j ∈ st.active) : (fill st.active n st.empty st.bufs st.stream).2.2.get j = (F j).drop k := by
  obtain ⟨_, _, h3, h4, h5⟩ := fill_spec st.active n st.empty st.bufs st.stream inv.keys inv.emp
  obtain ⟨more, hm1, hm2⟩ := h3 j
  have hjA : j ∈ A := by
    rw [inv.active] at hj
    exact List.mem_of_mem_filter hj
  have hgo : k ≤ (F j).length := by
    rw [inv.active] at hj
    have := (List.mem_filter.1 hj).2
    unfold going at this
    simp only [Bool.and_eq_true, decide_eq_true_eq] at this
    exact this.1
  have hc : (F j).take k ++ ((fill st.active n st.empty st.bufs st.stream).2.2.get j ++ ofFile j (fill st.active n st.empty st.bufs st.stream).1.flatten) = F j := by
    rw [hm1, List.append_assoc, hm2, ← inv.mine j hjA]
    exact inv.conserve j
  have hrest : (fill st.active n st.empty st.bufs st.stream).2.2.get j ++ ofFile j (fill st.active n st.empty st.bufs st.stream).1.flatten = (F j).drop k := by
    have h := hc
    conv at h => rhs; rw [← List.take_append_drop k (F j)]
    exact List.append_cancel_left h
  rcases cont_false h5 with he | ⟨ha, _⟩
  · rw [h4 he] at hrest
    simpa [ofFile] using hrest
  · have hend := ha j hj
    generalize (fill st.active n st.empty st.bufs st.stream).2.2.get j = q at *
    generalize ofFile j (fill st.active n st.empty st.bufs st.stream).1.flatten = t at *
    rcases List.eq_nil_or_concat q with rfl | ⟨q', s, rfl⟩
    · cases hend
    · have heos : s.eos = true := by
        rw [← endBuffered_of (q := q'.concat s) (by simp)]
        exact hend
      have hne : F j ≠ [] := by
        rw [← hc]
        simp
      have hlen : ((F j).take k).length = k := by rw [List.length_take]; omega
      have hidx : (F j)[k + q'.length]? = some s := by
        rw [← hc, List.getElem?_append_right (by omega), hlen]
        simp
      have hl := ((hF j hne).2 _ s hidx).2.2 heos
      have ht : t = [] := by
        have := congrArg List.length hc
        rw [List.length_append, List.length_append, hlen, List.length_concat] at this
        exact List.length_eq_zero_iff.1 (by omega)
      rw [ht, List.append_nil] at hrest
      exact hrest

/-- One batch of a group. -/
theorem step_round {F : String → List (Sample α)} (hF : ∀ j, F j ≠ [] → OpenFile j (F j)) {A : List String} (hA : A.Nodup) {out : List (List (Sample α))} {k n : Nat}
    {st : SyncSt α} (inv : TInv F A out k st) (hk : ∃ j ∈ A, k < (F j).length) :
    ∃ st', syncStep n st = .yield (A.filterMap fun j => (F j)[k]?) st' ∧ TInv F A (out ++ [A.filterMap fun j => (F j)[k]?]) (k + 1) st' := by
  obtain ⟨hk1, _, h3, h4, h5⟩ := fill_spec st.active n st.empty st.bufs st.stream inv.keys inv.emp
  have hact : st.active.Nodup := by rw [inv.active]; exact hA.filter _
  have hrest := fun j hj => fill_rest (n := n) hF inv j hj
  have hcons : ∀ j, ofFile j out.flatten ++ ((fill st.active n st.empty st.bufs st.stream).2.2.get j ++ ofFile j (fill st.active n st.empty st.bufs st.stream).1.flatten) = F j := by
    intro j
    obtain ⟨more, hm1, hm2⟩ := h3 j
    rw [hm1, List.append_assoc, hm2]
    exact inv.conserve j
  unfold syncStep
  generalize fill st.active n st.empty st.bufs st.stream = r at *
  obtain ⟨rs, re, rd⟩ := r
  simp only at *
  obtain ⟨hp1, hp2, hp3⟩ := popAll_any rd st.active hact hk1
  generalize popAll rd st.active = p at *
  obtain ⟨b, d'⟩ := p
  simp only at *
  have hb : b = A.filterMap fun j => (F j)[k]? := by
    rw [hp1, ← filterMap_going F k A, ← inv.active]
    apply List.filterMap_congr
    intro j hj
    rw [hrest j hj, List.head?_drop]
  subst hb
  clear hp1
  have hne : (A.filterMap fun j => (F j)[k]?).isEmpty = false := by
    obtain ⟨j, hj, hl⟩ := hk
    have : (F j)[k] ∈ A.filterMap fun j => (F j)[k]? := List.mem_filterMap.2 ⟨j, hj, List.getElem?_eq_getElem hl⟩
    cases hq : A.filterMap fun j => (F j)[k]? with
    | nil => rw [hq] at this; cases this
    | cons _ _ => rfl
  rw [hne]
  simp only [Bool.false_eq_true, if_false]
  have hof := ofFile_round hF k A hA
  have hout : ∀ j, ofFile j (out ++ [A.filterMap fun j => (F j)[k]?]).flatten = ofFile j out.flatten ++ if j ∈ A then ((F j)[k]?).toList else [] := by
    intro j
    rw [List.flatten_append, List.flatten_singleton, ofFile_append, hof]
  refine ⟨_, rfl, ⟨?_, hp2, h4, going_next hF k A, ?_, ?_⟩⟩
  · intro j
    rw [hout, hp3]
    by_cases hja : j ∈ st.active
    · have hjA : j ∈ A := by
        rw [inv.active] at hja
        exact List.mem_of_mem_filter hja
      rw [if_pos hja, if_pos hjA]
      have hc := hcons j
      rw [hrest j hja] at hc ⊢
      rw [List.append_assoc, ← List.append_assoc _ (List.tail _), show ((F j)[k]?).toList ++ ((F j).drop k).tail = (F j).drop k from ?_]
      · exact hc
      · rw [← List.head?_drop]
        cases (F j).drop k <;> simp
    · rw [if_neg hja]
      have hnone : (if j ∈ A then ((F j)[k]?).toList else []) = [] := by
        by_cases hjA : j ∈ A
        · rw [if_pos hjA]
          have : going F k j = false := by
            by_contra h
            apply hja
            rw [inv.active]
            exact List.mem_filter.2 ⟨hjA, by simpa using h⟩
          rw [none_of_not_going this]
          rfl
        · rw [if_neg hjA]
      rw [hnone, List.append_nil]
      exact hcons j
  · intro j hj
    rw [hout, if_pos hj, inv.mine j hj, List.take_add_one]
  · intro j hj
    rw [hout, if_neg hj, List.append_nil]
    exact inv.others j hj

theorem run_yield {n fuel : Nat} {st st' : SyncSt α} {b : List (Sample α)} (h : syncStep n st = .yield b st') :
    syncRun n (fuel + 1) st = (b :: (syncRun n fuel st').1, (syncRun n fuel st').2) := by
  rw [syncRun, h]

theorem run_next {n fuel : Nat} {st st' : SyncSt α} (h : syncStep n st = .next st') : syncRun n (fuel + 1) st = syncRun n fuel st' := by
  rw [syncRun, h]

/-- The remaining batches of a group. -/
theorem run_rounds {F : String → List (Sample α)} (hF : ∀ j, F j ≠ [] → OpenFile j (F j)) {A : List String} (hA : A.Nodup) {n : Nat} (d k : Nat)
    (hK : ∃ j ∈ A, k + d = (F j).length) {out : List (List (Sample α))} {st : SyncSt α} (inv : TInv F A out k st) :
    ∃ st', TInv F A (out ++ (List.range' k d).map fun k => A.filterMap fun j => (F j)[k]?) (k + d) st' ∧
      ∀ fuel, syncRun n (d + fuel) st = (((List.range' k d).map fun k => A.filterMap fun j => (F j)[k]?) ++ (syncRun n fuel st').1, (syncRun n fuel st').2) := by
  induction d generalizing k out st with
  | zero => exact ⟨st, by simpa using inv, fun fuel => by simp⟩
  | succ d ih =>
    obtain ⟨j, hj, hl⟩ := hK
    obtain ⟨st1, hs, inv1⟩ := step_round (n := n) hF hA inv ⟨j, hj, by omega⟩
    obtain ⟨st', inv', hr⟩ := ih (k + 1) ⟨j, hj, by omega⟩ inv1
    refine ⟨st', ?_, ?_⟩
    · rw [List.range'_succ, List.map_cons]
      rw [show k + (d + 1) = k + 1 + d by omega]
      simpa using inv'
    · intro fuel
      rw [show d + 1 + fuel = (d + fuel) + 1 by omega, run_yield hs, hr fuel, List.range'_succ, List.map_cons]
      rfl

theorem longest_le (F : String → List (Sample α)) (g : List String) (j : String) (hj : j ∈ g) : (F j).length ≤ longest F g := by
  unfold longest
  induction g with
  | nil => cases hj
  | cons a g ih =>
    simp only [List.map_cons, List.foldr_cons]
    rcases List.mem_cons.1 hj with rfl | hj
    · omega
    · have := ih hj
      omega

theorem longest_mem (F : String → List (Sample α)) (g : List String) (hg : g ≠ []) : ∃ j ∈ g, (F j).length = longest F g := by
  unfold longest
  induction g with
  | nil => exact absurd rfl hg
  | cons a g ih =>
    simp only [List.map_cons, List.foldr_cons]
    by_cases h0 : g = []
    · subst h0
      exact ⟨a, by simp, by simp⟩
    · obtain ⟨j, hj, hl⟩ := ih h0
      by_cases hle : (F a).length ≤ (g.map fun j => (F j).length).foldr max 0
      · exact ⟨j, by simp [hj], by rw [hl]; omega⟩
      · exact ⟨a, by simp, by omega⟩

theorem cutOff_iff {q : List (Sample α)} (hq : q ≠ []) : CutOff q ↔ endBuffered q = false := by
  unfold CutOff endBuffered
  cases h : q.getLast? with
  | none => exact absurd (List.getLast?_eq_none_iff.1 h) hq
  | some s => simp

theorem rounds_eq (F : String → List (Sample α)) (g : List String) :
    rounds F g = (List.range' 0 (longest F g)).map fun k => g.filterMap fun j => (F j)[k]? := by
  unfold rounds
  rw [List.range_eq_range']

/-- A group is played to the end; then the generator raises if a longest file lacks its end, and otherwise goes on. -/
theorem group_run {F : String → List (Sample α)} (hF : ∀ j, F j ≠ [] → OpenFile j (F j)) {n : Nat} {out : List (List (Sample α))} {st : SyncSt α} (inv : SInv F n out st)
    (hf : Fresh out st) :
    (Cut F st.active → ∀ fuel, syncRun n (longest F st.active + (fuel + 1)) st = (rounds F st.active, .raised .runtimeError)) ∧
    (¬ Cut F st.active → ∃ st', SInv F n (out ++ rounds F st.active) st' ∧ st'.active = [] ∧ (∀ j ∈ st.active, ofFile j (out ++ rounds F st.active).flatten = F j) ∧
      (∀ j, j ∉ st.active → ofFile j (out ++ rounds F st.active).flatten = ofFile j out.flatten) ∧
      ∀ fuel, syncRun n (longest F st.active + fuel) st = (rounds F st.active ++ (syncRun n fuel st').1, (syncRun n fuel st').2)) := by
  have hne : ∀ j ∈ st.active, F j ≠ [] := by
    intro j hj h0
    have := inv.conserve j
    rw [h0] at this
    exact (hf.2 j hj).2 (List.append_eq_nil_iff.1 (List.append_eq_nil_iff.1 this).2).1
  have inv0 : TInv F st.active out 0 st := by
    refine ⟨inv.conserve, inv.keys, inv.emp, ?_, ?_, inv.others⟩
    · symm
      rw [List.filter_eq_self]
      intro j hj
      have := List.length_pos_iff.2 (hne j hj)
      unfold going
      simp only [Nat.zero_le, decide_true, Bool.true_and, Bool.not_eq_true', Bool.and_eq_false_iff, decide_eq_false_iff_not]
      left
      omega
    · intro j hj
      rw [(hf.2 j hj).1]
      rfl
  obtain ⟨st', inv', hr⟩ := run_rounds (n := n) hF inv.nodup (longest F st.active) 0 (by
    obtain ⟨j, hj, hl⟩ := longest_mem F st.active hf.1
    exact ⟨j, hj, by rw [hl]; omega⟩) inv0
  rw [Nat.zero_add] at inv'
  rw [← rounds_eq] at inv'
  simp only [← rounds_eq] at hr
  have hactive : st'.active = [] ↔ ¬ Cut F st.active := by
    rw [inv'.active, List.filter_eq_nil_iff]
    constructor
    · rintro h ⟨j, hj, hl, hc⟩
      apply h j hj
      rw [cutOff_iff (hne j hj)] at hc
      simp [going, hl, hc]
    · intro h j hj hg
      apply h
      have hle := longest_le F st.active j hj
      unfold going at hg
      simp only [Bool.and_eq_true, decide_eq_true_eq, Bool.not_eq_true', Bool.and_eq_false_iff, decide_eq_false_iff_not] at hg
      have hl : (F j).length = longest F st.active := by omega
      refine ⟨j, hj, hl, ?_⟩
      rw [cutOff_iff (hne j hj)]
      rcases hg.2 with h' | h'
      · exact absurd hl h'
      · exact h'
  constructor
  · intro hcut fuel
    rw [hr (fuel + 1)]
    have hraise : syncStep n st' = .raise .runtimeError := by
      obtain ⟨hk1, _, _, _, _⟩ := fill_spec st'.active n st'.empty st'.bufs st'.stream inv'.keys inv'.emp
      have hact : st'.active.Nodup := by rw [inv'.active]; exact inv.nodup.filter _
      obtain ⟨hp1, -, -⟩ := popAll_any (fill st'.active n st'.empty st'.bufs st'.stream).2.2 st'.active hact hk1
      have hnil : (popAll (fill st'.active n st'.empty st'.bufs st'.stream).2.2 st'.active).1 = [] := by
        rw [hp1, List.filterMap_eq_nil_iff]
        intro j hj
        rw [fill_rest hF inv' j hj, List.head?_drop, List.getElem?_eq_none_iff]
        have hjA : j ∈ st.active := by
          rw [inv'.active] at hj
          exact List.mem_of_mem_filter hj
        exact longest_le F st.active j hjA
      have hne' : st'.active.isEmpty = false := by
        cases hq : st'.active with
        | nil => exact absurd hcut (hactive.1 hq)
        | cons _ _ => rfl
      unfold syncStep
      simp only [hnil, hne', List.isEmpty_nil, if_true, Bool.false_eq_true, if_false]
    rw [syncRun, hraise]
    simp
  · intro hcut
    have hact := hactive.2 hcut
    have hmine : ∀ j ∈ st.active, ofFile j (out ++ rounds F st.active).flatten = F j := by
      intro j hj
      rw [inv'.mine j hj, List.take_of_length_le (longest_le F st.active j hj)]
    have hoth : ∀ j, j ∉ st.active → ofFile j (out ++ rounds F st.active).flatten = ofFile j out.flatten := by
      intro j hj
      have hnil : ofFile j (rounds F st.active).flatten = [] := by
        apply ofFile_none
        intro s hs
        obtain ⟨b, hb, hs⟩ := List.mem_flatten.1 hs
        obtain ⟨k, -, rfl⟩ := List.mem_map.1 hb
        obtain ⟨i, hi, hs⟩ := List.mem_filterMap.1 hs
        have := ((hF i (hne i hi)).2 k s hs).1
        rw [this]
        rintro rfl
        exact hj hi
      rw [List.flatten_append, ofFile_append, hnil, List.append_nil]
    refine ⟨st', ⟨inv'.conserve, inv'.keys, by rw [hact]; exact List.nodup_nil, by rw [hact]; simp, inv'.emp, ?_⟩, hact, hmine, hoth, hr⟩
    intro j _
    by_cases hj : j ∈ st.active
    · exact Or.inr (hmine j hj)
    · exact inv'.others j hj

end

end DS.Data
