import Mathlib.Data.List.Induction
import Verif.Lemmas.SyncInv
import Verif.Model.SyncMemory
import Verif.Spec.SyncMemory
/-!
# How much `make_streams_synchronous` buffers
-/

namespace DS.Data

section
variable {α : Type}

/-! ## Sums -/

theorem sum_map_le {β : Type} {l : List β} {f g : β → Nat} (h : ∀ x ∈ l, f x ≤ g x) : (l.map f).sum ≤ (l.map g).sum := by
  induction l with
  | nil => simp
  | cons a as ih =>
    simp only [List.map_cons, List.sum_cons]
    have h1 := h a (by simp)
    have h2 := ih fun x hx => h x (by simp [hx])
    omega

theorem sum_map_const_le {β : Type} {l : List β} {f : β → Nat} {c : Nat} (h : ∀ x ∈ l, f x ≤ c) : (l.map f).sum ≤ l.length * c := by
  induction l with
  | nil => simp
  | cons a as ih =>
    simp only [List.map_cons, List.sum_cons, List.length_cons, Nat.succ_mul]
    have h1 := h a (by simp)
    have h2 := ih fun x hx => h x (by simp [hx])
    omega

theorem sum_split {β : Type} (l : List β) (p : β → Bool) (f : β → Nat) :
    (l.map f).sum = ((l.filter p).map f).sum + ((l.filter fun x => !p x).map f).sum := by
  induction l with
  | nil => simp
  | cons a as ih =>
    cases hp : p a <;> simp [hp, ih] <;> omega

theorem length_filter_or {β : Type} (p q : β → Bool) (l : List β) :
    (l.filter fun x => p x || q x).length ≤ (l.filter fun x => p x).length + (l.filter fun x => !p x && q x).length := by
  induction l with
  | nil => simp
  | cons k l ih =>
    simp only [List.filter_cons]
    cases p k <;> cases q k <;> simp <;> omega

/-- Distinct files have disjoint samples. -/
theorem sum_ofFile_le (ks : List String) (hk : ks.Nodup) (l : List (Sample α)) : (ks.map fun k => (ofFile k l).length).sum ≤ l.length := by
  induction ks generalizing l with
  | nil => simp
  | cons k ks ih =>
    rw [List.nodup_cons] at hk
    simp only [List.map_cons, List.sum_cons]
    have h1 := ih hk.2 (l.filter fun s => !decide (s.id = k))
    have h2 : (ks.map fun j => (ofFile j (l.filter fun s => !decide (s.id = k))).length) = ks.map fun j => (ofFile j l).length := by
      apply List.map_congr_left
      intro j hj
      congr 1
      unfold ofFile
      rw [List.filter_filter]
      apply List.filter_congr
      intro s _
      by_cases hs : s.id = j
      · have : ¬ s.id = k := by
          rintro rfl
          exact hk.1 (hs ▸ hj)
        have hjk : ¬ j = k := hs ▸ this
        simp [hs, hjk]
      · simp [hs]
    rw [h2] at h1
    have h3 : l.length = (ofFile k l).length + (l.filter fun s => !decide (s.id = k)).length := by
      unfold ofFile
      exact List.length_eq_length_filter_add _
    omega

theorem held_eq (d : Bufs α) (h : d.keys.Nodup) : d.held = (d.keys.map fun k => (d.get k).length).sum := by
  unfold Bufs.held Bufs.keys
  rw [List.map_map]
  congr 1
  apply List.map_congr_left
  intro e he
  simp only [Function.comp_apply]
  rw [get_of_mem d h e he]

theorem held_set (d : Bufs α) (k : String) (s : Sample α) : (d.set k (d.get k ++ [s])).held = d.held + 1 := by
  induction d with
  | nil => simp [Bufs.set, Bufs.held, Bufs.get]
  | cons e es ih =>
    unfold Bufs.set
    rw [get_cons]
    by_cases he : e.1 = k
    · rw [if_pos he, if_pos he.symm]
      simp [Bufs.held]
      omega
    · rw [if_neg he, if_neg fun h => he h.symm]
      have : ∀ x : Bufs α, Bufs.held (e :: x) = e.2.length + Bufs.held x := fun x => by simp [Bufs.held]
      rw [this, this, ih]
      omega

theorem held_addAll (d : Bufs α) (b : List (Sample α)) : (d.addAll b).held = d.held + b.length := by
  induction b generalizing d with
  | nil => simp [Bufs.addAll]
  | cons s b ih =>
    rw [addAll_cons, ih, held_set, List.length_cons]
    omega

/-! ## First occurrences -/

/-- The ids in the order of their first occurrence. -/
def firsts (l : List String) : List String := l.foldl (fun acc x => if x ∈ acc then acc else acc ++ [x]) []

theorem firsts_snoc (l : List String) (x : String) : firsts (l ++ [x]) = if x ∈ firsts l then firsts l else firsts l ++ [x] := by
  unfold firsts
  rw [List.foldl_append]
  rfl

theorem firsts_spec (l : List String) : (firsts l).Nodup ∧ ∀ x, x ∈ firsts l ↔ x ∈ l := by
  induction l using List.reverseRec with
  | nil => simp [firsts]
  | append_singleton l x ih =>
    rw [firsts_snoc]
    split
    · rename_i h
      refine ⟨ih.1, fun y => ?_⟩
      rw [ih.2, List.mem_append, List.mem_singleton]
      constructor
      · exact Or.inl
      · rintro (h' | rfl)
        · exact h'
        · exact (ih.2 _).1 h
    · rename_i h
      refine ⟨?_, fun y => ?_⟩
      · rw [List.nodup_append]
        refine ⟨ih.1, by simp, ?_⟩
        intro a ha b hb heq
        rw [List.mem_singleton.1 hb] at heq
        exact h (heq ▸ ha)
      · rw [List.mem_append, List.mem_append, ih.2]

theorem firsts_append (l m : List String) : ∃ r, firsts (l ++ m) = firsts l ++ r := by
  induction m using List.reverseRec with
  | nil => exact ⟨[], by simp⟩
  | append_singleton m x ih =>
    obtain ⟨r, hr⟩ := ih
    rw [← List.append_assoc, firsts_snoc]
    split
    · exact ⟨r, hr⟩
    · exact ⟨r ++ [x], by rw [hr, List.append_assoc]⟩

/-- What comes later among first occurrences does not occur before. -/
theorem firsts_before {l P Q : List String} {a j : String} (h : List.Sublist [a, j] (firsts l)) (hl : l = P ++ a :: Q) (ha : a ∉ P) : j ∉ P := by
  intro hj
  obtain ⟨r, hr⟩ := firsts_append P (a :: Q)
  rw [← hl] at hr
  have hn := (firsts_spec l).1
  rw [hr] at h hn
  have hj' := ((firsts_spec P).2 j).2 hj
  have ha' : a ∉ firsts P := fun h => ha (((firsts_spec P).2 a).1 h)
  rw [List.nodup_append] at hn
  obtain ⟨l1, l2, he, h1, h2⟩ := List.sublist_append_iff.1 h
  cases l1 with
  | nil =>
    rw [List.nil_append] at he
    subst he
    exact hn.2.2 j hj' j (h2.subset (by simp)) rfl
  | cons x xs =>
    rw [List.cons_append, List.cons.injEq] at he
    exact ha' (h1.subset (by simp [he.1]))

theorem keys_addAll_sublist (d : Bufs α) (b : List (Sample α)) (l : List String) (h : d.keys.Sublist (firsts l)) (hold : ∀ s ∈ b, s.id ∈ l → s.id ∈ d.keys) :
    (d.addAll b).keys.Sublist (firsts (l ++ b.map Sample.id)) := by
  induction b generalizing d l with
  | nil => simpa [Bufs.addAll] using h
  | cons s b ih =>
    rw [addAll_cons, List.map_cons, show l ++ s.id :: b.map Sample.id = (l ++ [s.id]) ++ b.map Sample.id by simp]
    apply ih
    · rw [keys_set, firsts_snoc]
      by_cases hk : s.id ∈ d.keys
      · rw [if_pos hk, if_pos (h.subset hk)]
        exact h
      · have : s.id ∉ firsts l := fun hm => hk (hold s (by simp) (((firsts_spec l).2 _).1 hm))
        rw [if_neg hk, if_neg this]
        exact h.append (List.Sublist.refl _)
    · intro t ht hm
      rw [mem_keys_set]
      rcases List.mem_append.1 hm with hm | hm
      · exact Or.inr (hold t (by simp [ht]) hm)
      · exact Or.inl (List.mem_singleton.1 hm)

/-! ## Files that have not ended -/

/-- A file that has a sample in `b0` and no last one up to the end of `R2` is in each of the batches. -/
theorem open_everywhere {src pre R2 post : List (List (Sample α))} (hs : Steady src) (b0 : List (Sample α)) (hsrc : src = pre ++ b0 :: R2 ++ post) (k : String)
    (hk : ofFile k b0 ≠ []) (hno : ∀ s ∈ ofFile k (b0 :: R2).flatten, s.eos = false) : ∀ c ∈ b0 :: R2, ofFile k c ≠ [] := by
  induction R2 generalizing pre b0 with
  | nil =>
    intro c hc
    rw [List.mem_singleton.1 hc]
    exact hk
  | cons b1 R2 ih =>
    intro c hc
    obtain ⟨s, hsm⟩ := List.exists_mem_of_ne_nil _ hk
    have hs1 := List.mem_filter.1 hsm
    have hid : s.id = k := by simpa using hs1.2
    have he : s.eos = false := hno s (by
      rw [List.flatten_cons, ofFile_append]
      exact List.mem_append_left _ hsm)
    obtain ⟨s', hs', hid'⟩ := hs pre b0 b1 (R2 ++ post) (by rw [hsrc]; simp) s hs1.1 he
    have hk1 : ofFile k b1 ≠ [] := List.ne_nil_of_mem (List.mem_filter.2 ⟨hs', by simp [hid', hid]⟩)
    rcases List.mem_cons.1 hc with rfl | hc
    · exact hk
    · refine ih (pre := pre ++ [b0]) b1 (by rw [hsrc]; simp) hk1 ?_ c hc
      intro t ht
      apply hno
      rw [List.flatten_cons, ofFile_append]
      exact List.mem_append_right _ ht

theorem length_le_ofFile {k : String} {R : List (List (Sample α))} (h : ∀ c ∈ R, ofFile k c ≠ []) : R.length ≤ (ofFile k R.flatten).length := by
  induction R with
  | nil => simp
  | cons c R ih =>
    rw [List.flatten_cons, ofFile_append, List.length_append, List.length_cons]
    have h1 := List.length_pos_iff.2 (h c (by simp))
    have h2 := ih fun x hx => h x (by simp [hx])
    omega

theorem flatten_length_le {n : Nat} {R : List (List (Sample α))} (h : ∀ c ∈ R, c.length ≤ n) : R.flatten.length ≤ R.length * n := by
  rw [List.length_flatten]
  have := sum_map_const_le (l := R) (f := List.length) (c := n) h
  exact this

/-- The first batch with a sample of `k`. -/
theorem split_first (k : String) (R : List (List (Sample α))) (h : ofFile k R.flatten ≠ []) : ∃ R1 b0 R2, R = R1 ++ b0 :: R2 ∧ ofFile k R1.flatten = [] ∧ ofFile k b0 ≠ [] := by
  induction R with
  | nil => exact absurd rfl h
  | cons c R ih =>
    by_cases hc : ofFile k c = []
    · rw [List.flatten_cons, ofFile_append, hc, List.nil_append] at h
      obtain ⟨R1, b0, R2, h1, h2, h3⟩ := ih h
      refine ⟨c :: R1, b0, R2, by rw [h1]; rfl, ?_, h3⟩
      rw [List.flatten_cons, ofFile_append, hc, h2]
      rfl
    · exact ⟨[], c, R, rfl, rfl, hc⟩

/-! ## The invariant while reading -/

/-- No sample of `j` comes before the first of `a`. -/
def NotBefore (l : List (Sample α)) (j a : String) : Prop :=
  ∀ P s Q, l = P ++ s :: Q → s.id = a → ofFile a P = [] → ofFile j P = []

/-- The dictionary `d` after reading `rd` of the stream, when `out` was yielded and `active` are the active files. -/
structure BI (n N : Nat) (src out : List (List (Sample α))) (active : List String) (rd : List (List (Sample α))) (d : Bufs α) (stream : List (List (Sample α))) : Prop where
  parts : src = rd ++ stream
  got : ∀ j, ofFile j out.flatten ++ d.get j = ofFile j rd.flatten
  keys : d.keys.Nodup
  order : d.keys.Sublist (firsts (rd.flatten.map Sample.id))
  others : ∀ j, j ∉ active → ofFile j out.flatten = [] ∨ ofFile j out.flatten = ofFile j src.flatten
  anodup : active.Nodup
  asize : active.length ≤ n
  mode : (∀ a ∈ active, ofFile a out.flatten = [] ∧ d.get a ≠ [] ∧ ∀ j, j ∉ active → d.get j ≠ [] → NotBefore rd.flatten j a) ∨ (∀ a ∈ active, endBuffered (d.get a) = true)
  size : d.held ≤ (2 * n - 1) * N

/-- What is known about the stream. -/
structure Src (n N : Nat) (src : List (List (Sample α))) : Prop where
  whole : ∀ j, ofFile j src.flatten ≠ [] → WholeFile j (ofFile j src.flatten)
  steady : Steady src
  batch : ∀ b ∈ src, b.length ≤ n
  npos : 0 < n
  len : ∀ j, (ofFile j src.flatten).length ≤ N
  Npos : 0 < N

theorem getLast?_eq_getElem {β : Type} (l : List β) : l.getLast? = l[l.length - 1]? := List.getLast?_eq_getElem?

/-- A file whose last sample is buffered has been read completely; otherwise no last sample has been read. -/
theorem end_iff {n N : Nat} {src : List (List (Sample α))} (hs : Src n N src) {out rd stream : List (List (Sample α))} {active : List String} {d : Bufs α}
    (h : BI n N src out active rd d stream) (j : String) (hj : d.get j ≠ []) :
    (endBuffered (d.get j) = true → ofFile j stream.flatten = []) ∧
      (endBuffered (d.get j) = false → (∀ s ∈ ofFile j rd.flatten, s.eos = false) ∧ (ofFile j rd.flatten).length + 1 ≤ (ofFile j src.flatten).length) := by
  have hsrc : ofFile j src.flatten = ofFile j rd.flatten ++ ofFile j stream.flatten := by rw [h.parts, List.flatten_append, ofFile_append]
  have hgot := h.got j
  have hne : ofFile j src.flatten ≠ [] := by
    rw [hsrc, ← hgot]
    simp [hj]
  have hw := hs.whole j hne
  have hpos := List.length_pos_iff.2 hj
  -- the last buffered sample within the file
  obtain ⟨s, hlast⟩ : ∃ s, (d.get j).getLast? = some s := ⟨_, List.getLast?_eq_getLast_of_ne_nil hj⟩
  have hrd : (ofFile j rd.flatten).length = (ofFile j out.flatten).length + (d.get j).length := by rw [← hgot, List.length_append]
  have hat : (ofFile j src.flatten)[(ofFile j rd.flatten).length - 1]? = some s := by
    rw [hsrc, List.getElem?_append_left (by omega), ← hgot, List.length_append, List.getElem?_append_right (by omega), ← hlast, getLast?_eq_getElem]
    congr 1
    omega
  have heos := (hw.2 _ s hat).2.2
  have hlen : (ofFile j src.flatten).length = (ofFile j rd.flatten).length + (ofFile j stream.flatten).length := by rw [hsrc, List.length_append]
  have hend : endBuffered (d.get j) = s.eos := by
    unfold endBuffered
    rw [hlast]
  rw [hend]
  constructor
  · intro he
    have := heos.1 he
    exact List.length_eq_zero_iff.1 (by omega)
  · intro he
    have hnot : ¬ (ofFile j rd.flatten).length - 1 + 1 = (ofFile j src.flatten).length := fun hc => by
      rw [heos.2 hc] at he
      cases he
    refine ⟨fun t ht => ?_, by omega⟩
    obtain ⟨i, hi, rfl⟩ := List.mem_iff_getElem.1 ht
    have hti : (ofFile j src.flatten)[i]? = some (ofFile j rd.flatten)[i] := by
      rw [hsrc, List.getElem?_append_left hi, List.getElem?_eq_getElem hi]
    have := (hw.2 _ _ hti).2.2
    by_contra hc
    have := this.1 (by simpa using hc)
    omega

theorem rd_le {n N : Nat} {src : List (List (Sample α))} {out rd stream : List (List (Sample α))} {active : List String} {d : Bufs α}
    (h : BI n N src out active rd d stream) (j : String) : (d.get j).length ≤ (ofFile j rd.flatten).length ∧ (ofFile j rd.flatten).length ≤ (ofFile j src.flatten).length := by
  rw [← h.got j, List.length_append]
  refine ⟨by omega, ?_⟩
  rw [h.parts, List.flatten_append, ofFile_append, ← h.got j, List.length_append, List.length_append]
  omega

theorem bound_arith (n N : Nat) (hn : 0 < n) (hN : 0 < N) : (n - 1) * N + n * (N - 1) + n = (2 * n - 1) * N := by
  obtain ⟨m, rfl⟩ : ∃ m, n = m + 1 := ⟨n - 1, by omega⟩
  obtain ⟨M, rfl⟩ : ∃ M, N = M + 1 := ⟨N - 1, by omega⟩
  simp only [Nat.add_sub_cancel]
  rw [show 2 * (m + 1) - 1 = m + (m + 1) by omega, Nat.add_mul m (m + 1) (M + 1), Nat.mul_succ (m + 1) M]
  omega

/-- Before a batch is read there is room for it. -/
theorem room {n N : Nat} {src : List (List (Sample α))} (hs : Src n N src) {out rd stream : List (List (Sample α))} {active : List String} {d : Bufs α}
    (h : BI n N src out active rd d stream) (hrd : rd ≠ []) (hc : continueBuffering false active d n = true) : d.held ≤ (n - 1) * N + n * (N - 1) := by
  rw [held_eq d h.keys]
  have hbatch : ∀ c ∈ rd, c.length ≤ n := fun c hcm => hs.batch c (by rw [h.parts]; exact List.mem_append_left _ hcm)
  have hlen : ∀ k, (d.get k).length ≤ N := fun k => Nat.le_trans (rd_le h k).1 (Nat.le_trans (rd_le h k).2 (hs.len k))
  by_cases hall : ∀ a ∈ active, endBuffered (d.get a) = true
  · -- all active files are complete, so fewer than the rest are complete
    have hnxt : (d.filter fun e => !active.contains e.1 && endBuffered e.2).length + active.length + 1 ≤ n := by
      unfold continueBuffering at hc
      simp only [Bool.false_eq_true, if_false, Bool.or_eq_true, decide_eq_true_eq] at hc
      have h1 : (active.filter fun i => endBuffered (d.get i)).length = active.length := List.length_filter_eq_length_iff.2 hall
      omega
    rw [sum_split d.keys (fun k => active.contains k || endBuffered (d.get k))]
    have h1 : (d.keys.filter fun k => active.contains k || endBuffered (d.get k)).length ≤ n - 1 := by
      have hsplit : (d.keys.filter fun k => active.contains k || endBuffered (d.get k)).length ≤
          (d.keys.filter fun k => active.contains k).length + (d.keys.filter fun k => !active.contains k && endBuffered (d.get k)).length := by
        exact length_filter_or _ _ _
      have ha : (d.keys.filter fun k => active.contains k).length ≤ active.length := by
        apply List.Subperm.length_le
        apply List.subperm_of_subset (h.keys.filter _)
        intro k hk
        simpa using (List.mem_filter.1 hk).2
      have hb : (d.keys.filter fun k => !active.contains k && endBuffered (d.get k)).length = (d.filter fun e => !active.contains e.1 && endBuffered e.2).length := by
        unfold Bufs.keys
        rw [List.filter_map, List.length_map]
        congr 1
        apply List.filter_congr
        intro e he
        simp only [Function.comp_apply]
        rw [get_of_mem d h.keys e he]
      omega
    have h2 : ((d.keys.filter fun k => active.contains k || endBuffered (d.get k)).map fun k => (d.get k).length).sum ≤ (n - 1) * N :=
      Nat.le_trans (sum_map_const_le fun k _ => hlen k) (Nat.mul_le_mul_right _ h1)
    -- the others that are not empty are all in the last batch read
    rcases List.eq_nil_or_concat rd with hnil | ⟨R, bl, hR⟩
    · exact absurd hnil hrd
    have hin : ∀ k ∈ d.keys.filter (fun k => !(active.contains k || endBuffered (d.get k))), (d.get k).length ≤ (ofFile k bl).length * (N - 1) := by
      intro k hk
      have hk' := (List.mem_filter.1 hk).2
      have hno : endBuffered (d.get k) = false := by
        cases he : endBuffered (d.get k)
        · rfl
        · rw [he] at hk'; simp at hk'
      by_cases hz : d.get k = []
      · rw [hz]; simp
      · obtain ⟨hopen, hshort⟩ := (end_iff hs h k hz).2 hno
        have hne : ofFile k rd.flatten ≠ [] := by
          rw [← h.got k]
          simp [hz]
        obtain ⟨R1, b0, R2, hsp, _, hb0⟩ := split_first k rd hne
        have hev := open_everywhere (pre := R1) (R2 := R2) (post := stream) hs.steady b0 (by rw [h.parts, hsp]) k hb0 (fun s hsm => hopen s (by
          rw [hsp, List.flatten_append, ofFile_append]
          exact List.mem_append_right _ hsm))
        have hbl : bl ∈ b0 :: R2 := by
          have hl : rd.getLast? = some bl := by rw [hR]; simp
          rw [hsp, List.getLast?_append] at hl
          have h3 : ((b0 :: R2).getLast?) = some bl := by
            cases hg : (b0 :: R2).getLast? with
            | none => simp at hg
            | some x => rw [hg] at hl; simpa using hl
          exact List.mem_of_getLast? h3
        have h4 := List.length_pos_iff.2 (hev bl hbl)
        have h5 := (rd_le h k).1
        have h6 := hs.len k
        have h7 : 1 * (N - 1) ≤ (ofFile k bl).length * (N - 1) := Nat.mul_le_mul_right _ h4
        omega
    have h3 := sum_map_le hin
    have h4 : ((d.keys.filter fun k => !(active.contains k || endBuffered (d.get k))).map fun k => (ofFile k bl).length * (N - 1)).sum =
        ((d.keys.filter fun k => !(active.contains k || endBuffered (d.get k))).map fun k => (ofFile k bl).length).sum * (N - 1) := by
      generalize (d.keys.filter fun k => !(active.contains k || endBuffered (d.get k))) = l
      induction l with
      | nil => simp
      | cons k l ih => simp only [List.map_cons, List.sum_cons, Nat.add_mul, ih]
    have h5 := sum_ofFile_le _ (h.keys.filter fun k => !(active.contains k || endBuffered (d.get k))) bl
    have h6 : bl.length ≤ n := hbatch bl (by rw [hR]; simp)
    have h7 := Nat.mul_le_mul_right (N - 1) (Nat.le_trans h5 h6)
    omega
  · -- an active file is not complete: few batches have been read since its first sample
    obtain ⟨a, ha, hna⟩ : ∃ a ∈ active, endBuffered (d.get a) = false := by
      simp only [not_forall] at hall
      obtain ⟨a, ha, h⟩ := hall
      exact ⟨a, ha, by simpa using h⟩
    have hmode := h.mode.resolve_right hall
    obtain ⟨_, hz, hbefore⟩ := hmode a ha
    obtain ⟨hopen, hshort⟩ := (end_iff hs h a hz).2 hna
    have hne : ofFile a rd.flatten ≠ [] := by
      rw [← h.got a]
      simp [hz]
    obtain ⟨R1, b0, R2, hsp, hR1, hb0⟩ := split_first a rd hne
    have hev := open_everywhere (pre := R1) (R2 := R2) (post := stream) hs.steady b0 (by rw [h.parts, hsp]) a hb0 (fun s hsm => hopen s (by
      rw [hsp, List.flatten_append, ofFile_append]
      exact List.mem_append_right _ hsm))
    have hcount := length_le_ofFile hev
    have hrda : ofFile a rd.flatten = ofFile a (b0 :: R2).flatten := by rw [hsp, List.flatten_append, ofFile_append, hR1, List.nil_append]
    have hfew : (b0 :: R2).length ≤ N - 1 := by
      have := hs.len a
      rw [hrda] at hshort
      omega
    have htot : (b0 :: R2).flatten.length ≤ n * (N - 1) := by
      have h1 := flatten_length_le (n := n) (R := b0 :: R2) fun c hcm => hbatch c (by rw [hsp]; exact List.mem_append_right _ hcm)
      have h2 := Nat.mul_le_mul_right n hfew
      rw [Nat.mul_comm (N - 1) n] at h2
      omega
    rw [sum_split d.keys (fun k => active.contains k && !decide (k = a))]
    have h1 : (d.keys.filter fun k => active.contains k && !decide (k = a)).length ≤ n - 1 := by
      have : (d.keys.filter fun k => active.contains k && !decide (k = a)).length ≤ (active.erase a).length := by
        apply List.Subperm.length_le
        apply List.subperm_of_subset (h.keys.filter _)
        intro k hk
        have := (List.mem_filter.1 hk).2
        simp only [List.contains_iff_mem, Bool.and_eq_true, Bool.not_eq_eq_eq_not, Bool.not_true, decide_eq_false_iff_not] at this
        exact (List.mem_erase_of_ne this.2).2 this.1
      rw [List.length_erase_of_mem ha] at this
      have := h.asize
      omega
    have h2 : ((d.keys.filter fun k => active.contains k && !decide (k = a)).map fun k => (d.get k).length).sum ≤ (n - 1) * N :=
      Nat.le_trans (sum_map_const_le fun k _ => hlen k) (Nat.mul_le_mul_right _ h1)
    have hin : ∀ k ∈ d.keys.filter (fun k => !(active.contains k && !decide (k = a))), (d.get k).length ≤ (ofFile k (b0 :: R2).flatten).length := by
      intro k hk
      have hk' := (List.mem_filter.1 hk).2
      by_cases hzk : d.get k = []
      · rw [hzk]; simp
      · have hR1k : ofFile k R1.flatten = [] := by
          by_cases hka : k = a
          · rw [hka]; exact hR1
          · have hnk : k ∉ active := by
              intro hm
              simp [hm, hka] at hk'
            -- the first sample of `a` in `b0`
            obtain ⟨P, s, Q, hb, hsid, hP⟩ := first_in b0 a hb0
            have := hbefore k hnk hzk (R1.flatten ++ P) s (Q ++ R2.flatten) (by rw [hsp]; simp [hb]) hsid (by rw [ofFile_append, hR1, hP]; rfl)
            rw [ofFile_append] at this
            exact (List.append_eq_nil_iff.1 this).1
        have := (rd_le h k).1
        rw [hsp, List.flatten_append, ofFile_append, hR1k, List.nil_append] at this
        exact this
    have h3 := sum_map_le hin
    have h5 := sum_ofFile_le _ (h.keys.filter fun k => !(active.contains k && !decide (k = a))) (b0 :: R2).flatten
    omega
where
  first_in (b : List (Sample α)) (a : String) (h : ofFile a b ≠ []) : ∃ P s Q, b = P ++ s :: Q ∧ s.id = a ∧ ofFile a P = [] := by
    induction b with
    | nil => exact absurd rfl h
    | cons s b ih =>
      by_cases hs : s.id = a
      · exact ⟨[], s, b, rfl, hs, rfl⟩
      · have : ofFile a (s :: b) = ofFile a b := by simp [ofFile, hs]
        rw [this] at h
        obtain ⟨P, t, Q, h1, h2, h3⟩ := ih h
        refine ⟨s :: P, t, Q, by rw [h1]; rfl, h2, ?_⟩
        have : ofFile a (s :: P) = ofFile a P := by simp [ofFile, hs]
        rw [this]
        exact h3

theorem ofFile_nil_iff {k : String} {l : List (Sample α)} : ofFile k l = [] ↔ k ∉ l.map Sample.id := by
  constructor
  · intro h hm
    obtain ⟨s, hs, rfl⟩ := List.mem_map.1 hm
    have : s ∈ ofFile s.id l := List.mem_filter.2 ⟨hs, by simp⟩
    rw [h] at this
    cases this
  · intro h
    apply ofFile_none
    intro s hs he
    exact h (he ▸ List.mem_map_of_mem hs)

theorem mode_get {n N : Nat} {src out rd stream : List (List (Sample α))} {active : List String} {d : Bufs α} (h : BI n N src out active rd d stream) :
    ∀ a ∈ active, d.get a ≠ [] := by
  intro a ha
  rcases h.mode with hm | hm
  · exact (hm a ha).2.1
  · exact endBuffered_ne (hm a ha)

/-- Reading a batch keeps the invariant. -/
theorem bi_read {n N : Nat} {src : List (List (Sample α))} (hs : Src n N src) {out rd bs : List (List (Sample α))} {b : List (Sample α)} {active : List String} {d : Bufs α}
    (h : BI n N src out active rd d (b :: bs)) (hrd : rd ≠ []) (hc : continueBuffering false active d n = true) : BI n N src out active (rd ++ [b]) (d.addAll b) bs := by
  have hroom := room hs h hrd hc
  -- a file of `b` that is not buffered was never read
  have hnew : ∀ k, ofFile k b ≠ [] → d.get k = [] → ofFile k rd.flatten = [] := by
    intro k hk hz
    have hka : k ∉ active := fun ha => mode_get h k ha hz
    rcases h.others k hka with ho | ho
    · rw [← h.got k, ho, hz]
      rfl
    · exfalso
      have h1 := h.got k
      rw [ho, hz, List.append_nil, h.parts, List.flatten_append, ofFile_append] at h1
      have h2 : ofFile k (b :: bs).flatten = [] := by
        have := congrArg List.length h1
        rw [List.length_append] at this
        exact List.length_eq_zero_iff.1 (by omega)
      rw [List.flatten_cons, ofFile_append] at h2
      exact hk (List.append_eq_nil_iff.1 h2).1
  refine ⟨by rw [h.parts]; simp, ?_, (keys_addAll d b h.keys).1, ?_, h.others, h.anodup, h.asize, ?_, ?_⟩
  · intro j
    rw [get_addAll, ← List.append_assoc, h.got j, List.flatten_append, List.flatten_singleton, ofFile_append]
  · rw [List.flatten_append, List.flatten_singleton, List.map_append]
    apply keys_addAll_sublist d b _ h.order
    intro s hsb hm
    by_contra hk
    have hz : d.get s.id = [] := by
      by_contra hz
      exact hk (mem_keys_of_get d s.id hz)
    have := hnew s.id (List.ne_nil_of_mem (List.mem_filter.2 ⟨hsb, by simp⟩)) hz
    exact ofFile_nil_iff.1 this hm
  · rcases h.mode with hm | hm
    · left
      intro a ha
      obtain ⟨h1, h2, h3⟩ := hm a ha
      refine ⟨h1, by rw [get_addAll]; simp [h2], ?_⟩
      intro j hj hjn P s Q heq hsid hP
      rw [List.flatten_append, List.flatten_singleton] at heq
      -- the first sample of `a` is in `rd`
      have hra : ofFile a rd.flatten ≠ [] := by
        rw [← h.got a]
        simp [h2]
      have hPin : ∃ Q', rd.flatten = P ++ s :: Q' := by
        rcases List.append_eq_append_iff.1 heq with ⟨X, hX1, hX2⟩ | ⟨X, hX1, hX2⟩
        · exfalso
          rw [hX1, ofFile_append] at hP
          exact hra (List.append_eq_nil_iff.1 hP).1
        · cases X with
          | nil =>
            exfalso
            rw [List.append_nil] at hX1
            rw [hX1] at hra
            exact hra hP
          | cons x X =>
            simp only [List.cons_append, List.cons.injEq] at hX2
            exact ⟨X, by rw [hX1, hX2.1]⟩
      obtain ⟨Q', hQ'⟩ := hPin
      by_cases hz : d.get j = []
      · rw [get_addAll, hz, List.nil_append] at hjn
        have := hnew j hjn hz
        rw [hQ', ofFile_append] at this
        exact (List.append_eq_nil_iff.1 this).1
      · exact h3 j hj hz P s Q' hQ' hsid hP
    · right
      intro a ha
      have hend := hm a ha
      have h1 := (end_iff hs h a (endBuffered_ne hend)).1 hend
      rw [List.flatten_cons, ofFile_append] at h1
      rw [get_addAll, (List.append_eq_nil_iff.1 h1).1, List.append_nil]
      exact hend
  · rw [held_addAll]
    have h1 := hs.batch b (by rw [h.parts]; simp)
    have h2 := bound_arith n N hs.npos hs.Npos
    omega

/-- The inner loop: what it holds at any time, and what it leaves. -/
theorem fill_bound {n N : Nat} {src : List (List (Sample α))} (hs : Src n N src) {out rd : List (List (Sample α))} {active : List String} {d : Bufs α}
    (stream : List (List (Sample α))) (h : BI n N src out active rd d stream) (hrd : rd ≠ []) :
    (∀ d' ∈ fillTrace active n false d stream, d'.held ≤ (2 * n - 1) * N) ∧
      let r := fill active n false d stream
      r.2.2.held ≤ (2 * n - 1) * N ∧ (r.2.1 = false → ∃ rd', rd' ≠ [] ∧ BI n N src out active rd' r.2.2 r.1) := by
  induction stream generalizing rd d with
  | nil =>
    refine ⟨?_, ?_⟩
    · intro d' hd'
      rw [show d' = d by simpa [fillTrace] using hd']
      exact h.size
    · unfold fill
      split
      · exact ⟨h.size, fun hh => by cases hh⟩
      · exact ⟨h.size, fun _ => ⟨rd, hrd, h⟩⟩
  | cons b bs ih =>
    unfold fill fillTrace
    by_cases hc : continueBuffering false active d n = true
    · rw [if_pos hc, if_pos hc]
      obtain ⟨h1, h2⟩ := ih (bi_read hs h hrd hc) (by simp)
      refine ⟨?_, h2⟩
      intro d' hd'
      rcases List.mem_cons.1 hd' with rfl | hd'
      · exact h.size
      · exact h1 d' hd'
    · rw [if_neg hc, if_neg hc]
      refine ⟨?_, h.size, fun _ => ⟨rd, hrd, h⟩⟩
      intro d' hd'
      rw [List.mem_singleton.1 hd']
      exact h.size

/-! ## Removing samples -/

theorem held_cons (e : String × List (Sample α)) (d : Bufs α) : Bufs.held (e :: d) = e.2.length + Bufs.held d := by simp [Bufs.held]

theorem held_set_any (d : Bufs α) (k : String) (v : List (Sample α)) : (d.set k v).held + (d.get k).length = d.held + v.length := by
  induction d with
  | nil => simp [Bufs.set, Bufs.held, Bufs.get]
  | cons e es ih =>
    unfold Bufs.set
    rw [get_cons]
    by_cases he : e.1 = k
    · rw [if_pos he, if_pos he.symm, held_cons, held_cons]
      simp only
      omega
    · rw [if_neg he, if_neg fun h => he h.symm, held_cons, held_cons]
      omega

theorem held_popAll (d : Bufs α) (active : List String) : (popAll d active).2.held ≤ d.held := by
  induction active generalizing d with
  | nil => exact Nat.le_refl _
  | cons i is ih =>
    unfold popAll
    cases hg : d.get i with
    | nil =>
      simp only
      refine Nat.le_trans (ih _) ?_
      split
      · have := held_set_any d i []
        simp only [List.length_nil] at this
        omega
      · exact Nat.le_refl _
    | cons s q =>
      simp only
      refine Nat.le_trans (ih _) ?_
      have := held_set_any d i q
      rw [hg, List.length_cons] at this
      omega

theorem keys_popAll (d : Bufs α) (active : List String) (hn : active.Nodup) (hne : ∀ i ∈ active, d.get i ≠ []) : (popAll d active).2.keys = d.keys := by
  induction active generalizing d with
  | nil => rfl
  | cons i is ih =>
    rw [List.nodup_cons] at hn
    unfold popAll
    have hi := hne i (by simp)
    cases hg : d.get i with
    | nil => exact absurd hg hi
    | cons s q =>
      simp only
      rw [ih _ hn.2, keys_set, if_pos (mem_keys_of_get d i hi)]
      intro j hj
      rw [get_set, if_neg (by rintro rfl; exact hn.1 hj)]
      exact hne j (by simp [hj])

theorem held_filter (d : Bufs α) (p : String × List (Sample α) → Bool) : Bufs.held (d.filter p) ≤ d.held := by
  induction d with
  | nil => exact Nat.le_refl _
  | cons e es ih =>
    rw [List.filter_cons]
    split
    · rw [held_cons, held_cons]; omega
    · rw [held_cons]; omega

/-! ## The outer loop -/

/-- The buffers of a state: the stream has been found empty, or the invariant holds. -/
def Kept (n N : Nat) (src out : List (List (Sample α))) (st : SyncSt α) : Prop :=
  st.bufs.held ≤ (2 * n - 1) * N ∧ (st.empty = false → ∃ rd, rd ≠ [] ∧ BI n N src out st.active rd st.bufs st.stream)

theorem kept_fill {n N : Nat} {src : List (List (Sample α))} (hs : Src n N src) {out : List (List (Sample α))} {st : SyncSt α} (h : Kept n N src out st) :
    (∀ d' ∈ fillTrace st.active n st.empty st.bufs st.stream, d'.held ≤ (2 * n - 1) * N) ∧
      let r := fill st.active n st.empty st.bufs st.stream
      r.2.2.held ≤ (2 * n - 1) * N ∧ (r.2.1 = false → ∃ rd', rd' ≠ [] ∧ BI n N src out st.active rd' r.2.2 r.1) := by
  cases he : st.empty
  · obtain ⟨rd, hrd, hbi⟩ := h.2 he
    exact fill_bound hs st.stream hbi hrd
  · have hcont : continueBuffering true st.active st.bufs n = false := by simp [continueBuffering]
    cases hst : st.stream with
    | nil =>
      refine ⟨?_, ?_⟩
      · intro d' hd'
        rw [show d' = st.bufs by simpa [fillTrace] using hd']
        exact h.1
      · simp only [fill, hcont, Bool.false_eq_true, if_false]
        exact ⟨h.1, fun hh => by cases hh⟩
    | cons b bs =>
      refine ⟨?_, ?_⟩
      · intro d' hd'
        rw [show d' = st.bufs by simpa [fillTrace, hcont] using hd']
        exact h.1
      · simp only [fill, hcont, Bool.false_eq_true, if_false]
        exact ⟨h.1, fun hh => by cases hh⟩

theorem step_yield_fields {n : Nat} {st st' : SyncSt α} {b : List (Sample α)} (h : syncStep n st = .yield b st') :
    st'.stream = (fill st.active n st.empty st.bufs st.stream).1 ∧ st'.empty = (fill st.active n st.empty st.bufs st.stream).2.1 ∧
      st'.bufs = (popAll (fill st.active n st.empty st.bufs st.stream).2.2 st.active).2 := by
  unfold syncStep at h
  simp only at h
  split at h
  · split at h
    · split at h <;> cases h
    · cases h
  · cases h
    exact ⟨rfl, rfl, rfl⟩

theorem step_next_fields {n : Nat} {st st' : SyncSt α} (h : syncStep n st = .next st') :
    st.active = [] ∧ st'.stream = (fill st.active n st.empty st.bufs st.stream).1 ∧ st'.empty = (fill st.active n st.empty st.bufs st.stream).2.1 ∧
      st'.bufs = (fill st.active n st.empty st.bufs st.stream).2.2.filter (fun e => !e.2.isEmpty) ∧
      st'.active = (((fill st.active n st.empty st.bufs st.stream).2.2.filter fun e => headSos e.2).map Prod.fst).take n := by
  unfold syncStep at h
  simp only at h
  split at h
  · split at h
    · rename_i ha
      have ha' : st.active = [] := List.isEmpty_iff.1 ha
      split at h
      · cases h
      · cases h
        rw [ha']
        exact ⟨rfl, rfl, rfl, rfl, rfl⟩
    · cases h
  · cases h

theorem kept_yield {n N : Nat} {src : List (List (Sample α))} (hs : Src n N src) {out : List (List (Sample α))} {st st' : SyncSt α} {b : List (Sample α)}
    (inv : SInv (fun j => ofFile j src.flatten) n out st) (hp : Fresh out st ∨ Mid (fun j => ofFile j src.flatten) out st) (h : Kept n N src out st)
    (hst : syncStep n st = .yield b st') (inv' : SInv (fun j => ofFile j src.flatten) n (out ++ [b]) st') (hmid : Mid (fun j => ofFile j src.flatten) (out ++ [b]) st')
    (hact : ∀ a ∈ st'.active, a ∈ st.active) : Kept n N src (out ++ [b]) st' := by
  obtain ⟨_, h1, h2⟩ := kept_fill hs h
  obtain ⟨hf1, hf2, hf3⟩ := step_yield_fields hst
  obtain ⟨hk1, _, _, h4, h5⟩ := fill_spec st.active n st.empty st.bufs st.stream inv.keys inv.emp
  have hnon := fill_nonempty inv hp
  obtain ⟨_, _, _, hp4⟩ := popAll_spec _ st.active inv.nodup hk1 hnon
  have hkeys := keys_popAll (fill st.active n st.empty st.bufs st.stream).2.2 st.active inv.nodup hnon
  have hsize : st'.bufs.held ≤ (2 * n - 1) * N := by
    rw [hf3]
    exact Nat.le_trans (held_popAll _ _) h1
  refine ⟨hsize, ?_⟩
  intro hem
  rw [hf2] at hem
  obtain ⟨rd, hrd, hbi⟩ := h2 hem
  have hgot : ∀ j, ofFile j (out ++ [b]).flatten ++ st'.bufs.get j = ofFile j rd.flatten := by
    intro j
    have h6 := inv'.conserve j
    simp only [hbi.parts, List.flatten_append, ofFile_append, hf1] at h6
    rw [List.flatten_append, ofFile_append]
    rw [← List.append_assoc] at h6
    exact List.append_cancel_right h6
  refine ⟨rd, hrd, ⟨by rw [hf1]; exact hbi.parts, hgot, inv'.keys, ?_, inv'.others, inv'.nodup, inv'.size, Or.inr ?_, hsize⟩⟩
  · rw [hf3, hkeys]
    exact hbi.order
  · intro a ha
    have haa := hact a ha
    rcases cont_false h5 with he | ⟨hall, _⟩
    · rw [hem] at he
      cases he
    · have hend := hall a haa
      have hstr := (end_iff hs hbi a (endBuffered_ne hend)).1 hend
      have hg : st'.bufs.get a = ((fill st.active n st.empty st.bufs st.stream).2.2.get a).tail := by rw [hf3, hp4 a, if_pos haa]
      have hne : st'.bufs.get a ≠ [] := by
        intro hz
        apply (hmid a ha).2
        have := hgot a
        rw [hz, List.append_nil] at this
        show _ = ofFile a src.flatten
        rw [this, hbi.parts, List.flatten_append, ofFile_append, hstr, List.append_nil]
      rw [hg] at hne ⊢
      cases hq : (fill st.active n st.empty st.bufs st.stream).2.2.get a with
      | nil => rw [hq] at hne; exact absurd rfl hne
      | cons x xs =>
        rw [hq] at hne hend
        simp only [List.tail_cons] at hne ⊢
        unfold endBuffered at hend ⊢
        rw [List.getLast?_cons] at hend
        cases hx : xs.getLast? with
        | none => exact absurd (List.getLast?_eq_none_iff.1 hx) hne
        | some y => rw [hx] at hend; exact hend

theorem kept_next {n N : Nat} {src : List (List (Sample α))} (hs : Src n N src) {out : List (List (Sample α))} {st st' : SyncSt α}
    (inv : SInv (fun j => ofFile j src.flatten) n out st) (h : Kept n N src out st) (hst : syncStep n st = .next st')
    (inv' : SInv (fun j => ofFile j src.flatten) n out st') (hf : Fresh out st') : Kept n N src out st' := by
  obtain ⟨_, h1, h2⟩ := kept_fill hs h
  obtain ⟨ha, hf1, hf2, hf3, hf4⟩ := step_next_fields hst
  obtain ⟨hk1, _, _, h4, h5⟩ := fill_spec st.active n st.empty st.bufs st.stream inv.keys inv.emp
  have hsize : st'.bufs.held ≤ (2 * n - 1) * N := by
    rw [hf3]
    exact Nat.le_trans (held_filter _ _) h1
  refine ⟨hsize, ?_⟩
  intro hem
  rw [hf2] at hem
  obtain ⟨rd, hrd, hbi⟩ := h2 hem
  have hgetf : ∀ j, st'.bufs.get j = (fill st.active n st.empty st.bufs st.stream).2.2.get j := by
    intro j
    rw [hf3]
    exact step_choose.get_filter _ hk1 j
  have hord : st'.bufs.keys.Sublist (firsts (rd.flatten.map Sample.id)) := by
    rw [hf3]
    exact (List.filter_sublist.map Prod.fst).trans hbi.order
  have hgot : ∀ j, ofFile j out.flatten ++ st'.bufs.get j = ofFile j rd.flatten := by
    intro j
    rw [hgetf]
    exact hbi.got j
  refine ⟨rd, hrd, ⟨by rw [hf1]; exact hbi.parts, hgot, inv'.keys, hord, inv'.others, inv'.nodup, inv'.size, Or.inl ?_, hsize⟩⟩
  intro a haa
  refine ⟨(hf.2 a haa).1, (hf.2 a haa).2, ?_⟩
  intro j hj hjn P s Q heq hsid hP
  have hcand : ((fill st.active n st.empty st.bufs st.stream).2.2.filter fun e => headSos e.2).map Prod.fst |>.Sublist (firsts (rd.flatten.map Sample.id)) :=
    (List.filter_sublist.map Prod.fst).trans hbi.order
  have hjc : j ∈ ((fill st.active n st.empty st.bufs st.stream).2.2.filter fun e => headSos e.2).map Prod.fst := by
    rw [hgetf] at hjn
    have hjk := mem_keys_of_get _ j hjn
    obtain ⟨e, he, rfl⟩ := List.mem_map.1 hjk
    refine List.mem_map_of_mem (List.mem_filter.2 ⟨he, ?_⟩)
    have hge := get_of_mem _ hk1 e he
    have hne : e.2 ≠ [] := by rw [← hge]; exact hjn
    -- the head of the buffer is the first sample of its file
    have ho : ofFile e.1 out.flatten = [] := by
      rcases inv.others e.1 (by rw [ha]; simp) with ho | ho
      · exact ho
      · exfalso
        have h6 := hbi.got e.1
        have h7 : (ofFile e.1 out.flatten).length = (ofFile e.1 rd.flatten).length + (ofFile e.1 (fill st.active n st.empty st.bufs st.stream).1.flatten).length := by
          rw [ho]
          show (ofFile e.1 src.flatten).length = _
          rw [hbi.parts, List.flatten_append, ofFile_append, List.length_append]
        have h8 := congrArg List.length h6
        rw [List.length_append] at h8
        have := List.length_pos_iff.2 hjn
        omega
    have h6 := hbi.got e.1
    rw [ho, List.nil_append, hge] at h6
    cases hq : e.2 with
    | nil => exact absurd hq hne
    | cons x xs =>
      rw [hq] at h6
      have hsrc : ofFile e.1 src.flatten = x :: (xs ++ ofFile e.1 (fill st.active n st.empty st.bufs st.stream).1.flatten) := by
        rw [hbi.parts, List.flatten_append, ofFile_append, ← h6]
        rfl
      exact (((hs.whole e.1 (by rw [hsrc]; simp)).2 0 x (by rw [hsrc]; rfl)).2.1).2 rfl
  rw [hf4] at haa hj
  have hsub : List.Sublist [a, j] (firsts (rd.flatten.map Sample.id)) := by
    refine List.Sublist.trans ?_ hcand
    rw [← List.take_append_drop n (((fill st.active n st.empty st.bufs st.stream).2.2.filter fun e => headSos e.2).map Prod.fst)] at hjc ⊢
    have hjd := (List.mem_append.1 hjc).resolve_left hj
    exact (List.singleton_sublist.2 haa).append (List.singleton_sublist.2 hjd)
  refine ofFile_nil_iff.2 (firsts_before hsub (P := P.map Sample.id) (Q := Q.map Sample.id) ?_ (ofFile_nil_iff.1 hP))
  rw [heq, List.map_append, List.map_cons, hsid]

/-- At no time more than the bound is held. -/
theorem trace_bound {n N : Nat} {src : List (List (Sample α))} (hs : Src n N src) (fuel : Nat) (out : List (List (Sample α))) (st : SyncSt α)
    (inv : SInv (fun j => ofFile j src.flatten) n out st) (hp : Fresh out st ∨ Mid (fun j => ofFile j src.flatten) out st) (h : Kept n N src out st) :
    ∀ d ∈ syncTrace n fuel st, d.held ≤ (2 * n - 1) * N := by
  induction fuel generalizing out st with
  | zero => intro d hd; cases hd
  | succ m ih =>
    intro d hd
    unfold syncTrace at hd
    rcases List.mem_append.1 hd with hd | hd
    · exact (kept_fill hs h).1 d hd
    · by_cases hne : st.active = []
      · rcases step_choose (fun j a as hj => (((hs.whole j (by simp [hj])).2 0 a (by simp [hj])).2.1).2 rfl) hs.npos inv hne with ⟨hstep, _⟩ | ⟨st', hstep, inv', hf, _⟩
        · rw [hstep] at hd
          cases hd
        · rw [hstep] at hd
          exact ih out st' inv' (Or.inl hf) (kept_next hs inv h hstep inv' hf) d hd
      · obtain ⟨b, st', hstep, inv', hmid, hb, hact, _⟩ := step_yield hs.whole inv hp hne
        rw [hstep] at hd
        refine ih (out ++ [b]) st' inv' (Or.inr hmid) (kept_yield hs inv hp h hstep inv' hmid ?_) d hd
        intro a ha
        rw [hact] at ha
        rw [← hb]
        exact (List.filter_sublist.map Sample.id).subset ha

end
end DS.Data
