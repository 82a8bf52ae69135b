import Verif.Spec.CollectorMem
import Verif.Lemmas.ConvView
import Verif.Props.Collector
/-! C208: writing into memory after it has been collected. -/

namespace DS.Coll
open Meta Conv
section
variable {α : Type} [Zero α]

/-! ### What a collector holds -/

/-- What the entry of an id is, given the chunks of it that have been collected: nothing; a view of the only chunk; copies, made when the second chunk came. -/
def Shows (e : Option (HEntry α)) : List (Snap α) → Prop
  | [] => e = none
  | [a] => ∃ md, e = some ⟨md, .view a.cell a.row a.n⟩
  | a :: b :: rest => ∃ md, e = some ⟨md, .own (a.at b.mem ++ b.frames ++ (rest.map Snap.frames).flatten)⟩

theorem shows_add {e e' : Option (HEntry α)} {h : List (Snap α)} {x : Snap α} (hs : Shows e h)
    (h0 : e = none → ∃ md, e' = some ⟨md, .view x.cell x.row x.n⟩)
    (h1 : ∀ o, e = some o → ∃ md, e' = some ⟨md, .own (o.held.now x.mem ++ x.frames)⟩) : Shows e' (h ++ [x]) := by
  match h, hs with
  | [], hs => exact h0 hs
  | [a], ⟨md, hs⟩ =>
    obtain ⟨md', h⟩ := h1 _ hs
    exact ⟨md', by rw [h]; simp [Held.now, Snap.at]⟩
  | a :: b :: rest, ⟨md, hs⟩ =>
    obtain ⟨md', h⟩ := h1 _ hs
    exact ⟨md', by rw [h]; simp [Held.now]⟩

theorem unary_shows {mem : Mem α} {s s' : HColl α} {md : Meta} {c r n : Nat} {i : String} (hid : md.ids = [i]) (h : unaryHeld mem s ⟨md, .view c r n⟩ = (s', none))
    (j : String) (hist : List (Snap α)) (hs : Shows (s.entries j) hist) : Shows (s'.entries j) (hist ++ if i = j then [⟨mem, c, r, n⟩] else []) := by
  unfold unaryHeld at h
  rw [show pyGet md.ids 0 = .ok i by rw [hid]; rfl] at h
  simp only at h
  split at h
  · simp at h
  split at h
  · rename_i eos sos he hso
    have hent : ∀ b : Bool, (if b then s.close i else s).entries = s.entries := by intro b; cases b <;> rfl
    unfold storeHeld at h
    rw [hent] at h
    by_cases hj : i = j
    · subst hj
      rw [if_pos rfl]
      refine shows_add hs ?_ ?_
      · intro hn
        rw [hn] at h
        simp only at h
        split at h
        · simp only [Prod.mk.injEq, and_true] at h
          exact ⟨md, by rw [← h]; simp [HColl.put]⟩
        · simp at h
      · intro o ho
        rw [ho] at h
        simp only at h
        split at h
        · simp at h
        · split at h
          · rename_i e' hc
            simp only [Prod.mk.injEq, and_true] at h
            unfold catHeld at hc
            obtain ⟨q, hq, hc⟩ := bind_ok_iff hc
            unfold catEntry at hq
            obtain ⟨ml, -, hq⟩ := bind_ok_iff hq
            split at hq
            · cases hq
            obtain ⟨m, -, hq⟩ := bind_ok_iff hq
            cases hq
            cases hc
            exact ⟨m, by rw [← h]; simp [HColl.put, HEntry.now, Snap.frames, Snap.at, Held.now]⟩
          · simp at h
    · rw [if_neg hj, List.append_nil]
      have hout : s'.entries j = s.entries j := by
        have hput : ∀ (b : Bool) (e : HEntry α), ((if b then s.close i else s).put i e).entries j = s.entries j := by
          intro b e
          simp only [HColl.put, if_neg (Ne.symm hj)]
          rw [hent]
        split at h
        · split at h
          · simp at h
          · split at h
            · simp only [Prod.mk.injEq, and_true] at h
              rw [← h]; exact hput _ _
            · simp at h
        · split at h
          · simp only [Prod.mk.injEq, and_true] at h
            rw [← h]; exact hput _ _
          · simp at h
      rw [hout]; exact hs
  · simp at h

theorem rows_shows {mem : Mem α} {b : Bool} {cell w : Nat} (j : String) (rows : List Row) : ∀ {k : Nat} {es : List (HEntry α)} {s s' : HColl α} {hist : List (Snap α)},
    unpadHeld mem cell w k (rows.map fun r => ofRows b [r]) = .ok es → rowsHeld mem s es = (s', none) → Shows (s.entries j) hist →
    Shows (s'.entries j) (hist ++ (rowsOf j k rows).map fun p => ⟨mem, cell, p.1, p.2⟩) := by
  induction rows with
  | nil =>
    intro k es s s' hist h1 h2 hs
    cases h1
    simp only [rowsHeld, Prod.mk.injEq, and_true] at h2
    subst h2
    simpa [rowsOf] using hs
  | cons r rs ih =>
    intro k es s s' hist h1 h2 hs
    simp only [List.map_cons, unpadHeld] at h1
    obtain ⟨x, hx, h1⟩ := bind_ok_iff h1
    obtain ⟨xs, hxs, h1⟩ := bind_ok_iff h1
    cases h1
    rw [narrow_any] at hx
    split at hx
    · cases hx
    rename_i hbad
    cases hx
    have hb : 0 ≤ r.len ∧ r.len ≤ w := by unfold Bad at hbad; omega
    have hlen : ((mem.read cell k w).take r.len.toNat).length = r.len.toNat := by
      simp [Mem.read]; omega
    simp only [rowsHeld] at h2
    rw [show (ofRows b [{ r with sos := r.sos && decide (0 < r.len), eos := r.eos && decide (0 < r.len) }]).maxLength = .ok r.len from rfl] at h2
    simp only at h2
    simp only [rowsOf]
    by_cases hp : r.len > 0
    · rw [if_pos hp] at h2
      split at h2
      · rename_i s1 hu
        rw [hlen] at hu
        have hsh := unary_shows (i := r.id) rfl hu j hist hs
        have := ih hxs h2 hsh
        by_cases hij : r.id = j
        · rw [if_pos hij] at this
          rw [if_pos ⟨hij, hp⟩]
          simpa using this
        · rw [if_neg hij] at this
          rw [if_neg (fun h => hij h.1)]
          simpa using this
      · cases h2
    · rw [if_neg hp] at h2
      rw [if_neg (fun h => hp h.2)]
      exact ih hxs h2 hs

theorem step_shows {mem mem' : Mem α} {s s' : HColl α} {e : MemEv α} (hok : MdOK [e]) (h : stepHeld mem s e = (mem', s', none)) (j : String) (hist : List (Snap α))
    (hs : Shows (s.entries j) hist) : mem' = after mem e ∧ Shows (s'.entries j) (hist ++ given j mem e) := by
  cases e with
  | write cell f =>
    simp only [stepHeld, Prod.mk.injEq, and_true] at h
    obtain ⟨rfl, rfl⟩ := h
    exact ⟨rfl, by simpa [given] using hs⟩
  | batch cell md w =>
    simp only [stepHeld] at h
    split at h
    · rename_i rows hr
      simp only [Prod.mk.injEq] at h
      obtain ⟨rfl, h⟩ := h
      refine ⟨rfl, ?_⟩
      obtain ⟨ms, hms, hr⟩ := bind_ok_iff hr
      have hmd := eq_ofRows md hok.1
      by_cases hne : md.rows = []
      · rw [hmd, hne] at hms
        cases hms
        cases hr
        simp only [rowsHeld, Prod.mk.injEq, and_true] at h
        subst h
        simpa [given, hne, rowsOf] using hs
      · have := unbind_ofRows md.chunk.isSome md.rows hne
        rw [← hmd, hms] at this
        cases this
        exact rows_shows j md.rows hr h hs
    · simp at h
  | single cell row md n =>
    simp only [stepHeld] at h
    split at h
    · rename_i hsz
      simp only [Prod.mk.injEq] at h
      obtain ⟨rfl, h⟩ := h
      refine ⟨rfl, ?_⟩
      obtain ⟨i, hi⟩ : ∃ i, md.ids = [i] := List.length_eq_one_iff.1 hsz
      have := unary_shows hi h j hist hs
      have e : (md.ids = [j]) = (i = j) := by rw [hi]; simp
      simpa [given, hi] using this
    · simp at h

theorem run_shows {evs : List (MemEv α)} : ∀ {mem : Mem α} {s : HColl α} (_ : MdOK evs) (_ : ∀ o ∈ (runHeld mem s evs).2.2, o = none) (j : String) (hist : List (Snap α))
    (_ : Shows (s.entries j) hist), (runHeld mem s evs).1 = final mem evs ∧ Shows ((runHeld mem s evs).2.1.entries j) (hist ++ seen j mem evs) := by
  induction evs with
  | nil => intro mem s _ _ j hist hs; exact ⟨rfl, by simpa [seen, runHeld] using hs⟩
  | cons e es ih =>
    intro mem s hok herr j hist hs
    have h1 : MdOK [e] ∧ MdOK es := by cases e <;> simp_all [MdOK]
    simp only [runHeld] at herr ⊢
    have h2 : stepHeld mem s e = ((stepHeld mem s e).1, (stepHeld mem s e).2.1, none) := by
      rw [← herr (stepHeld mem s e).2.2 (by simp)]
    obtain ⟨h3, h4⟩ := step_shows h1.1 h2 j hist hs
    obtain ⟨h5, h6⟩ := ih h1.2 (fun o ho => herr o (List.mem_cons_of_mem _ ho)) j _ h4
    rw [h3] at h5 h6
    refine ⟨by rw [h3, h5]; rfl, ?_⟩
    rw [h3]
    simpa [seen] using h6

/-- **C208, exactly.** If no call raises, the collector shows for each id: nothing, if no chunk of it has been collected; if one has, what is in the memory of this chunk *now*; if several have, what was in the memory of the first one when
the second one was collected, and the others as they were when they were collected, whatever is written into any memory afterwards. (Chunks of batches without frames are not collected, C70.)
Missing: the values of the first chunk at the time when it was collected (`C208_reuse_false`). -/
theorem C208_exact_partial (mem : Mem α) (evs : List (MemEv α)) (hok : MdOK evs) (hno : ∀ o ∈ (runHeld mem HColl.new evs).2.2, o = none) (i : String) :
    (runHeld mem HColl.new evs).1 = final mem evs ∧
    (seen i mem evs = [] → (runHeld mem HColl.new evs).2.1.entries i = none) ∧
    (∀ a, seen i mem evs = [a] → ∀ m, ((runHeld mem HColl.new evs).2.1.now m).entries i ≠ none ∧ ∀ e ∈ ((runHeld mem HColl.new evs).2.1.now m).entries i, e.frames = a.at m) ∧
    (∀ a b rest, seen i mem evs = a :: b :: rest → ∀ m, ((runHeld mem HColl.new evs).2.1.now m).entries i ≠ none ∧
      ∀ e ∈ ((runHeld mem HColl.new evs).2.1.now m).entries i, e.frames = a.at b.mem ++ b.frames ++ (rest.map Snap.frames).flatten) := by
  obtain ⟨h1, h2⟩ := run_shows hok hno i [] (by rfl : Shows ((HColl.new : HColl α).entries i) [])
  rw [List.nil_append] at h2
  refine ⟨h1, fun h => ?_, fun a h m => ?_, fun a b rest h m => ?_⟩
  · rw [h] at h2; exact h2
  · rw [h] at h2
    obtain ⟨md, h2⟩ := h2
    simp [HColl.now, h2, HEntry.now, Held.now, Snap.at]
  · rw [h] at h2
    obtain ⟨md, h2⟩ := h2
    simp [HColl.now, h2, HEntry.now, Held.now]

/-! ### By value, as long as nothing is written -/

theorem close_now (mem : Mem α) (s : HColl α) (i : String) : (s.close i).now mem = (s.now mem).close i := rfl

theorem put_now (mem : Mem α) (s : HColl α) (i : String) (e : HEntry α) : (s.put i e).now mem = (s.now mem).put i (e.now mem) := by
  unfold HColl.now HColl.put Coll.put
  congr 1
  funext j
  simp only
  split <;> rfl

theorem store_now (mem : Mem α) (s : HColl α) (i : String) (sos : Bool) (x : HEntry α) :
    store (s.now mem) i sos (x.now mem) = ((storeHeld mem s i sos x).1.now mem, (storeHeld mem s i sos x).2) := by
  unfold store storeHeld
  rw [show (s.now mem).entries i = (s.entries i).map (HEntry.now mem) from rfl]
  cases s.entries i with
  | none => cases sos <;> simp [put_now]
  | some e =>
    simp only [Option.map_some]
    cases sos with
    | true => rfl
    | false =>
      simp only [Bool.false_eq_true, if_false]
      unfold catHeld
      cases catEntry (e.now mem) (x.now mem) with
      | error err => rfl
      | ok q => simp only [Except.bind_ok', put_now]; rfl

theorem unary_now (mem : Mem α) (s : HColl α) (x : HEntry α) : updateUnary (s.now mem) (x.now mem) = ((unaryHeld mem s x).1.now mem, (unaryHeld mem s x).2) := by
  unfold updateUnary unaryHeld
  rw [show (x.now mem).md = x.md from rfl]
  cases pyGet x.md.ids 0 with
  | error e => rfl
  | ok i =>
    simp only
    rw [show (s.now mem).closed i = s.closed i from rfl]
    cases s.closed i with
    | true => rfl
    | false =>
      simp only [Bool.false_eq_true, if_false]
      cases item x.md.eos with
      | error e => rfl
      | ok eos =>
        cases item x.md.sos with
        | error e => rfl
        | ok sos =>
          simp only
          rw [← store_now]
          cases eos <;> rfl

theorem rows_now (mem : Mem α) (es : List (HEntry α)) : ∀ s : HColl α, updateRows (s.now mem) (es.map (HEntry.now mem)) = ((rowsHeld mem s es).1.now mem, (rowsHeld mem s es).2) := by
  induction es with
  | nil => intro s; rfl
  | cons x xs ih =>
    intro s
    simp only [List.map_cons, updateRows, rowsHeld]
    rw [show (x.now mem).md = x.md from rfl]
    cases x.md.maxLength with
    | error e => rfl
    | ok ml =>
      simp only
      split
      · rw [unary_now]
        cases hu : unaryHeld mem s x with
        | mk s' o => cases o <;> simp [ih]
      · exact ih s

theorem unpad_now (mem : Mem α) (cell w : Nat) (ms : List Meta) : ∀ k, unpadRows w ms ((List.range ms.length).map fun r => mem.read cell (k + r) w) =
    (unpadHeld mem cell w k ms).map fun es => es.map (HEntry.now mem) := by
  induction ms with
  | nil => intro k; rfl
  | cons m ms ih =>
    intro k
    rw [List.length_cons, List.range_succ_eq_map, List.map_cons, List.map_map]
    simp only [unpadRows, unpadHeld, Nat.add_zero]
    have := ih (k + 1)
    rw [show ((fun r => mem.read cell (k + r) w) ∘ Nat.succ) = fun r => mem.read cell (k + 1 + r) w from by
      funext r; simp only [Function.comp, Nat.succ_eq_add_one]; congr 1; omega]
    rw [this]
    cases hn : narrowRow m w (mem.read cell k w) with
    | error e => rfl
    | ok x =>
      simp only [Except.bind_ok']
      cases unpadHeld mem cell w (k + 1) ms with
      | error e => rfl
      | ok xs =>
        have hx : x.2 = mem.read cell k x.2.length := by
          unfold narrowRow at hn
          obtain ⟨l, -, hn⟩ := bind_ok_iff hn
          split at hn
          · cases hn
          obtain ⟨m', -, hn⟩ := bind_ok_iff hn
          cases hn
          simp [Mem.read, ← List.map_take, List.take_range]
        show Except.ok _ = Except.ok _
        simp only [List.map_cons, HEntry.now, Held.now]
        rw [← hx]

theorem step_now (mem : Mem α) (s : HColl α) (cell : Nat) (md : Meta) (w : Nat) (hw : md.WF) :
    updateItem (s.now mem) (.batch (batchIn mem cell md w)) = ((stepHeld mem s (.batch cell md w)).2.1.now mem, (stepHeld mem s (.batch cell md w)).2.2) := by
  simp only [updateItem, stepHeld, unpad, batchIn]
  cases hu : md.unbindBatch with
  | error e => rfl
  | ok ms =>
    have hl : ms.length = md.ids.length := by
      have hmd := eq_ofRows md hw
      have hr := rows_length md hw
      by_cases hne : md.rows = []
      · rw [hmd, hne] at hu
        cases hu
        rw [hne] at hr
        exact hr
      · have := unbind_ofRows md.chunk.isSome md.rows hne
        rw [← hmd, hu] at this
        cases this
        simpa using hr
    simp only [Except.bind_ok']
    have := unpad_now mem cell w ms 0
    simp only [Nat.zero_add, hl] at this
    rw [this]
    cases unpadHeld mem cell w 0 ms with
    | error e => rfl
    | ok es => exact rows_now mem es s

/-- Every view in the collector is a view of a cell with `p`. -/
def ViewsIn (p : Nat → Prop) (s : HColl α) : Prop := ∀ i e c r n, s.entries i = some e → e.held = .view c r n → p c

theorem unary_views {p : Nat → Prop} {mem : Mem α} {s : HColl α} {x : HEntry α} (hs : ViewsIn p s) (hx : ∀ c r n, x.held = .view c r n → p c) : ViewsIn p (unaryHeld mem s x).1 := by
  have hput : ∀ (s : HColl α) (i : String) (e : HEntry α), ViewsIn p s → (∀ c r n, e.held = .view c r n → p c) → ViewsIn p (s.put i e) := by
    intro s i e h1 h2 j e' c r n h3 h4
    simp only [HColl.put] at h3
    split at h3
    · cases h3; exact h2 c r n h4
    · exact h1 j e' c r n h3 h4
  unfold unaryHeld
  split
  · exact hs
  · split
    · exact hs
    · split
      · rename_i i _ _ _ _ eos sos _ _
        have hs' : ViewsIn p (if eos then s.close i else s) := by cases eos <;> exact hs
        generalize (if eos then s.close i else s) = t at hs'
        unfold storeHeld
        split
        · split
          · exact hs'
          · split
            · rename_i e _ _ e' hc
              refine hput _ _ _ hs' ?_
              intro c r n h
              unfold catHeld at hc
              obtain ⟨q, -, hc⟩ := bind_ok_iff hc
              cases hc
              cases h
            · exact hs'
        · split
          · exact hput _ _ _ hs' hx
          · exact hs'
      · exact hs

theorem rows_views {p : Nat → Prop} {mem : Mem α} (es : List (HEntry α)) : ∀ {s : HColl α} (_ : ViewsIn p s) (_ : ∀ x ∈ es, ∀ c r n, x.held = .view c r n → p c), ViewsIn p (rowsHeld mem s es).1 := by
  induction es with
  | nil => intro s hs _; exact hs
  | cons x xs ih =>
    intro s hs hx
    simp only [rowsHeld]
    have hxs : ∀ x ∈ xs, ∀ c r n, x.held = .view c r n → p c := fun y hy => hx y (List.mem_cons_of_mem _ hy)
    split
    · exact hs
    · split
      · have hv := unary_views (mem := mem) (x := x) hs (hx x (by simp))
        split
        · rename_i s' hu
          rw [hu] at hv
          exact ih hv hxs
        · rename_i s' e hu
          rw [hu] at hv
          exact hv
      · exact ih hs hxs

theorem unpad_views {mem : Mem α} {cell w : Nat} (ms : List Meta) : ∀ {k : Nat} {es : List (HEntry α)}, unpadHeld mem cell w k ms = .ok es → ∀ x ∈ es, ∀ c r n, x.held = .view c r n → c = cell := by
  induction ms with
  | nil => intro k es h; cases h; simp
  | cons m ms ih =>
    intro k es h
    simp only [unpadHeld] at h
    obtain ⟨q, -, h⟩ := bind_ok_iff h
    obtain ⟨xs, hxs, h⟩ := bind_ok_iff h
    cases h
    intro x hx c r n hh
    rcases List.mem_cons.1 hx with rfl | hx
    · simp only [Held.view.injEq] at hh; exact hh.1.symm
    · exact ih hxs x hx c r n hh

theorem batch_views {p : Nat → Prop} {mem : Mem α} {s : HColl α} {cell w : Nat} {md : Meta} (hs : ViewsIn p s) (hc : p cell) :
    ViewsIn p (stepHeld mem s (.batch cell md w)).2.1 ∧ (stepHeld mem s (.batch cell md w)).1 = mem := by
  simp only [stepHeld]
  split
  · rename_i es he
    obtain ⟨ms, -, he⟩ := bind_ok_iff he
    exact ⟨rows_views es hs (fun x hx c r n h => unpad_views ms he x hx c r n h ▸ hc), rfl⟩
  · exact ⟨hs, rfl⟩

theorem single_views {p : Nat → Prop} {mem : Mem α} {s : HColl α} {cell row n : Nat} {md : Meta} (hs : ViewsIn p s) (hc : p cell) :
    ViewsIn p (stepHeld mem s (.single cell row md n)).2.1 ∧ (stepHeld mem s (.single cell row md n)).1 = mem := by
  simp only [stepHeld]
  split
  · refine ⟨unary_views hs ?_, rfl⟩
    intro c r n h
    simp only [Held.view.injEq] at h
    exact h.1 ▸ hc
  · exact ⟨hs, rfl⟩

theorem single_now (mem : Mem α) (s : HColl α) (cell row n : Nat) (md : Meta) :
    updateItem (s.now mem) (.single ⟨md, mem.read cell row n⟩) = ((stepHeld mem s (.single cell row md n)).2.1.now mem, (stepHeld mem s (.single cell row md n)).2.2) := by
  simp only [updateItem, stepHeld]
  split
  · exact unary_now mem s ⟨md, .view cell row n⟩
  · rfl

theorem write_now (mem : Mem α) (s : HColl α) (cell : Nat) (f : Nat → Nat → α) (h : ViewsIn (fun c => c ≠ cell) s) : s.now (mem.write cell f) = s.now mem := by
  unfold HColl.now
  congr 1
  funext i
  cases he : s.entries i with
  | none => rfl
  | some e =>
    simp only [Option.map_some, HEntry.now]
    cases hh : e.held with
    | own g => rfl
    | view c r n =>
      have := h i e c r n he hh
      simp [Held.now, Mem.read, Mem.write, this]

theorem untouched_run (evs : List (MemEv α)) : ∀ (mem : Mem α) (s : HColl α) (_ : MdOK evs) (_ : Untouched evs) (_ : ViewsIn (fun c => ∀ f, MemEv.write c f ∉ evs) s),
    ((runHeld mem s evs).2.1.now (runHeld mem s evs).1, (runHeld mem s evs).2.2) = byValue mem (s.now mem) evs := by
  induction evs with
  | nil => intro mem s _ _ _; rfl
  | cons e es ih =>
    intro mem s hok hu hv
    have hv' : ViewsIn (fun c => ∀ f, MemEv.write c f ∉ es) s := fun i e c r n h1 h2 f h3 => hv i e c r n h1 h2 f (List.mem_cons_of_mem _ h3)
    cases e with
    | write cell f =>
      have hne : ViewsIn (fun c => c ≠ cell) s := by
        intro i e c r n h1 h2 h3
        subst h3
        exact hv i e c r n h1 h2 f (by simp)
      have := ih (mem.write cell f) s hok hu hv'
      rw [write_now mem s cell f hne] at this
      simp only [runHeld, stepHeld, byValue]
      rw [← this]
    | batch cell md w =>
      obtain ⟨h1, h2⟩ := batch_views (mem := mem) (w := w) (md := md) hv' hu.1
      have := ih mem _ hok.2 hu.2 h1
      simp only [runHeld, byValue]
      rw [step_now mem s cell md w hok.1, h2, ← this]
    | single cell row md n =>
      obtain ⟨h1, h2⟩ := single_views (mem := mem) (row := row) (md := md) (n := n) hv' hu.1
      have := ih mem _ hok.2 hu.2 h1
      simp only [runHeld, byValue]
      rw [single_now mem s cell row n md, h2, ← this]

/-- **C208, what holds without reuse.** If no memory is written into after it has been given to the collector, the collector shows at the end what it would hold if it had copied everything at once, and the same calls raise the same exceptions.
Missing: memory that is written into later (`C208_reuse_false`; what is shown then: `C208_exact_partial`). -/
theorem C208_fresh_partial (mem : Mem α) (evs : List (MemEv α)) (hok : MdOK evs) (hu : Untouched evs) :
    (runHeld mem HColl.new evs).2.1.now (runHeld mem HColl.new evs).1 = (byValue mem Coll.new evs).1 ∧ (runHeld mem HColl.new evs).2.2 = (byValue mem Coll.new evs).2 := by
  have := untouched_run evs mem HColl.new hok hu (by intro i e c r n h; cases h)
  have h2 : (HColl.new : HColl α).now mem = Coll.new := rfl
  rw [h2] at this
  rw [← this]
  exact ⟨rfl, rfl⟩

/-! ### Exceptions and metadata -/

/-- The number of frames. -/
def Held.count : Held α → Nat
  | .own f => f.length
  | .view _ _ n => n

theorem count_now (mem : Mem α) (h : Held α) : (h.now mem).length = h.count := by
  cases h <;> simp [Held.now, Held.count, Mem.read]

/-- The same ids, metadata and numbers of frames. -/
def Same (s : HColl α) (v : Coll α) : Prop :=
  s.closed = v.closed ∧ ∀ i, (s.entries i).map (fun e => (e.md, e.held.count)) = (v.entries i).map fun e => (e.md, e.frames.length)

theorem cat_split (a x : Entry α) : catEntry a x = (catEntry (α := Unit) ⟨a.md, List.replicate a.frames.length ()⟩ ⟨x.md, []⟩).map fun e => ⟨e.md, a.frames ++ x.frames⟩ := by
  unfold catEntry
  simp only [List.length_replicate]
  cases a.md.minLength with
  | error e => rfl
  | ok ml =>
    simp only [Except.bind_ok']
    split
    · rfl
    · cases catLength [a.md, x.md] <;> rfl

theorem unary_same {mem : Mem α} {s : HColl α} {v : Coll α} {x : HEntry α} {y : Entry α} (h : Same s v) (hm : x.md = y.md) (hn : x.held.count = y.frames.length) :
    (unaryHeld mem s x).2 = (updateUnary v y).2 ∧ Same (unaryHeld mem s x).1 (updateUnary v y).1 := by
  have hput : ∀ (s : HColl α) (v : Coll α) (i : String) (e : HEntry α) (g : Entry α), Same s v → e.md = g.md → e.held.count = g.frames.length → Same (s.put i e) (v.put i g) := by
    intro s v i e g h h1 h2
    refine ⟨h.1, fun j => ?_⟩
    simp only [HColl.put, Coll.put]
    split
    · simp [h1, h2]
    · exact h.2 j
  unfold unaryHeld updateUnary
  rw [hm]
  cases pyGet y.md.ids 0 with
  | error e => exact ⟨rfl, h⟩
  | ok i =>
    simp only
    rw [h.1]
    cases v.closed i with
    | true => exact ⟨rfl, h⟩
    | false =>
      simp only [Bool.false_eq_true, if_false]
      cases item y.md.eos with
      | error e => exact ⟨rfl, h⟩
      | ok eos =>
        cases item y.md.sos with
        | error e => exact ⟨rfl, h⟩
        | ok sos =>
          simp only
          have h' : Same (if eos then s.close i else s) (if eos then v.close i else v) := by
            cases eos with
            | false => exact h
            | true => exact ⟨by simp [HColl.close, Coll.close, h.1], h.2⟩
          generalize (if eos then s.close i else s) = s' at h'
          generalize (if eos then v.close i else v) = v' at h'
          have hi := h'.2 i
          unfold storeHeld store
          cases hs : s'.entries i with
          | none =>
            rw [hs] at hi
            have hv : v'.entries i = none := by
              cases hv : v'.entries i with
              | none => rfl
              | some e => rw [hv] at hi; cases hi
            rw [hv]
            cases sos with
            | true => exact ⟨rfl, hput _ _ _ _ _ h' hm hn⟩
            | false => exact ⟨rfl, h'⟩
          | some e =>
            rw [hs] at hi
            obtain ⟨g, hv, hg⟩ : ∃ g, v'.entries i = some g ∧ (e.md, e.held.count) = (g.md, g.frames.length) := by
              cases hv : v'.entries i with
              | none => rw [hv] at hi; cases hi
              | some g => rw [hv] at hi; exact ⟨g, rfl, Option.some.inj hi⟩
            simp only [Prod.mk.injEq] at hg
            rw [hv]
            cases sos with
            | true => exact ⟨rfl, h'⟩
            | false =>
              simp only [Bool.false_eq_true, if_false]
              unfold catHeld
              rw [cat_split (e.now mem) (x.now mem), cat_split g y]
              simp only [HEntry.now, count_now, hg.1, hg.2, hm]
              cases catEntry (α := Unit) ⟨g.md, List.replicate g.frames.length ()⟩ ⟨y.md, []⟩ with
              | error err => exact ⟨rfl, h'⟩
              | ok q =>
                refine ⟨rfl, hput _ _ _ _ _ h' rfl ?_⟩
                show (e.held.now mem ++ x.held.now mem).length = (g.frames ++ y.frames).length
                simp [count_now, hg.2, hn]

theorem rows_same {mem : Mem α} {es : List (HEntry α)} {gs : List (Entry α)} (he : List.Forall₂ (fun e g => e.md = g.md ∧ e.held.count = g.frames.length) es gs) :
    ∀ {s : HColl α} {v : Coll α}, Same s v → (rowsHeld mem s es).2 = (updateRows v gs).2 ∧ Same (rowsHeld mem s es).1 (updateRows v gs).1 := by
  induction he with
  | nil => intro s v h; exact ⟨rfl, h⟩
  | @cons e g es gs h1 _ ih =>
    intro s v h
    simp only [rowsHeld, updateRows, h1.1]
    cases g.md.maxLength with
    | error e => exact ⟨rfl, h⟩
    | ok ml =>
      simp only
      split
      · obtain ⟨h2, h3⟩ := unary_same (mem := mem) h h1.1 h1.2
        cases hu : unaryHeld mem s e with
        | mk s' o =>
          cases hw : updateUnary v g with
          | mk v' p =>
            rw [hu, hw] at h2 h3
            simp only at h2 h3
            subst h2
            cases o with
            | none => exact ih h3
            | some e => exact ⟨rfl, h3⟩
      · exact ih h

theorem batch_same {mem : Mem α} {s : HColl α} {v : Coll α} (cell w : Nat) {md : Meta} (hw : md.WF) (h : Same s v) :
    (stepHeld mem s (.batch cell md w)).2.2 = (updateItem v (.batch (batchIn mem cell md w))).2 ∧ Same (stepHeld mem s (.batch cell md w)).2.1 (updateItem v (.batch (batchIn mem cell md w))).1 := by
  simp only [updateItem, stepHeld, unpad, batchIn]
  cases hu : md.unbindBatch with
  | error e => exact ⟨rfl, h⟩
  | ok ms =>
    have hl : ms.length = md.ids.length := by
      have hmd := eq_ofRows md hw
      have hr := rows_length md hw
      by_cases hne : md.rows = []
      · rw [hmd, hne] at hu
        cases hu
        rw [hne] at hr
        exact hr
      · have := unbind_ofRows md.chunk.isSome md.rows hne
        rw [← hmd, hu] at this
        cases this
        simpa using hr
    simp only [Except.bind_ok']
    have := unpad_now mem cell w ms 0
    simp only [Nat.zero_add, hl] at this
    rw [this]
    cases unpadHeld mem cell w 0 ms with
    | error e => exact ⟨rfl, h⟩
    | ok es =>
      refine rows_same ?_ h
      rw [List.forall₂_map_right_iff]
      exact List.forall₂_same.2 fun e _ => ⟨rfl, (count_now mem e.held).symm⟩

theorem run_same (evs : List (MemEv α)) : ∀ (mem : Mem α) (s : HColl α) (v : Coll α) (_ : MdOK evs) (_ : Same s v),
    (runHeld mem s evs).2.2 = (byValue mem v evs).2 ∧ Same (runHeld mem s evs).2.1 (byValue mem v evs).1 := by
  induction evs with
  | nil => intro mem s v _ h; exact ⟨rfl, h⟩
  | cons e es ih =>
    intro mem s v hok h
    cases e with
    | write cell f =>
      obtain ⟨h1, h2⟩ := ih (mem.write cell f) s v hok h
      simp only [runHeld, stepHeld, byValue]
      exact ⟨by rw [h1], h2⟩
    | batch cell md w =>
      obtain ⟨h1, h2⟩ := batch_same (mem := mem) cell w hok.1 h
      obtain ⟨h3, h4⟩ := ih mem _ _ hok.2 h2
      have h5 := (batch_views (p := fun _ => True) (mem := mem) (s := s) (cell := cell) (w := w) (md := md) (fun _ _ _ _ _ _ _ => trivial) trivial).2
      simp only [runHeld, byValue]
      rw [h5]
      exact ⟨by rw [h1, h3], h4⟩
    | single cell row md n =>
      have h2 : (stepHeld mem s (.single cell row md n)).2.2 = (updateItem v (.single ⟨md, mem.read cell row n⟩)).2 ∧
          Same (stepHeld mem s (.single cell row md n)).2.1 (updateItem v (.single ⟨md, mem.read cell row n⟩)).1 := by
        simp only [stepHeld, updateItem]
        split
        · exact unary_same h rfl (by simp [Held.count, Mem.read])
        · exact ⟨rfl, h⟩
      obtain ⟨h3, h4⟩ := ih mem _ _ hok.2 h2.2
      have h5 := (single_views (p := fun _ => True) (mem := mem) (s := s) (cell := cell) (row := row) (n := n) (md := md) (fun _ _ _ _ _ _ _ => trivial) trivial).2
      simp only [runHeld, byValue]
      rw [h5]
      exact ⟨by rw [h2.1, h3], h4⟩

/-- C208, what reuse of memory cannot change: whatever is written where and when, the same calls raise the same exceptions, and the collector holds the same ids with the same metadata and numbers of frames, as if it had copied everything at once; only values can differ. -/
theorem C208_only_values (mem : Mem α) (evs : List (MemEv α)) (hok : MdOK evs) :
    (runHeld mem HColl.new evs).2.2 = (byValue mem Coll.new evs).2 ∧ (runHeld mem HColl.new evs).2.1.closed = (byValue mem Coll.new evs).1.closed ∧
    ∀ i m, (((runHeld mem HColl.new evs).2.1.now m).entries i).map (fun e => (e.md, e.frames.length)) = ((byValue mem Coll.new evs).1.entries i).map fun e => (e.md, e.frames.length) := by
  obtain ⟨h1, h2, h3⟩ := run_same evs mem HColl.new Coll.new hok ⟨rfl, fun _ => rfl⟩
  refine ⟨h1, h2, fun i m => ?_⟩
  rw [← h3 i]
  simp only [HColl.now, Option.map_map, Function.comp_def, HEntry.now, count_now]
end

/-- Two streams in batches that are written into one cell: `a` has the chunks `[1, 2]` and `[5]`, `b` the single chunk `[3]`; then other values are written into the cell. -/
def exShared : List (MemEv Int) :=
  [.write 0 (fun r p => if r = 0 then [1, 2].getD p 0 else [3, 0].getD p 0), .batch 0 ⟨["a", "b"], [true, true], [false, true], [2, 1], none⟩ 2,
   .write 1 (fun _ p => [5, 0].getD p 0), .batch 1 ⟨["a"], [false], [true], [1], none⟩ 2,
   .write 0 (fun _ _ => 9)]

/-- One stream of two chunks through one cell. -/
def exOneCell : List (MemEv Int) :=
  [.write 0 (fun _ p => [1, 2].getD p 0), .batch 0 ⟨["a"], [true], [false], [2], none⟩ 2, .write 0 (fun _ p => [5, 6].getD p 0), .batch 0 ⟨["a"], [false], [true], [2], none⟩ 2]

/-- **C208 is false of the code.** The outputs come in one piece of memory: `[1, 2]`, then `[5, 6]`; the collector holds `[5, 6, 5, 6]` instead of `[1, 2, 5, 6]`. A stream of one chunk shows what is written into its memory afterwards (9 instead of 3). -/
theorem C208_reuse_false :
    (((runHeld (fun _ _ _ => 0) HColl.new exOneCell).2.1.now (runHeld (fun _ _ _ => 0) HColl.new exOneCell).1).entries "a").map (·.frames) = some [5, 6, 5, 6] ∧
    ((byValue (fun _ _ _ => 0) Coll.new exOneCell).1.entries "a").map (·.frames) = some [1, 2, 5, 6] ∧
    (((runHeld (fun _ _ _ => 0) HColl.new exShared).2.1.now (runHeld (fun _ _ _ => 0) HColl.new exShared).1).entries "b").map (·.frames) = some [9] ∧
    ((byValue (fun _ _ _ => 0) Coll.new exShared).1.entries "b").map (·.frames) = some [3] := by decide +kernel

-- `a` in `exShared` has two chunks, and is not changed by what is written later.
example : MdOK exShared ∧ (∀ o ∈ (runHeld (fun _ _ _ => 0) HColl.new exShared).2.2, o = none) ∧
    (((runHeld (fun _ _ _ => 0) HColl.new exShared).2.1.now (runHeld (fun _ _ _ => 0) HColl.new exShared).1).entries "a").map (·.frames) = some [1, 2, 5] ∧
    (seen "a" (fun _ _ _ => 0) exShared).map (fun s => (s.cell, s.row, s.n, s.frames)) = [(0, 0, 2, [1, 2]), (1, 0, 1, [5])] ∧
    (seen "b" (fun _ _ _ => 0) exShared).map (fun s => (s.cell, s.row, s.n, s.frames)) = [(0, 1, 1, [3])] := by
  refine ⟨⟨by decide, by decide, trivial⟩, by decide +kernel, by decide +kernel, by decide +kernel, by decide +kernel⟩

-- Without the last step nothing that was collected is written into.
example : MdOK exShared.dropLast ∧ Untouched exShared.dropLast := by
  refine ⟨⟨by decide, by decide, trivial⟩, ?_, ?_, trivial⟩ <;> intro f h <;> simp [exShared] at h
end DS.Coll
