import Verif.Model.Gen
import Verif.Spec.Faults
import Verif.Lemmas.Zip
import Verif.Lemmas.Tensor
import Verif.Props.Batches
import Verif.Props.Sync
/-! C206: a file that cannot be read. -/

namespace DS.Data
section
variable {α β : Type}

/-! ### Zips of generators -/

theorem drive_raise (next : Nat → Next β) (L : Nat → List β) (e : PyErr) (n : Nat) (k fuel : Nat) (hf : n < fuel) (h : ∀ j < n, next (k + j) = .item (L (k + j))) (he : next (k + n) = .raise e) :
    drive next fuel k = ⟨(List.range n).map fun j => L (k + j), some e⟩ := by
  induction n generalizing k fuel with
  | zero =>
    cases fuel with
    | zero => omega
    | succ fuel => simp only [drive, Nat.add_zero] at he ⊢; rw [he]; rfl
  | succ n ih =>
    cases fuel with
    | zero => omega
    | succ fuel =>
      have h0 := h 0 (by omega)
      simp only [drive, Nat.add_zero] at h0 ⊢
      rw [h0]
      have := ih (k + 1) fuel (by omega) (fun j hj => by have := h (j + 1) (by omega); rwa [Nat.add_right_comm, ← Nat.add_assoc] at *) (by rw [← he]; congr 1; omega)
      simp only [this, List.range_succ_eq_map, List.map_cons, List.map_map, Nat.add_zero, Gen.mk.injEq, List.cons.injEq, true_and, and_true]
      apply List.map_congr_left
      intro j _
      simp only [Function.comp_apply]
      congr 1
      omega

theorem drive_stop (next : Nat → Next β) (L : Nat → List β) (n : Nat) (k fuel : Nat) (hf : n < fuel) (h : ∀ j < n, next (k + j) = .item (L (k + j))) (he : next (k + n) = .stop) :
    drive next fuel k = ⟨(List.range n).map fun j => L (k + j), none⟩ := by
  induction n generalizing k fuel with
  | zero =>
    cases fuel with
    | zero => omega
    | succ fuel => simp only [drive, Nat.add_zero] at he ⊢; rw [he]; rfl
  | succ n ih =>
    cases fuel with
    | zero => omega
    | succ fuel =>
      have h0 := h 0 (by omega)
      simp only [drive, Nat.add_zero] at h0 ⊢
      rw [h0]
      have := ih (k + 1) fuel (by omega) (fun j hj => by have := h (j + 1) (by omega); rwa [Nat.add_right_comm, ← Nat.add_assoc] at *) (by rw [← he]; congr 1; omega)
      simp only [this, List.range_succ_eq_map, List.map_cons, List.map_map, Nat.add_zero, Gen.mk.injEq, List.cons.injEq, true_and, and_true]
      apply List.map_congr_left
      intro j _
      simp only [Function.comp_apply]
      congr 1
      omega

/-- The exception of the first generator that raises at step `k`. -/
def errAt (k : Nat) (gs : List (Gen β)) : Option PyErr := gs.findSome? fun g => if g.items.length ≤ k then g.fail else none

theorem longLoop_eq (k : Nat) (gs : List (Gen β)) :
    longLoop k gs = match errAt k gs with | some e => .raise e | none => .item (layer (gs.map Gen.items) k) := by
  induction gs with
  | nil => rfl
  | cons g gs ih =>
    unfold longLoop errAt
    rw [List.findSome?_cons, List.map_cons, layer_cons]
    cases hk : g.items[k]? with
    | some x =>
      have hl : ¬ g.items.length ≤ k := by
        intro h
        rw [List.getElem?_eq_none h] at hk
        cases hk
      simp only [ih, if_neg hl]
      unfold errAt
      cases gs.findSome? fun g => if g.items.length ≤ k then g.fail else none <;> simp
    | none =>
      have hl : g.items.length ≤ k := List.getElem?_eq_none_iff.1 hk
      simp only [if_pos hl]
      cases g.fail with
      | some e => rfl
      | none =>
        simp only [ih]
        unfold errAt
        rfl

theorem errAt_none (k : Nat) (gs : List (Gen β)) (h : ∀ g ∈ gs, g.fail ≠ none → k < g.items.length) : errAt k gs = none := by
  unfold errAt
  rw [List.findSome?_eq_none_iff]
  intro g hg
  split
  · rename_i hl
    by_contra hf
    have := h g hg hf
    omega
  · rfl

/-- `zip_longest` of generators of which none raises. -/
theorem longG_ok (gs : List (Gen β)) (h : ∀ g ∈ gs, g.fail = none) : longG gs = ⟨zipLongest (gs.map Gen.items), none⟩ := by
  have he : ∀ k, errAt k gs = none := fun k => errAt_none k gs fun g hg hf => absurd (h g hg) hf
  have hn : ∀ j, j < maxLen (gs.map Gen.items) → longNext j gs = .item (layer (gs.map Gen.items) j) := by
    intro j hj
    unfold longNext
    rw [longLoop_eq, he]
    have := layer_ne_nil _ j hj
    cases hl : layer (gs.map Gen.items) j with
    | nil => exact absurd hl this
    | cons => rfl
  have hs : longNext (maxLen (gs.map Gen.items)) gs = .stop := by
    unfold longNext
    rw [longLoop_eq, he]
    have : layer (gs.map Gen.items) (maxLen (gs.map Gen.items)) = [] := by
      rw [List.eq_nil_iff_forall_not_mem]
      intro b hb
      obtain ⟨s, hs, hk⟩ := mem_layer.1 hb
      have := le_maxLen hs
      rw [List.getElem?_eq_none this] at hk
      cases hk
    rw [this]
  unfold longG callsOf
  rw [drive_stop _ (layer (gs.map Gen.items)) (maxLen (gs.map Gen.items)) 0 _ (by omega) (by simpa using hn) (by simpa using hs)]
  simp [zipLongest]

/-- `zip_longest` of generators: it raises when the first of them does, after what all have yielded until then. -/
theorem longG_fail (gs : List (Gen β)) (T : Nat) (e : PyErr) (h : ∀ g ∈ gs, g.fail ≠ none → T ≤ g.items.length) (he : errAt T gs = some e) :
    longG gs = ⟨(List.range T).map (layer (gs.map Gen.items)), some e⟩ := by
  obtain ⟨g, hg, hge⟩ := List.exists_of_findSome?_eq_some he
  have hgl : g.items.length ≤ T ∧ g.fail = some e := by
    split at hge
    · exact ⟨by assumption, hge⟩
    · cases hge
  have hT : g.items.length = T := by have := h g hg (by rw [hgl.2]; simp); omega
  have hmem : g.items ∈ gs.map Gen.items := List.mem_map_of_mem hg
  have hn : ∀ j, j < T → longNext j gs = .item (layer (gs.map Gen.items) j) := by
    intro j hj
    unfold longNext
    rw [longLoop_eq, errAt_none j gs fun q hq hf => by have := h q hq hf; omega]
    have hl := le_maxLen hmem
    have := layer_ne_nil (gs.map Gen.items) j (by omega)
    cases hl : layer (gs.map Gen.items) j with
    | nil => exact absurd hl this
    | cons => rfl
  have hs : longNext T gs = .raise e := by
    unfold longNext
    rw [longLoop_eq, he]
  have hl := le_maxLen hmem
  unfold longG callsOf
  rw [drive_raise _ (layer (gs.map Gen.items)) e T 0 _ (by omega) (by simpa using hn) (by simpa using hs)]
  simp

/-! ### The files of one stream -/

theorem chainG_eq (f : String → Py (List β)) (files : List String) : chainG f files = ⟨upTo f files, firstError f files⟩ := by
  induction files with
  | nil => rfl
  | cons x xs ih =>
    unfold chainG upTo firstError
    rw [List.takeWhile_cons]
    cases hx : f x with
    | ok ss =>
      have h1 : readable f x = true := by unfold readable; rw [hx]
      have h2 : samplesOf f x = ss := by unfold samplesOf; rw [hx]
      simp only [h1, if_true, List.flatMap_cons, h2, Gen.append, Gen.ofPy, ih, upTo]
    | error e =>
      have h1 : readable f x = false := by unfold readable; rw [hx]
      simp [h1, Gen.append, Gen.ofPy]


theorem firstError_none (f : String → Py (List β)) (files : List String) : firstError f files = none ↔ ∀ x ∈ files, readable f x = true := by
  induction files with
  | nil => simp [firstError]
  | cons x xs ih =>
    unfold firstError
    cases hx : f x with
    | ok ss => simp [ih, readable, hx]
    | error e => simp [readable, hx]

theorem upTo_ok (f : String → Py (List β)) (files : List String) (h : ∀ x ∈ files, readable f x = true) : upTo f files = files.flatMap (samplesOf f) := by
  unfold upTo
  congr 1
  induction files with
  | nil => rfl
  | cons x xs ih => rw [List.takeWhile_cons, if_pos (h x (by simp)), ih fun y hy => h y (by simp [hy])]

/-! ### `zip` -/

theorem zipNext_item (k : Nat) (gs : List (Gen β)) (h : ∀ g ∈ gs, k < g.items.length) : zipNext k gs = .item (layer (gs.map Gen.items) k) := by
  induction gs with
  | nil => rfl
  | cons g gs ih =>
    have h0 := h g (by simp)
    unfold zipNext
    rw [List.getElem?_eq_getElem h0, ih fun q hq => h q (by simp [hq]), List.map_cons, layer_cons, List.getElem?_eq_getElem h0]
    rfl

/-- The exception of the first generator with nothing left at step `k`. -/
def stopAt (k : Nat) (gs : List (Gen β)) : Option PyErr := (gs.find? fun g => decide (g.items.length ≤ k)).bind Gen.fail

theorem zipNext_end (k : Nat) (gs : List (Gen β)) (h : ∃ g ∈ gs, g.items.length ≤ k) : zipNext k gs = match stopAt k gs with | some e => .raise e | none => .stop := by
  induction gs with
  | nil => obtain ⟨g, hg, -⟩ := h; simp at hg
  | cons g gs ih =>
    unfold zipNext stopAt
    rw [List.find?_cons]
    cases hk : g.items[k]? with
    | some x =>
      have hl : ¬ g.items.length ≤ k := by
        intro h
        rw [List.getElem?_eq_none h] at hk
        cases hk
      have h' : ∃ g ∈ gs, g.items.length ≤ k := by
        obtain ⟨q, hq, hql⟩ := h
        rcases List.mem_cons.1 hq with rfl | hq
        · exact absurd hql hl
        · exact ⟨q, hq, hql⟩
      simp only [ih h', hl, decide_false, stopAt]
      cases (gs.find? fun g => decide (g.items.length ≤ k)).bind Gen.fail <;> rfl
    | none =>
      have hl : g.items.length ≤ k := List.getElem?_eq_none_iff.1 hk
      simp only [hl, decide_true, Option.bind_some]
      cases g.fail <;> rfl

/-- `zip` of generators: what all have yielded; it raises if the first of the shortest generators does. -/
theorem zipG_eq (gs : List (Gen β)) (hne : gs ≠ []) : zipG gs = ⟨zipShort (gs.map Gen.items), stopAt (minLen (gs.map Gen.items)) gs⟩ := by
  have hmin : ∀ g ∈ gs, minLen (gs.map Gen.items) ≤ g.items.length := fun g hg => minLen_le (List.mem_map_of_mem hg)
  have hat : ∃ g ∈ gs, g.items.length ≤ minLen (gs.map Gen.items) := by
    by_contra hcon
    simp only [not_exists, not_and, Nat.not_le] at hcon
    obtain ⟨g, r, rfl⟩ := List.exists_cons_of_ne_nil hne
    have : ∀ (x : Nat) (xs : List Nat), xs.foldr min x = x ∨ xs.foldr min x ∈ xs := by
      intro x xs
      induction xs with
      | nil => simp
      | cons a as ih =>
        simp only [List.foldr_cons]
        rcases Nat.le_total a (as.foldr min x) with h | h
        · rw [Nat.min_eq_left h]; simp
        · rw [Nat.min_eq_right h]
          rcases ih with h' | h'
          · exact .inl h'
          · exact .inr (by simp [h'])
    rcases this g.items.length ((r.map Gen.items).map List.length) with h | h
    · have := hcon g (by simp)
      simp only [List.map_cons, minLen] at this
      omega
    · obtain ⟨s, hs, hsl⟩ := List.mem_map.1 h
      obtain ⟨q, hq, rfl⟩ := List.mem_map.1 hs
      have := hcon q (by simp [hq])
      simp only [List.map_cons, minLen] at this
      omega
  obtain ⟨g0, hg0, hg0l⟩ := hat
  have hle : minLen (gs.map Gen.items) ≤ maxLen (gs.map Gen.items) := Nat.le_trans (hmin g0 hg0) (le_maxLen (List.mem_map_of_mem hg0))
  have hitem : ∀ j, j < minLen (gs.map Gen.items) → zipNext j gs = .item (layer (gs.map Gen.items) j) := fun j hj =>
    zipNext_item j gs fun g hg => Nat.lt_of_lt_of_le hj (hmin g hg)
  have hend := zipNext_end (minLen (gs.map Gen.items)) gs ⟨g0, hg0, hg0l⟩
  have hemp : gs.isEmpty = false := by cases gs with | nil => exact absurd rfl hne | cons => rfl
  unfold zipG callsOf
  rw [hemp]
  simp only [Bool.false_eq_true, if_false]
  cases hs : stopAt (minLen (gs.map Gen.items)) gs with
  | some e =>
    rw [hs] at hend
    rw [drive_raise _ (layer (gs.map Gen.items)) e (minLen (gs.map Gen.items)) 0 _ (by omega) (by simpa using hitem) (by simpa using hend)]
    simp [zipShort]
  | none =>
    rw [hs] at hend
    rw [drive_stop _ (layer (gs.map Gen.items)) (minLen (gs.map Gen.items)) 0 _ (by omega) (by simpa using hitem) (by simpa using hend)]
    simp [zipShort]

theorem le_minLen {ss : List (List β)} {n : Nat} (hne : ss ≠ []) (h : ∀ l ∈ ss, n ≤ l.length) : n ≤ minLen ss := by
  obtain ⟨s, r, rfl⟩ := List.exists_cons_of_ne_nil hne
  have : ∀ (x : Nat) (xs : List Nat), n ≤ x → (∀ y ∈ xs, n ≤ y) → n ≤ xs.foldr min x := by
    intro x xs hx hxs
    induction xs with
    | nil => exact hx
    | cons a as ih => exact Nat.le_min.2 ⟨hxs a (by simp), ih fun y hy => hxs y (by simp [hy])⟩
  apply this _ _ (h s (by simp))
  intro y hy
  obtain ⟨l, hl, rfl⟩ := List.mem_map.1 hy
  exact h l (by simp [hl])

/-! ### A dataset -/

theorem everyFrom_mem (i b : Nat) (order : List String) (x : String) (h : x ∈ everyFrom i b order) : x ∈ order := by
  obtain ⟨p, hp, rfl⟩ := List.mem_map.1 h
  exact List.fst_mem_of_mem_zipIdx (List.mem_filter.1 hp).1

/-- The generators of a dataset, one for each stream. -/
theorem lanes_eq (f : String → Py (List (Sample α))) (b : Nat) (order : List String) :
    ((List.range b).map fun i => chainG f (everyFrom i b order)) = (List.range b).map fun i => ⟨upTo f (everyFrom i b order), firstError f (everyFrom i b order)⟩ :=
  List.map_congr_left fun j _ => chainG_eq f _

/-- C206, a dataset whose files can all be read yields what the model without exceptions midway says, and it returns. Missing: files that cannot be read (`C206_only_itself_false`). -/
theorem C206_readable_partial (f : String → Py (List (Sample α))) (b : Nat) (order : List String) (h : ∀ x ∈ order, readable f x = true) (drop : Bool) :
    streamsG f b drop order = Gen.ofPy (getStreams f b drop order) := by
  have hS : ∀ x ∈ order, f x = .ok (samplesOf f x) := by
    intro x hx
    have := h x hx
    unfold readable at this
    unfold samplesOf
    cases hf : f x with
    | ok ss => rfl
    | error e => rw [hf] at this; cases this
  have hl : ∀ i, ∀ x ∈ everyFrom i b order, readable f x = true := fun i x hx => h x (everyFrom_mem i b order x hx)
  have hgs : ((List.range b).map fun i => chainG f (everyFrom i b order)) = (List.range b).map fun i => ⟨(everyFrom i b order).flatMap (samplesOf f), none⟩ := by
    rw [lanes_eq]
    apply List.map_congr_left
    intro i _
    rw [upTo_ok f _ (hl i), (firstError_none f _).2 (hl i)]
  have hall : allStreams f ((List.range b).map fun i => everyFrom i b order) = .ok ((List.range b).map fun i => (everyFrom i b order).flatMap (samplesOf f)) := by
    rw [allStreams_ok f (samplesOf f), List.map_map]
    · rfl
    · intro l hl x hx
      obtain ⟨i, _, rfl⟩ := List.mem_map.1 hl
      exact hS x (everyFrom_mem i b order x hx)
  unfold streamsG getStreams
  rw [hgs, hall, Except.bind_ok']
  rcases Nat.eq_zero_or_pos b with rfl | hb
  · cases drop <;> rfl
  cases drop with
  | false =>
    simp only [Bool.false_eq_true, if_false, Gen.ofPy]
    rw [longG_ok _ (by intro g hg; obtain ⟨i, _, rfl⟩ := List.mem_map.1 hg; rfl), List.map_map]
    rfl
  | true =>
    simp only [if_true]
    rw [zipG_eq _ (by intro h; have := congrArg List.length h; simp at this; omega), List.map_map]
    have : ∀ k, stopAt k ((List.range b).map fun i => (⟨(everyFrom i b order).flatMap (samplesOf f), none⟩ : Gen (Sample α))) = none := by
      intro k
      unfold stopAt
      cases hq : List.find? _ _ with
      | none => rfl
      | some g =>
        obtain ⟨i, _, rfl⟩ := List.mem_map.1 (List.mem_of_find?_eq_some hq)
        rfl
    unfold forceLastG
    simp only [this]
    rfl

/-- C206, exactly, without `drop_last`: the dataset raises the exception of the first file that is reached and cannot be read, after the batches before that: as many as there are samples before that file in its own stream. Missing: nothing of the other streams
beyond that, and none of the files after it, is delivered (`C206_only_itself_false`). -/
theorem C206_stops_partial (f : String → Py (List (Sample α))) (b : Nat) (order : List String) (i : Nat) (hi : i < b) (e : PyErr) (he : firstError f (everyFrom i b order) = some e)
    (hfirst : ∀ j < b, firstError f (everyFrom j b order) ≠ none → (upTo f (everyFrom i b order)).length ≤ (upTo f (everyFrom j b order)).length ∧
      (j < i → (upTo f (everyFrom i b order)).length < (upTo f (everyFrom j b order)).length)) :
    streamsG f b false order = ⟨(List.range (upTo f (everyFrom i b order)).length).map fun k => (List.range b).filterMap fun j => (upTo f (everyFrom j b order))[k]?, some e⟩ := by
  unfold streamsG
  simp only [Bool.false_eq_true, if_false]
  have hgs : ((List.range b).map fun i => chainG f (everyFrom i b order)) = (List.range b).map fun i => ⟨upTo f (everyFrom i b order), firstError f (everyFrom i b order)⟩ := by
    apply List.map_congr_left
    intro j _
    exact chainG_eq f _
  rw [hgs, longG_fail _ (upTo f (everyFrom i b order)).length e]
  · simp only [Gen.mk.injEq, and_true]
    apply List.map_congr_left
    intro k _
    simp [layer, List.filterMap_map, Function.comp_def]
  · intro g hg hf
    obtain ⟨j, hj, rfl⟩ := List.mem_map.1 hg
    exact (hfirst j (List.mem_range.1 hj) hf).1
  · unfold errAt
    rw [List.findSome?_map]
    have hsplit : List.range b = List.range i ++ (i :: (List.range (b - i - 1)).map (i + 1 + ·)) := by
      have : b = i + ((b - i - 1) + 1) := by omega
      conv_lhs => rw [this, List.range_add, List.range_succ_eq_map]
      simp [Nat.add_comm, Nat.add_left_comm, Function.comp_def]
    rw [hsplit, List.findSome?_append]
    have hnone : (List.range i).findSome? ((fun g : Gen (Sample α) => if g.items.length ≤ (upTo f (everyFrom i b order)).length then g.fail else none) ∘
        fun i => ⟨upTo f (everyFrom i b order), firstError f (everyFrom i b order)⟩) = none := by
      rw [List.findSome?_eq_none_iff]
      intro j hj
      have hj' := List.mem_range.1 hj
      simp only [Function.comp_apply]
      split
      · rename_i hl
        by_contra hne
        have := (hfirst j (by omega) hne).2 hj'
        omega
      · rfl
    rw [hnone]
    simp [List.findSome?_cons, he]


/-- C206, exactly, with `drop_last`: the batches all streams have, except that the last of them is lost (it was held back to be marked as the end, lines 177-191) if the first of the streams that end there ends with a file that cannot be read. Missing: nothing beyond. -/
theorem C206_drop_last_partial (f : String → Py (List (Sample α))) (b : Nat) (order : List String) (i : Nat) (hi : i < b)
    (hmin : ∀ j < b, (upTo f (everyFrom i b order)).length ≤ (upTo f (everyFrom j b order)).length)
    (hfirst : ∀ j < i, (upTo f (everyFrom i b order)).length < (upTo f (everyFrom j b order)).length) :
    streamsG f b true order =
      match firstError f (everyFrom i b order) with
      | some e => ⟨(List.range ((upTo f (everyFrom i b order)).length - 1)).map fun k => (List.range b).filterMap fun j => (upTo f (everyFrom j b order))[k]?, some e⟩
      | none => Gen.ofPy (forceLast ((List.range (upTo f (everyFrom i b order)).length).map fun k => (List.range b).filterMap fun j => (upTo f (everyFrom j b order))[k]?)) := by
  have hpos : 0 < b := by omega
  have hm : minLen (((List.range b).map fun i => (⟨upTo f (everyFrom i b order), firstError f (everyFrom i b order)⟩ : Gen (Sample α))).map Gen.items) = (upTo f (everyFrom i b order)).length := by
    apply Nat.le_antisymm
    · apply minLen_le
      rw [List.map_map]
      exact List.mem_map.2 ⟨i, List.mem_range.2 hi, rfl⟩
    · apply le_minLen
      · intro h
        have := congrArg List.length h
        simp at this
        omega
      · intro l hl
        rw [List.map_map] at hl
        obtain ⟨j, hj, rfl⟩ := List.mem_map.1 hl
        exact hmin j (List.mem_range.1 hj)
  have hstop : stopAt (upTo f (everyFrom i b order)).length ((List.range b).map fun i => (⟨upTo f (everyFrom i b order), firstError f (everyFrom i b order)⟩ : Gen (Sample α))) = firstError f (everyFrom i b order) := by
    unfold stopAt
    have hsplit : List.range b = List.range i ++ (i :: (List.range (b - i - 1)).map (i + 1 + ·)) := by
      have : b = i + ((b - i - 1) + 1) := by omega
      conv_lhs => rw [this, List.range_add, List.range_succ_eq_map]
      simp [Nat.add_comm, Nat.add_left_comm, Function.comp_def]
    rw [hsplit, List.map_append, List.find?_append]
    have hnone : ((List.range i).map fun i => (⟨upTo f (everyFrom i b order), firstError f (everyFrom i b order)⟩ : Gen (Sample α))).find? (fun g => decide (g.items.length ≤ (upTo f (everyFrom i b order)).length)) = none := by
      rw [List.find?_eq_none]
      intro g hg
      obtain ⟨j, hj, rfl⟩ := List.mem_map.1 hg
      have := hfirst j (List.mem_range.1 hj)
      simp only [decide_eq_true_eq]
      omega
    rw [hnone]
    simp
  unfold streamsG
  simp only [if_true]
  rw [lanes_eq, zipG_eq _ (by intro h; have := congrArg List.length h; simp at this; omega)]
  unfold forceLastG zipShort
  simp only [hm, hstop]
  have hlay : layer (((List.range b).map fun i => (⟨upTo f (everyFrom i b order), firstError f (everyFrom i b order)⟩ : Gen (Sample α))).map Gen.items) = fun k => (List.range b).filterMap fun j => (upTo f (everyFrom j b order))[k]? := by
    funext k
    simp [layer, List.filterMap_map, Function.comp_def]
  rw [hlay]
  cases firstError f (everyFrom i b order) with
  | none => rfl
  | some e =>
    simp only [Gen.mk.injEq, and_true]
    cases (upTo f (everyFrom i b order)).length with
    | zero => rfl
    | succ n => simp [List.range_succ]

/-! ### Several workers -/

/-- C206, several workers without `drop_last`: the loader raises when the first worker that is asked raises, after the batches before; the parts of the other workers are still asked for in that step but not delivered. Missing: nothing after that is delivered (`C206_only_itself_false`). -/
theorem C206_workers_partial (parts : List (Gen (List (Sample α)))) (n : Nat) (e : PyErr) (hn : ∀ g ∈ parts, g.fail ≠ none → n ≤ g.items.length)
    (he : (parts.findSome? fun g => if g.items.length ≤ n then g.fail else none) = some e) (fuel : Nat) :
    loaderG false true fuel parts = ((List.range n).map fun k => parts.flatMap fun g => (g.items[k]?).getD [], .raised e) := by
  unfold loaderG mergeG
  simp only [Bool.false_eq_true, if_false, if_true]
  rw [longG_fail parts n e hn he]
  simp only [List.map_map, Prod.mk.injEq, and_true]
  apply List.map_congr_left
  intro k _
  simp only [Function.comp_apply, layer]
  clear hn he
  induction parts with
  | nil => rfl
  | cons g gs ih =>
    simp only [List.map_cons, List.filterMap_cons, List.flatMap_cons]
    cases g.items[k]? with
    | none => simpa using ih
    | some x => rw [List.flatten_cons, ih]; rfl

/-! ### Without overlapping batches -/

theorem fill_more (active : List String) (n : Nat) (d : Bufs α) (s more : List (List (Sample α))) (h : (fill active n false d s).2.1 = false) :
    fill active n false d (s ++ more) = ((fill active n false d s).1 ++ more, false, (fill active n false d s).2.2) ∧
      continueBuffering false active (fill active n false d s).2.2 n = false := by
  induction s generalizing d with
  | nil =>
    unfold fill at h ⊢
    by_cases hc : continueBuffering false active d n = true
    · simp [hc] at h
    · simp only [hc, Bool.false_eq_true, if_false]
      cases more with
      | nil => simp [fill, hc]
      | cons b bs => simp [fill, hc]
  | cons b bs ih =>
    unfold fill at h
    rw [List.cons_append]
    unfold fill
    by_cases hc : continueBuffering false active d n = true
    · simp only [hc, if_true] at h ⊢
      exact ih _ h
    · simp [hc]

theorem popAll_head (d : Bufs α) (i : String) (is : List String) (h : d.get i ≠ []) : (popAll d (i :: is)).1.isEmpty = false := by
  unfold popAll
  cases hd : d.get i with
  | nil => exact absurd hd h
  | cons s q => rfl

/-- A step that does not find the stream exhausted does the same whatever follows, and it neither returns nor raises. -/
theorem syncStep_more (n : Nat) (st : SyncSt α) (hemp : st.empty = false) (h : (fill st.active n st.empty st.bufs st.stream).2.1 = false) (more : List (List (Sample α))) :
    (∃ b st', syncStep n st = .yield b st' ∧ st'.empty = false ∧ syncStep n { st with stream := st.stream ++ more } = .yield b { st' with stream := st'.stream ++ more }) ∨
    (∃ st', syncStep n st = .next st' ∧ st'.empty = false ∧ syncStep n { st with stream := st.stream ++ more } = .next { st' with stream := st'.stream ++ more }) := by
  obtain ⟨stream, empty, active, bufs⟩ := st
  simp only at hemp h ⊢
  subst hemp
  obtain ⟨hm, hc⟩ := fill_more active n bufs stream more h
  unfold syncStep
  simp only [hm, h]
  cases active with
  | nil =>
    right
    simp only [popAll, List.isEmpty_nil, if_true, Bool.false_and, Bool.false_eq_true, if_false]
    exact ⟨_, rfl, rfl, rfl⟩
  | cons i is =>
    left
    have hne : (fill (i :: is) n false bufs stream).2.2.get i ≠ [] := by
      intro hnil
      unfold continueBuffering at hc
      simp only [Bool.false_eq_true, if_false, Bool.or_eq_false_iff, decide_eq_false_iff_not] at hc
      have h1 := hc.1
      rw [List.filter_cons, if_neg (by simp [hnil, endBuffered])] at h1
      have := List.length_filter_le (fun i_1 => endBuffered ((fill (i :: is) n false bufs stream).2.2.get i_1)) is
      simp only [List.length_cons] at h1
      omega
    have hp := popAll_head _ _ is hne
    simp only [hp, Bool.false_eq_true, if_false]
    exact ⟨_, _, rfl, rfl, rfl⟩

theorem syncRunG_prefix (e : PyErr) (n fuel : Nat) (st : SyncSt α) (hemp : st.empty = false) (more : List (List (Sample α))) :
    (syncRunG (some e) n fuel st).1 <+: (syncRun n fuel { st with stream := st.stream ++ more }).1 ∧
      ((syncRunG (some e) n fuel st).2 = .raised e ∨ (syncRunG (some e) n fuel st).2 = .running ∧ (syncRun n fuel { st with stream := st.stream ++ more }).2 = .running) := by
  induction fuel generalizing st with
  | zero => exact ⟨List.prefix_rfl, .inr ⟨rfl, rfl⟩⟩
  | succ fuel ih =>
    unfold syncRunG syncStepG
    simp only [hemp, Bool.not_false, Bool.and_true]
    by_cases hf : (fill st.active n false st.bufs st.stream).2.1 = true
    · simp only [hf, if_true]
      exact ⟨List.nil_prefix, .inl trivial⟩
    · simp only [hf, Bool.false_eq_true, if_false]
      unfold syncRun
      rcases syncStep_more n st hemp (by rw [hemp]; simpa using hf) more with ⟨b, st', h1, h2, h3⟩ | ⟨st', h1, h2, h3⟩ <;> rw [hemp] at h3
      · simp only [h1, h3]
        obtain ⟨p, q⟩ := ih st' h2
        exact ⟨(List.prefix_cons_inj b).2 p, q⟩
      · simp only [h1, h3]
        exact ih st' h2

theorem syncRunG_none (n fuel : Nat) (st : SyncSt α) : syncRunG none n fuel st = syncRun n fuel st := by
  induction fuel generalizing st with
  | zero => rfl
  | succ fuel ih =>
    unfold syncRunG syncRun syncStepG
    simp only
    cases syncStep n st <;> simp [ih]

/-- C206, without overlapping batches: what is delivered before the exception is what would have been delivered whatever followed, and the loader then raises the exception of the file: it does not return, and it raises nothing else. Missing: what was already
read but not yet delivered is lost (`C206_only_itself_false`). -/
theorem C206_synchronous_partial (items : List (List (Sample α))) (e : PyErr) (fuel : Nat) (more : List (List (Sample α))) (hne : items ≠ []) :
    (syncG fuel ⟨items, some e⟩).1 <+: (sync fuel (items ++ more)).1 ∧
      ((sync fuel (items ++ more)).2 ≠ .running → (syncG fuel ⟨items, some e⟩).2 = .raised e) ∧
      ((syncG fuel ⟨items, some e⟩).2 = .raised e ∨ (syncG fuel ⟨items, some e⟩).2 = .running) := by
  obtain ⟨b, bs, rfl⟩ := List.exists_cons_of_ne_nil hne
  obtain ⟨h1, h2⟩ := syncRunG_prefix e b.length fuel ⟨bs, false, b.map Sample.id, Bufs.first b⟩ rfl more
  refine ⟨h1, ?_, ?_⟩
  · intro h
    rcases h2 with h2 | h2
    · exact h2
    · exact absurd h2.2 h
  · rcases h2 with h2 | h2
    · exact .inl h2
    · exact .inr h2.1

/-- C206, without overlapping batches, if the first batch cannot be read: the exception and nothing else. Missing: files of other streams that can be read. -/
theorem C206_nothing_read_partial (fuel : Nat) (e : PyErr) : syncG fuel (⟨[], some e⟩ : Gen (List (Sample α))) = ([], .raised e) := by
  simp [syncG]

/-- C206, without overlapping batches, nothing is different if all files can be read. Missing: files that cannot (`C206_only_itself_false`). -/
theorem C206_synchronous_readable_partial (items : List (List (Sample α))) (fuel : Nat) : syncG fuel ⟨items, none⟩ = sync fuel items := by
  cases items with
  | nil => rfl
  | cons b bs => exact syncRunG_none _ _ _

/-- Four files, one of which cannot be read. -/
def exFaulty : String → Py (List (Sample Nat))
  | "a" => .ok [⟨[1], true, false, 1, 0, 3, "a"⟩, ⟨[2], false, false, 1, 1, 3, "a"⟩, ⟨[3], false, true, 1, 2, 3, "a"⟩]
  | "b" => .ok [⟨[4], true, true, 1, 0, 1, "b"⟩]
  | "c" => .ok [⟨[5], true, false, 1, 0, 3, "c"⟩, ⟨[6], false, false, 1, 1, 3, "c"⟩, ⟨[7], false, true, 1, 2, 3, "c"⟩]
  | _ => .error .runtimeError

/-- C206 is false: the file `a` has been read whole, but only its first sample is delivered, because the loader looks for the next file before it delivers the others; of `c`, in the other stream, and of `b` after the bad file nothing is. -/
theorem C206_only_itself_false :
    (loaderG false false 20 [streamsG exFaulty 2 false ["a", "b", "bad", "c", "b"]]) = ([[⟨[1], true, false, 1, 0, 3, "a"⟩, ⟨[4], true, true, 1, 0, 1, "b"⟩]], .raised .runtimeError) ∧
    streamsG exFaulty 2 false ["a", "b", "bad", "c", "b"] = ⟨[[⟨[1], true, false, 1, 0, 3, "a"⟩, ⟨[4], true, true, 1, 0, 1, "b"⟩], [⟨[2], false, false, 1, 1, 3, "a"⟩, ⟨[5], true, false, 1, 0, 3, "c"⟩],
      [⟨[3], false, true, 1, 2, 3, "a"⟩, ⟨[6], false, false, 1, 1, 3, "c"⟩]], some .runtimeError⟩ ∧
    (loaderG false false 20 [streamsG exFaulty 2 false ["a", "b", "c"]]).2 = .returned := by
  decide +kernel

-- the hypotheses of C206_stops_partial: the first stream is `a`, the bad file, `b`; the second `b`, `c`
example : firstError exFaulty (everyFrom 0 2 ["a", "b", "bad", "c", "b"]) = some .runtimeError ∧ (upTo exFaulty (everyFrom 0 2 ["a", "b", "bad", "c", "b"])).length = 3 ∧
    firstError exFaulty (everyFrom 1 2 ["a", "b", "bad", "c", "b"]) = none := by decide +kernel

-- two streams with a bad file: the one that is reached first decides
example : streamsG exFaulty 2 false ["a", "b", "bad", "worse"] = ⟨[[⟨[1], true, false, 1, 0, 3, "a"⟩, ⟨[4], true, true, 1, 0, 1, "b"⟩]], some .runtimeError⟩ := by decide +kernel

-- drop_last: the second stream ends first and can be read, so the bad file is never reached; in the other order it is, and the batch held back is lost
example : streamsG exFaulty 2 true ["a", "b", "bad"] = ⟨[[⟨[1], true, true, 1, 0, 3, "a"⟩, ⟨[4], true, true, 1, 0, 1, "b"⟩]], none⟩ ∧
    streamsG exFaulty 2 true ["b", "a", "bad"] = ⟨[], some .runtimeError⟩ ∧ streamsG exFaulty 2 true ["a", "a", "bad", "b"] =
      ⟨[[⟨[1], true, false, 1, 0, 3, "a"⟩, ⟨[1], true, false, 1, 0, 3, "a"⟩], [⟨[2], false, false, 1, 1, 3, "a"⟩, ⟨[2], false, false, 1, 1, 3, "a"⟩]], some .runtimeError⟩ := by decide +kernel

-- the hypotheses of C206_drop_last_partial, both cases
example : (upTo exFaulty (everyFrom 1 2 ["a", "b", "bad"])).length = 1 ∧ (upTo exFaulty (everyFrom 0 2 ["a", "b", "bad"])).length = 3 ∧ firstError exFaulty (everyFrom 1 2 ["a", "b", "bad"]) = none ∧
    (upTo exFaulty (everyFrom 0 2 ["b", "a", "bad"])).length = 1 ∧ (upTo exFaulty (everyFrom 1 2 ["b", "a", "bad"])).length = 3 ∧ firstError exFaulty (everyFrom 0 2 ["b", "a", "bad"]) = some .runtimeError := by decide +kernel

-- two workers, the second of which raises after one batch
example : loaderG false true 0 [streamsG exFaulty 1 false ["a", "b"], streamsG exFaulty 1 false ["b", "bad", "c"]] = ([[⟨[1], true, false, 1, 0, 3, "a"⟩, ⟨[4], true, true, 1, 0, 1, "b"⟩]], .raised .runtimeError) := by decide +kernel

-- the last file of a long stream cannot be read: whole groups before it are delivered
example : ((loaderG false false 40 [streamsG exFaulty 1 false ["b", "a", "c", "bad"]]).1.map fun b => b.map fun s => (s.id, s.chunkIndex)) = [[("b", 0)], [("a", 0)], [("a", 1)], [("a", 2)], [("c", 0)], [("c", 1)], [("c", 2)]] := by decide +kernel

end
end DS.Data
