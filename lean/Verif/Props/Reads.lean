import Verif.Spec.Reads
import Verif.Props.RepeatAll
import Verif.Props.Split
import Verif.Props.ListOrder
import Verif.Props.Faults
/-!
# C225: every file is opened once per iteration
-/

namespace DS.Data

section
variable {α : Type}

/-! ### What is left in a stream -/

/-- The files still to be loaded. -/
def evLoads (l : List (Ev α)) : List String := l.filterMap fun | .load x => some x | _ => none

/-- The samples still to be given. -/
def evItems (l : List (Ev α)) : List (Sample α) := l.filterMap fun | .item s => some s | _ => none

/-- Nothing will fail. -/
def NoFail (l : List (Ev α)) : Prop := ∀ e, Ev.fail e ∉ l

theorem evLoads_append (a b : List (Ev α)) : evLoads (a ++ b) = evLoads a ++ evLoads b := List.filterMap_append ..
theorem evItems_append (a b : List (Ev α)) : evItems (a ++ b) = evItems a ++ evItems b := List.filterMap_append ..

theorem evs_items (ss : List (Sample α)) : evLoads (ss.map Ev.item) = [] ∧ evItems (ss.map Ev.item) = ss ∧ NoFail (ss.map Ev.item) := by
  unfold evLoads evItems
  refine ⟨?_, ?_, ?_⟩
  · rw [List.filterMap_map]; exact List.filterMap_eq_nil_iff.2 fun _ _ => rfl
  · rw [List.filterMap_map]; exact List.filterMap_some
  · intro e h; simp at h

theorem lane_cons (f : String → Py (List (Sample α))) (x : String) (xs : List String) :
    laneEvents f (x :: xs) = (.load x :: (match f x with | .ok ss => ss.map .item | .error e => [.fail e])) ++ laneEvents f xs := rfl

theorem lane_cons_ok (f : String → Py (List (Sample α))) (x : String) (xs : List String) (ss : List (Sample α)) (h : f x = .ok ss) :
    laneEvents f (x :: xs) = .load x :: (ss.map .item ++ laneEvents f xs) := by
  rw [lane_cons, h]
  rfl

theorem evLoads_lane (f : String → Py (List (Sample α))) (files : List String) : evLoads (laneEvents f files) = files := by
  induction files with
  | nil => rfl
  | cons x xs ih =>
    cases h : f x with
    | ok ss =>
      have : evLoads (.load x :: (ss.map .item ++ laneEvents f xs)) = x :: evLoads (ss.map .item ++ laneEvents f xs) := rfl
      rw [lane_cons_ok f x xs ss h, this, evLoads_append, (evs_items ss).1, ih]
      rfl
    | error e =>
      rw [lane_cons, h, evLoads_append, ih]
      rfl

theorem evItems_lane (f : String → Py (List (Sample α))) (S : String → List (Sample α)) (files : List String) (hf : ∀ x ∈ files, f x = .ok (S x)) :
    evItems (laneEvents f files) = files.flatMap S ∧ NoFail (laneEvents f files) := by
  induction files with
  | nil => exact ⟨rfl, by intro e h; simp [laneEvents] at h⟩
  | cons x xs ih =>
    obtain ⟨h1, h2⟩ := ih fun y hy => hf y (by simp [hy])
    rw [lane_cons_ok f x xs (S x) (hf x (by simp))]
    constructor
    · have : evItems (.load x :: ((S x).map .item ++ laneEvents f xs)) = evItems ((S x).map .item ++ laneEvents f xs) := rfl
      rw [this, evItems_append, (evs_items _).2.1, h1]
      rfl
    · intro e he
      rcases List.mem_cons.1 he with he | he
      · cases he
      · rcases List.mem_append.1 he with he | he
        · exact (evs_items (S x)).2.2 e he
        · exact h2 e he

/-! ### One stream -/

theorem pull_count (l : List (Ev α)) (x : String) : (pull l).1.count x + (evLoads (pull l).2.2).count x ≤ (evLoads l).count x := by
  induction l with
  | nil => simp [pull, evLoads]
  | cons ev r ih =>
    cases ev with
    | load y =>
      simp only [pull, evLoads, List.filterMap_cons, List.count_cons] at *
      omega
    | item s => simp [pull, evLoads]
    | fail e => simp [pull, evLoads]

theorem pull_ok (l : List (Ev α)) (h : NoFail l) :
    (pull l).1 ++ evLoads (pull l).2.2 = evLoads l ∧ NoFail (pull l).2.2 ∧
      ((evItems l = [] ∧ (pull l).2.1 = .done ∧ (pull l).2.2 = []) ∨ ∃ s r, evItems l = s :: r ∧ (pull l).2.1 = .item s ∧ evItems (pull l).2.2 = r) := by
  induction l with
  | nil => exact ⟨rfl, h, .inl ⟨rfl, rfl, rfl⟩⟩
  | cons ev r ih =>
    have hr : NoFail r := fun e he => h e (by simp [he])
    cases ev with
    | load y =>
      obtain ⟨h1, h2, h3⟩ := ih hr
      refine ⟨?_, h2, ?_⟩
      · simp only [pull, List.cons_append, h1]
        rfl
      · exact h3
    | item s => exact ⟨rfl, hr, .inr ⟨s, evItems r, rfl, rfl, rfl⟩⟩
    | fail e => exact absurd (List.mem_cons_self ..) (h e)

/-! ### One round -/

/-- The files still to be loaded in all streams. -/
def allLoads (ls : List (List (Ev α))) : List String := ls.flatMap evLoads

theorem long_count (ls : List (List (Ev α))) (x : String) : (roundLong ls).1.count x + (allLoads (roundLong ls).2.2).count x ≤ (allLoads ls).count x := by
  induction ls with
  | nil => simp [roundLong, allLoads]
  | cons l ls ih =>
    have hp := pull_count l x
    simp only [roundLong]
    rcases hq : pull l with ⟨rs, p, l'⟩
    rw [hq] at hp
    unfold allLoads at *
    cases p <;> simp only [List.flatMap_cons, List.count_append] at * <;> omega

theorem short_count (ls : List (List (Ev α))) (x : String) : (roundShort ls).1.count x + (allLoads (roundShort ls).2.2).count x ≤ (allLoads ls).count x := by
  induction ls with
  | nil => simp [roundShort, allLoads]
  | cons l ls ih =>
    have hp := pull_count l x
    simp only [roundShort]
    rcases hq : pull l with ⟨rs, p, l'⟩
    rw [hq] at hp
    unfold allLoads at *
    cases p <;> simp only [List.flatMap_cons, List.count_append] at * <;> omega

theorem long_ok (ls : List (List (Ev α))) (h : ∀ l ∈ ls, NoFail l) :
    ((roundLong ls).1 ++ allLoads (roundLong ls).2.2).Perm (allLoads ls) ∧ (∀ l ∈ (roundLong ls).2.2, NoFail l) ∧
      (roundLong ls).2.1 = .batch (layer (ls.map evItems) 0) ∧ (roundLong ls).2.2.map evItems = (ls.map evItems).map List.tail ∧
      (layer (ls.map evItems) 0 = [] → allLoads (roundLong ls).2.2 = []) := by
  induction ls with
  | nil => simp [roundLong, allLoads, layer]
  | cons l ls ih =>
    obtain ⟨i1, i2, i3, i4, i5⟩ := ih fun l hl => h l (by simp [hl])
    obtain ⟨p1, p2, p3⟩ := pull_ok l (h l (by simp))
    simp only [roundLong]
    rcases hq : pull l with ⟨rs, p, l'⟩
    rw [hq] at p1 p2 p3
    dsimp only at p1 p2 p3
    have hperm : (rs ++ (roundLong ls).1 ++ allLoads (l' :: (roundLong ls).2.2)).Perm (allLoads (l :: ls)) := by
      unfold allLoads at *
      rw [List.flatMap_cons, List.flatMap_cons, ← p1, List.append_assoc, List.append_assoc]
      refine List.Perm.append_left _ ?_
      refine List.Perm.trans ?_ (i1.append_left _)
      rw [← List.append_assoc, ← List.append_assoc]
      exact List.perm_append_comm.append_right _
    rcases p3 with ⟨e1, e2, e3⟩ | ⟨s, r, e1, e2, e3⟩
    · subst e2
      refine ⟨hperm, ?_, ?_, ?_, ?_⟩
      · intro k hk
        rcases List.mem_cons.1 hk with rfl | hk
        · exact p2
        · exact i2 k hk
      · simp only [List.map_cons, layer_cons_toList, e1, i3]
        rfl
      · simp only [List.map_cons, i4, e1, e3]
        rfl
      · intro hh
        simp only [List.map_cons, layer_cons_toList, e1] at hh
        unfold allLoads at *
        rw [List.flatMap_cons, i5 hh, e3]
        rfl
    · subst e2
      refine ⟨hperm, ?_, ?_, ?_, ?_⟩
      · intro k hk
        rcases List.mem_cons.1 hk with rfl | hk
        · exact p2
        · exact i2 k hk
      · simp only [List.map_cons, layer_cons_toList, e1, i3]
        rfl
      · simp only [List.map_cons, i4, e1, e3]
        rfl
      · intro hh
        simp [layer_cons_toList, e1] at hh

/-! ### All rounds -/

theorem loaded_append (a b : List (Obs α)) : loaded (a ++ b) = loaded a ++ loaded b := List.filterMap_append ..
theorem yielded_append (a b : List (Obs α)) : yielded (a ++ b) = yielded a ++ yielded b := List.filterMap_append ..
theorem raised_append (a b : List (Obs α)) : raised (a ++ b) = raised a ++ raised b := List.filterMap_append ..

theorem obs_loads (rs : List String) : loaded (rs.map Obs.loads : List (Obs α)) = rs ∧ yielded (rs.map Obs.loads : List (Obs α)) = [] ∧ raised (rs.map Obs.loads : List (Obs α)) = [] := by
  unfold loaded yielded raised
  refine ⟨?_, ?_, ?_⟩
  · rw [List.filterMap_map]; exact List.filterMap_some
  · rw [List.filterMap_map]; exact List.filterMap_eq_nil_iff.2 fun _ _ => rfl
  · rw [List.filterMap_map]; exact List.filterMap_eq_nil_iff.2 fun _ _ => rfl

theorem trace_count (step : List (List (Ev α)) → List String × Zipped α × List (List (Ev α)))
    (hstep : ∀ ls x, (step ls).1.count x + (allLoads (step ls).2.2).count x ≤ (allLoads ls).count x) (n : Nat) (ls : List (List (Ev α))) (x : String) :
    (loaded (traceZip step n ls)).count x ≤ (allLoads ls).count x := by
  induction n generalizing ls with
  | zero => simp [traceZip, loaded]
  | succ n ih =>
    have h1 := hstep ls x
    have h2 := ih (step ls).2.2
    unfold traceZip
    rw [loaded_append, (obs_loads _).1, List.count_append]
    split
    · have : (loaded ([] : List (Obs α))).count x = 0 := rfl
      omega
    · rename_i s ss _
      have : loaded (Obs.yields (s :: ss) :: traceZip step n (step ls).2.2) = loaded (traceZip step n (step ls).2.2) := rfl
      rw [this]
      omega
    · have : (loaded ([] : List (Obs α))).count x = 0 := rfl
      omega
    · rename_i e _
      have : (loaded ([Obs.raises e] : List (Obs α))).count x = 0 := rfl
      omega

theorem held_loaded (h : Option (List (Sample α))) (t : List (Obs α)) (x : String) : (loaded (held h t)).count x ≤ (loaded t).count x := by
  induction t generalizing h with
  | nil => cases h <;> simp [held, loaded]
  | cons o r ih =>
    cases o with
    | loads y =>
      have e1 : loaded (held h (.loads y :: r)) = y :: loaded (held h r) := by cases h <;> rfl
      have e2 : loaded (.loads y :: r : List (Obs α)) = y :: loaded r := rfl
      rw [e1, e2, List.count_cons, List.count_cons]
      have := ih h
      omega
    | yields b =>
      cases h with
      | none => exact ih (some b)
      | some b' => exact ih (some b)
    | raises e => cases h <;> simp [held, loaded]

theorem lanes_loads (f : String → Py (List (Sample α))) (b : Nat) (hb : 0 < b) (order : List String) :
    (allLoads ((List.range b).map fun i => laneEvents f (everyFrom i b order))).Perm order := by
  unfold allLoads
  rw [List.flatMap_map]
  simp only [evLoads_lane]
  exact lanes_perm b hb order

/-- **C225 (at most).** While a dataset is iterated, with or without `drop_last`, to the end, to an exception or given up earlier, no file is loaded more often than it is listed. -/
theorem C225_at_most (f : String → Py (List (Sample α))) (b : Nat) (hb : 0 < b) (dropLast : Bool) (order : List String) (n : Nat) (x : String) :
    (loaded ((iterTrace f b dropLast order).take n)).count x ≤ order.count x := by
  have hmain : (loaded (iterTrace f b dropLast order)).count x ≤ order.count x := by
    unfold iterTrace
    dsimp only
    rw [← (lanes_loads f b hb order).count_eq x]
    split
    · exact Nat.le_trans (held_loaded none _ x) (trace_count roundShort short_count _ _ x)
    · exact trace_count roundLong long_count _ _ x
  refine Nat.le_trans ?_ hmain
  exact ((List.take_sublist n _).filterMap _).count_le x

/-! ### Without exceptions -/

theorem zipLongest_step {β : Type} (ss : List (List β)) : zipLongest ss = if layer ss 0 = [] then [] else layer ss 0 :: zipLongest (ss.map List.tail) := by
  have hmax : maxLen (ss.map List.tail) = maxLen ss - 1 := by
    induction ss with
    | nil => rfl
    | cons s ss ih =>
      rw [List.map_cons, maxLen_cons, maxLen_cons, ih, List.length_tail]
      omega
  have hlay : ∀ k, layer (ss.map List.tail) k = layer ss (k + 1) := by
    intro k
    unfold layer
    rw [List.filterMap_map]
    congr 1
    funext s
    simp [List.getElem?_tail]
  have h0 : layer ss 0 = [] ↔ maxLen ss = 0 := by
    induction ss with
    | nil => simp [layer, maxLen]
    | cons s ss ih =>
      rw [layer_cons_toList, maxLen_cons]
      cases s with
      | nil =>
        have hm : maxLen (ss.map List.tail) = maxLen ss - 1 := by
          clear ih hmax hlay
          induction ss with
          | nil => rfl
          | cons s ss ih => rw [List.map_cons, maxLen_cons, maxLen_cons, ih, List.length_tail]; omega
        have := ih hm (by
          intro k
          unfold layer
          rw [List.filterMap_map]
          congr 1
          funext s
          simp [List.getElem?_tail])
        simpa using this
      | cons a s => simp
  by_cases h : layer ss 0 = []
  · rw [if_pos h]
    unfold zipLongest
    rw [h0.1 h]
    rfl
  · rw [if_neg h]
    have hpos : maxLen ss ≠ 0 := fun hh => h (h0.2 hh)
    unfold zipLongest
    obtain ⟨m, hm⟩ : ∃ m, maxLen ss = m + 1 := ⟨maxLen ss - 1, by omega⟩
    rw [hmax, hm, List.range_succ_eq_map, List.map_cons, List.map_map]
    congr 1
    apply List.map_congr_left
    intro k _
    exact (hlay k).symm

theorem long_trace (n : Nat) (ls : List (List (Ev α))) (h : ∀ l ∈ ls, NoFail l) (hn : maxLen (ls.map evItems) < n) :
    yielded (traceZip roundLong n ls) = zipLongest (ls.map evItems) ∧ raised (traceZip roundLong n ls) = [] ∧ (loaded (traceZip roundLong n ls)).Perm (allLoads ls) := by
  induction n generalizing ls with
  | zero => omega
  | succ n ih =>
    obtain ⟨h1, h2, h3, h4, h5⟩ := long_ok ls h
    have hmax : maxLen ((ls.map evItems).map List.tail) = maxLen (ls.map evItems) - 1 := by
      generalize ls.map evItems = ss
      induction ss with
      | nil => rfl
      | cons s ss ih => rw [List.map_cons, maxLen_cons, maxLen_cons, ih, List.length_tail]; omega
    unfold traceZip
    rw [zipLongest_step, h3, yielded_append, raised_append, loaded_append, (obs_loads _).1, (obs_loads _).2.1, (obs_loads _).2.2]
    cases hl : layer (ls.map evItems) 0 with
    | nil =>
      refine ⟨rfl, rfl, ?_⟩
      rw [h5 hl] at h1
      simpa [loaded] using h1
    | cons s ss =>
      rw [if_neg (by simp)]
      dsimp only
      have hpos : maxLen (ls.map evItems) ≠ 0 := by
        intro hh
        have := zipLongest_step (ls.map evItems)
        rw [hl, if_neg (by simp)] at this
        unfold zipLongest at this
        rw [hh] at this
        simp at this
      obtain ⟨k1, k2, k3⟩ := ih (roundLong ls).2.2 h2 (by rw [h4, hmax]; omega)
      rw [h4] at k1
      refine ⟨?_, ?_, ?_⟩
      · rw [← k1]; rfl
      · exact k2
      · refine List.Perm.trans ?_ h1
        exact k3.append_left _

theorem len_items (l : List (Ev α)) : (evItems l).length ≤ l.length := List.length_filterMap_le ..

theorem max_items (ls : List (List (Ev α))) : maxLen (ls.map evItems) ≤ ls.flatten.length := by
  induction ls with
  | nil => exact Nat.le_refl _
  | cons l ls ih =>
    rw [List.map_cons, maxLen_cons, List.flatten_cons, List.length_append]
    have := len_items l
    omega

/-- **C225 (once).** If the files can be read, iterating a dataset without `drop_last` to the end yields the batches of `get_streams` (C75), raises nothing, and loads every file exactly as often as it is listed. -/
theorem C225_once (f : String → Py (List (Sample α))) (S : String → List (Sample α)) (b : Nat) (hb : 0 < b) (order : List String) (hf : ∀ x ∈ order, f x = .ok (S x)) :
    getStreams f b false order = .ok (yielded (iterTrace f b false order)) ∧ raised (iterTrace f b false order) = [] ∧ (loaded (iterTrace f b false order)).Perm order := by
  unfold iterTrace
  dsimp only
  rw [if_neg (by simp)]
  have hlane : ∀ i, evItems (laneEvents f (everyFrom i b order)) = (everyFrom i b order).flatMap S ∧ NoFail (laneEvents f (everyFrom i b order)) := fun i =>
    evItems_lane f S _ fun x hx => hf x ((everyFrom_sublist i b order).subset hx)
  obtain ⟨h1, h2, h3⟩ := long_trace (((List.range b).map fun i => laneEvents f (everyFrom i b order)).flatten.length + 1)
    ((List.range b).map fun i => laneEvents f (everyFrom i b order)) (by
      intro l hl
      obtain ⟨i, -, rfl⟩ := List.mem_map.1 hl
      exact (hlane i).2) (Nat.lt_succ_of_le (max_items _))
  refine ⟨?_, h2, h3.trans (lanes_loads f b hb order)⟩
  rw [h1, getStreams_ok f S b false order hf, List.map_map]
  simp only [Bool.false_eq_true, if_false]
  congr 2
  unfold streamsOf
  apply List.map_congr_left
  intro i _
  exact ((hlane i).1).symm

/-! ### With `drop_last` -/

theorem short_ok (ls : List (List (Ev α))) (h : ∀ l ∈ ls, NoFail l) :
    (∀ l ∈ (roundShort ls).2.2, NoFail l) ∧ (([] ∈ ls.map evItems ∧ (roundShort ls).2.1 = .stop) ∨
      ([] ∉ ls.map evItems ∧ (roundShort ls).2.1 = .batch (layer (ls.map evItems) 0) ∧ (roundShort ls).2.2.map evItems = (ls.map evItems).map List.tail)) := by
  induction ls with
  | nil => exact ⟨by simp [roundShort], .inr ⟨by simp, rfl, rfl⟩⟩
  | cons l ls ih =>
    obtain ⟨i1, i2⟩ := ih fun l hl => h l (by simp [hl])
    obtain ⟨-, p2, p3⟩ := pull_ok l (h l (by simp))
    simp only [roundShort]
    rcases hq : pull l with ⟨rs, p, l'⟩
    rw [hq] at p2 p3
    dsimp only at p2 p3
    rcases p3 with ⟨e1, e2, e3⟩ | ⟨s, r, e1, e2, e3⟩
    · subst e2
      refine ⟨?_, .inl ⟨by simp [e1], rfl⟩⟩
      intro k hk
      rcases List.mem_cons.1 hk with rfl | hk
      · exact p2
      · exact h k (by simp [hk])
    · subst e2
      refine ⟨?_, ?_⟩
      · intro k hk
        rcases List.mem_cons.1 hk with rfl | hk
        · exact p2
        · exact i1 k hk
      · dsimp only
        rcases i2 with ⟨j1, j2⟩ | ⟨j1, j2, j3⟩
        · exact .inl ⟨by simp only [List.map_cons, List.mem_cons]; exact .inr j1, by rw [j2]⟩
        · refine .inr ⟨?_, ?_, ?_⟩
          · simp only [List.map_cons, List.mem_cons, e1, not_or]
            exact ⟨by simp, j1⟩
          · simp only [List.map_cons, layer_cons_toList, e1, j2]
            rfl
          · simp only [List.map_cons, j3, e1, e3]
            rfl

theorem minLen_two {β : Type} (s t : List β) (ts : List (List β)) : minLen (s :: t :: ts) = min s.length (minLen (t :: ts)) := by
  have key : ∀ (l : List Nat) (a b : Nat), min a (l.foldr min b) = min b (l.foldr min a) := by
    intro l
    induction l with
    | nil => intro a b; exact Nat.min_comm a b
    | cons c l ih =>
      intro a b
      simp only [List.foldr_cons]
      have := ih a b
      omega
  have := key (ts.map List.length) t.length s.length
  exact this

theorem minLen_zero {β : Type} (ss : List (List β)) (h : ss ≠ []) : minLen ss = 0 ↔ [] ∈ ss := by
  induction ss with
  | nil => exact absurd rfl h
  | cons s ss ih =>
    cases ss with
    | nil => simp [minLen, eq_comm]
    | cons t ts =>
      have := ih (by simp)
      rw [minLen_two, List.mem_cons, ← this, Nat.min_eq_zero_iff]
      simp [eq_comm]

theorem minLen_tail {β : Type} (ss : List (List β)) : minLen (ss.map List.tail) = minLen ss - 1 := by
  induction ss with
  | nil => rfl
  | cons s ss ih =>
    cases ss with
    | nil => simp [minLen]
    | cons t ts =>
      have e' : minLen ((s :: t :: ts).map List.tail) = min s.tail.length (minLen ((t :: ts).map List.tail)) := minLen_two ..
      rw [minLen_two, e', ih, List.length_tail]
      omega

theorem zipShort_step {β : Type} (ss : List (List β)) (h : ss ≠ []) :
    ([] ∈ ss → zipShort ss = []) ∧ ([] ∉ ss → zipShort ss = layer ss 0 :: zipShort (ss.map List.tail)) := by
  have hlay : ∀ k, layer (ss.map List.tail) k = layer ss (k + 1) := by
    intro k
    unfold layer
    rw [List.filterMap_map]
    congr 1
    funext s
    simp [List.getElem?_tail]
  have hz := minLen_zero ss h
  constructor
  · intro hm
    unfold zipShort
    rw [hz.2 hm]
    rfl
  · intro hm
    obtain ⟨m, hm'⟩ : ∃ m, minLen ss = m + 1 := ⟨minLen ss - 1, by have := mt hz.1 hm; omega⟩
    unfold zipShort
    rw [minLen_tail, hm', List.range_succ_eq_map, List.map_cons, List.map_map]
    congr 1
    apply List.map_congr_left
    intro k _
    exact (hlay k).symm

theorem short_trace (n : Nat) (ls : List (List (Ev α))) (hne : ls ≠ []) (h : ∀ l ∈ ls, NoFail l) (hn : minLen (ls.map evItems) < n) :
    yielded (traceZip roundShort n ls) = zipShort (ls.map evItems) ∧ raised (traceZip roundShort n ls) = [] := by
  induction n generalizing ls with
  | zero => omega
  | succ n ih =>
    obtain ⟨h1, h2⟩ := short_ok ls h
    unfold traceZip
    obtain ⟨z1, z2⟩ := zipShort_step (ls.map evItems) (by simpa using hne)
    rw [yielded_append, raised_append, (obs_loads _).2.1, (obs_loads _).2.2]
    rcases h2 with ⟨j1, j2⟩ | ⟨j1, j2, j3⟩
    · rw [z1 j1, j2]
      exact ⟨rfl, rfl⟩
    · rw [z2 j1, j2]
      cases hl : layer (ls.map evItems) 0 with
      | nil =>
        exfalso
        cases ls with
        | nil => exact hne rfl
        | cons l ls =>
          rw [List.map_cons, layer_cons_toList] at hl
          cases hi : evItems l with
          | nil => exact j1 (by simp [hi])
          | cons a b => simp [hi] at hl
      | cons s ss =>
        dsimp only
        have hpos : minLen (ls.map evItems) ≠ 0 := fun hh => j1 ((minLen_zero _ (by simpa using hne)).1 hh)
        have hlen : (roundShort ls).2.2 ≠ [] := by
          intro hh
          rw [hh] at j3
          cases ls with
          | nil => exact hne rfl
          | cons l ls => simp at j3
        obtain ⟨k1, k2⟩ := ih (roundShort ls).2.2 hlen h1 (by rw [j3, minLen_tail]; omega)
        rw [j3] at k1
        exact ⟨by rw [← k1]; rfl, k2⟩

theorem held_ok (t : List (Obs α)) (h : raised t = []) (b : List (Sample α)) :
    forceLast (b :: yielded t) = .ok (yielded (held (some b) t)) ∧ raised (held (some b) t) = [] := by
  induction t generalizing b with
  | nil => exact ⟨rfl, rfl⟩
  | cons o r ih =>
    cases o with
    | loads x => exact ih h b
    | yields b' =>
      obtain ⟨h1, h2⟩ := ih h b'
      refine ⟨?_, h2⟩
      have e : forceLast (b :: b' :: yielded r) = (do let r' ← forceLast (b' :: yielded r); .ok (b :: r')) := rfl
      have e' : yielded (.yields b' :: r : List (Obs α)) = b' :: yielded r := rfl
      rw [e', e, h1]
      rfl
    | raises e => cases h

theorem held_none (t : List (Obs α)) (h : raised t = []) :
    (forceLast (yielded t) = .ok (yielded (held none t)) ∧ raised (held none t) = []) ∨ (forceLast (yielded t) = .error .runtimeError ∧ raised (held none t) = [.runtimeError] ∧ yielded (held none t) = []) := by
  induction t with
  | nil => exact .inr ⟨rfl, rfl, rfl⟩
  | cons o r ih =>
    cases o with
    | loads x => exact ih h
    | yields b => exact .inl (held_ok r h b)
    | raises e => cases h

theorem min_items (ls : List (List (Ev α))) : minLen (ls.map evItems) ≤ ls.flatten.length := by
  cases ls with
  | nil => exact Nat.le_refl _
  | cons l ls =>
    have h1 : minLen ((l :: ls).map evItems) ≤ (evItems l).length := by
      cases ls with
      | nil => exact Nat.le_refl _
      | cons k ks => exact minLen_le (by simp)
    rw [List.flatten_cons, List.length_append]
    have := len_items l
    omega

/-- **C225 (`drop_last`).** With `drop_last` and readable files, iterating yields the batches of `get_streams` (C76) and raises nothing, or, if `get_streams` has no batch, yields nothing and raises its RuntimeError. -/
theorem C225_drop_last (f : String → Py (List (Sample α))) (S : String → List (Sample α)) (b : Nat) (hb : 0 < b) (order : List String) (hf : ∀ x ∈ order, f x = .ok (S x)) :
    (getStreams f b true order = .ok (yielded (iterTrace f b true order)) ∧ raised (iterTrace f b true order) = []) ∨
      (getStreams f b true order = .error .runtimeError ∧ raised (iterTrace f b true order) = [.runtimeError] ∧ yielded (iterTrace f b true order) = []) := by
  unfold iterTrace
  dsimp only
  rw [if_pos rfl]
  have hlane : ∀ i, evItems (laneEvents f (everyFrom i b order)) = (everyFrom i b order).flatMap S ∧ NoFail (laneEvents f (everyFrom i b order)) := fun i =>
    evItems_lane f S _ fun x hx => hf x ((everyFrom_sublist i b order).subset hx)
  obtain ⟨h1, h2⟩ := short_trace (((List.range b).map fun i => laneEvents f (everyFrom i b order)).flatten.length + 1)
    ((List.range b).map fun i => laneEvents f (everyFrom i b order)) (by
      intro hh
      rw [List.map_eq_nil_iff, List.range_eq_nil] at hh
      omega) (by
      intro l hl
      obtain ⟨i, -, rfl⟩ := List.mem_map.1 hl
      exact (hlane i).2) (Nat.lt_succ_of_le (min_items _))
  have hs : ((List.range b).map fun i => laneEvents f (everyFrom i b order)).map evItems = streamsOf S b order := by
    rw [List.map_map]
    unfold streamsOf
    apply List.map_congr_left
    intro i _
    exact (hlane i).1
  rw [hs] at h1
  have := held_none _ h2
  rw [h1] at this
  rw [getStreams_ok f S b true order hf, if_pos rfl]
  exact this

/-! ### With exceptions -/

/-- What is left in a stream as a generator. -/
def evGen : List (Ev α) → Gen (Sample α)
  | [] => ⟨[], none⟩
  | .load _ :: r => evGen r
  | .item s :: r => ⟨s :: (evGen r).items, (evGen r).fail⟩
  | .fail e :: _ => ⟨[], some e⟩

theorem evGen_items (ss : List (Sample α)) (r : List (Ev α)) : evGen (ss.map .item ++ r) = ⟨ss ++ (evGen r).items, (evGen r).fail⟩ := by
  induction ss with
  | nil => rfl
  | cons s ss ih =>
    have : evGen ((s :: ss).map .item ++ r) = ⟨s :: (evGen (ss.map .item ++ r)).items, (evGen (ss.map .item ++ r)).fail⟩ := rfl
    rw [this, ih]
    rfl

theorem evGen_lane (f : String → Py (List (Sample α))) (files : List String) : evGen (laneEvents f files) = chainG f files := by
  induction files with
  | nil => rfl
  | cons x xs ih =>
    unfold chainG
    cases h : f x with
    | ok ss =>
      have : evGen (.load x :: (ss.map .item ++ laneEvents f xs)) = evGen (ss.map .item ++ laneEvents f xs) := rfl
      rw [lane_cons_ok f x xs ss h, this, evGen_items, ih]
      rfl
    | error e =>
      rw [lane_cons, h]
      rfl

theorem pull_gen (l : List (Ev α)) :
    (evGen l = ⟨[], none⟩ ∧ (pull l).2.1 = .done ∧ evGen (pull l).2.2 = ⟨[], none⟩) ∨ (∃ e, evGen l = ⟨[], some e⟩ ∧ (pull l).2.1 = .fail e) ∨
      ∃ s r e, evGen l = ⟨s :: r, e⟩ ∧ (pull l).2.1 = .item s ∧ evGen (pull l).2.2 = ⟨r, e⟩ := by
  induction l with
  | nil => exact .inl ⟨rfl, rfl, rfl⟩
  | cons ev r ih =>
    cases ev with
    | load y => exact ih
    | item s => exact .inr (.inr ⟨s, (evGen r).items, (evGen r).fail, rfl, rfl, rfl⟩)
    | fail e => exact .inr (.inl ⟨e, rfl, rfl⟩)

/-- A generator after `k` items. -/
def dropG (k : Nat) (g : Gen (Sample α)) : Gen (Sample α) := ⟨g.items.drop k, g.fail⟩

theorem dropG_item {k : Nat} {g : Gen (Sample α)} {s : Sample α} {r : List (Sample α)} {e : Option PyErr} (h : (⟨s :: r, e⟩ : Gen (Sample α)) = dropG k g) :
    g.items[k]? = some s ∧ dropG (k + 1) g = ⟨r, e⟩ := by
  unfold dropG at h ⊢
  simp only [Gen.mk.injEq] at h ⊢
  obtain ⟨h1, h2⟩ := h
  refine ⟨?_, ?_, h2.symm⟩
  · have := congrArg (·[0]?) h1
    simpa [List.getElem?_drop] using this.symm
  · have := congrArg List.tail h1
    simpa [List.tail_drop] using this.symm

theorem dropG_none {k : Nat} {g : Gen (Sample α)} {e : Option PyErr} (h : (⟨[], e⟩ : Gen (Sample α)) = dropG k g) :
    g.items[k]? = none ∧ g.fail = e ∧ dropG (k + 1) g = ⟨[], e⟩ := by
  unfold dropG at h ⊢
  simp only [Gen.mk.injEq] at h ⊢
  obtain ⟨h1, h2⟩ := h
  have : g.items.length ≤ k := List.drop_eq_nil_iff.1 h1.symm
  exact ⟨List.getElem?_eq_none this, h2.symm, List.drop_eq_nil_iff.2 (by omega), h2.symm⟩

theorem long_gen (k : Nat) (gs : List (Gen (Sample α))) (ls : List (List (Ev α))) (h : ls.map evGen = gs.map (dropG k)) :
    (∃ e, (roundLong ls).2.1 = .fail e ∧ longLoop k gs = .raise e) ∨ ∃ b, (roundLong ls).2.1 = .batch b ∧ longLoop k gs = .item b ∧ (roundLong ls).2.2.map evGen = gs.map (dropG (k + 1)) := by
  induction ls generalizing gs with
  | nil =>
    cases gs with
    | nil => exact .inr ⟨[], rfl, rfl, rfl⟩
    | cons g gs => simp at h
  | cons l ls ih =>
    cases gs with
    | nil => simp at h
    | cons g gs =>
      rw [List.map_cons, List.map_cons, List.cons.injEq] at h
      obtain ⟨hg, h⟩ := h
      have i := ih gs h
      have hp := pull_gen l
      simp only [roundLong, longLoop]
      rcases hq : pull l with ⟨rs, p, l'⟩
      rw [hq, hg] at hp
      dsimp only at hp
      rcases hp with ⟨e1, e2, e3⟩ | ⟨e, e1, e2⟩ | ⟨s, r, e, e1, e2, e3⟩
      · subst e2
        obtain ⟨d1, d2, d3⟩ := dropG_none e1.symm
        rw [d1, d2]
        dsimp only
        rcases i with ⟨e, i1, i2⟩ | ⟨b, i1, i2, i3⟩
        · exact .inl ⟨e, i1, i2⟩
        · exact .inr ⟨b, i1, i2, by rw [List.map_cons, List.map_cons, i3, e3, d3]⟩
      · subst e2
        obtain ⟨d1, d2, -⟩ := dropG_none e1.symm
        rw [d1, d2]
        exact .inl ⟨e, rfl, rfl⟩
      · subst e2
        obtain ⟨d1, d2⟩ := dropG_item e1.symm
        rw [d1]
        dsimp only
        rcases i with ⟨e', i1, i2⟩ | ⟨b, i1, i2, i3⟩
        · exact .inl ⟨e', by rw [i1], by rw [i2]⟩
        · exact .inr ⟨s :: b, by rw [i1], by rw [i2], by rw [List.map_cons, List.map_cons, i3, e3, d2]⟩

theorem short_gen (k : Nat) (gs : List (Gen (Sample α))) (ls : List (List (Ev α))) (h : ls.map evGen = gs.map (dropG k)) :
    (∃ e, (roundShort ls).2.1 = .fail e ∧ zipNext k gs = .raise e) ∨ ((roundShort ls).2.1 = .stop ∧ zipNext k gs = .stop) ∨
      ∃ b, (roundShort ls).2.1 = .batch b ∧ zipNext k gs = .item b ∧ (b = [] → gs = []) ∧ (roundShort ls).2.2.map evGen = gs.map (dropG (k + 1)) := by
  induction ls generalizing gs with
  | nil =>
    cases gs with
    | nil => exact .inr (.inr ⟨[], rfl, rfl, fun _ => rfl, rfl⟩)
    | cons g gs => simp at h
  | cons l ls ih =>
    cases gs with
    | nil => simp at h
    | cons g gs =>
      rw [List.map_cons, List.map_cons, List.cons.injEq] at h
      obtain ⟨hg, h⟩ := h
      have i := ih gs h
      have hp := pull_gen l
      simp only [roundShort, zipNext]
      rcases hq : pull l with ⟨rs, p, l'⟩
      rw [hq, hg] at hp
      dsimp only at hp
      rcases hp with ⟨e1, e2, e3⟩ | ⟨e, e1, e2⟩ | ⟨s, r, e, e1, e2, e3⟩
      · subst e2
        obtain ⟨d1, d2, d3⟩ := dropG_none e1.symm
        rw [d1, d2]
        exact .inr (.inl ⟨rfl, rfl⟩)
      · subst e2
        obtain ⟨d1, d2, -⟩ := dropG_none e1.symm
        rw [d1, d2]
        exact .inl ⟨e, rfl, rfl⟩
      · subst e2
        obtain ⟨d1, d2⟩ := dropG_item e1.symm
        rw [d1]
        dsimp only
        rcases i with ⟨e', i1, i2⟩ | ⟨i1, i2⟩ | ⟨b, i1, i2, -, i3⟩
        · exact .inl ⟨e', by rw [i1], by rw [i2]⟩
        · exact .inr (.inl ⟨by rw [i1], by rw [i2]⟩)
        · exact .inr (.inr ⟨s :: b, by rw [i1], by rw [i2], by simp, by rw [List.map_cons, List.map_cons, i3, e3, d2]⟩)

/-- One round of observations and one `next` of the generators agree. -/
def Agree (step : List (List (Ev α)) → List String × Zipped α × List (List (Ev α))) (next : Nat → Next (Sample α)) (gs : List (Gen (Sample α))) : Prop :=
  ∀ k ls, ls.map evGen = gs.map (dropG k) → (∃ e, (step ls).2.1 = .fail e ∧ next k = .raise e) ∨ (((step ls).2.1 = .stop ∨ (step ls).2.1 = .batch []) ∧ next k = .stop) ∨
    ∃ s ss, (step ls).2.1 = .batch (s :: ss) ∧ next k = .item (s :: ss) ∧ k < maxLen (gs.map Gen.items) ∧ (step ls).2.2.map evGen = gs.map (dropG (k + 1))

theorem trace_drive (step : List (List (Ev α)) → List String × Zipped α × List (List (Ev α))) (next : Nat → Next (Sample α)) (gs : List (Gen (Sample α))) (ha : Agree step next gs)
    (n m k : Nat) (ls : List (List (Ev α))) (h : ls.map evGen = gs.map (dropG k)) (hn : maxLen (gs.map Gen.items) < n + k) (hm : maxLen (gs.map Gen.items) < m + k) (hk : k ≤ maxLen (gs.map Gen.items)) :
    yielded (traceZip step n ls) = (drive next m k).items ∧ raised (traceZip step n ls) = (drive next m k).fail.toList := by
  induction n generalizing m k ls with
  | zero => omega
  | succ n ih =>
    cases m with
    | zero => omega
    | succ m =>
      unfold traceZip drive
      rw [yielded_append, raised_append, (obs_loads _).2.1, (obs_loads _).2.2]
      rcases ha k ls h with ⟨e, h1, h2⟩ | ⟨h1 | h1, h2⟩ | ⟨s, ss, h1, h2, h3, h4⟩
      · rw [h1, h2]; exact ⟨rfl, rfl⟩
      · rw [h1, h2]; exact ⟨rfl, rfl⟩
      · rw [h1, h2]; exact ⟨rfl, rfl⟩
      · rw [h1, h2]
        obtain ⟨k1, k2⟩ := ih m (k + 1) (step ls).2.2 h4 (by omega) (by omega) (by omega)
        dsimp only
        exact ⟨by rw [← k1]; rfl, by rw [← k2]; rfl⟩

theorem layer_lt {β : Type} (ss : List (List β)) (k : Nat) (h : layer ss k ≠ []) : k < maxLen ss := by
  induction ss with
  | nil => exact absurd rfl h
  | cons s ss ih =>
    rw [layer_cons_toList] at h
    rw [maxLen_cons]
    cases hs : s[k]? with
    | none =>
      rw [hs] at h
      have := ih h
      omega
    | some a =>
      have := (List.getElem?_eq_some_iff.1 hs).1
      omega

theorem agree_long (gs : List (Gen (Sample α))) : Agree roundLong (fun k => longNext k gs) gs := by
  intro k ls h
  rcases long_gen k gs ls h with ⟨e, h1, h2⟩ | ⟨b, h1, h2, h3⟩
  · exact .inl ⟨e, h1, by dsimp only; unfold longNext; rw [h2]⟩
  · cases b with
    | nil => exact .inr (.inl ⟨.inr h1, by dsimp only; unfold longNext; rw [h2]⟩)
    | cons s ss =>
      refine .inr (.inr ⟨s, ss, h1, by dsimp only; unfold longNext; rw [h2], ?_, h3⟩)
      apply layer_lt
      rw [longLoop_eq] at h2
      split at h2
      · cases h2
      · rw [Next.item.injEq] at h2
        rw [h2]
        simp

theorem zipNext_lt (k : Nat) (gs : List (Gen (Sample α))) (b : List (Sample α)) (h : zipNext k gs = .item b) (hne : gs ≠ []) : k < maxLen (gs.map Gen.items) := by
  cases gs with
  | nil => exact absurd rfl hne
  | cons g gs =>
    unfold zipNext at h
    rw [List.map_cons, maxLen_cons]
    cases hg : g.items[k]? with
    | none =>
      rw [hg] at h
      dsimp only at h
      split at h <;> cases h
    | some a =>
      have := (List.getElem?_eq_some_iff.1 hg).1
      omega

theorem agree_short (gs : List (Gen (Sample α))) (hne : gs ≠ []) : Agree roundShort (fun k => zipNext k gs) gs := by
  intro k ls h
  rcases short_gen k gs ls h with ⟨e, h1, h2⟩ | ⟨h1, h2⟩ | ⟨b, h1, h2, h3, h4⟩
  · exact .inl ⟨e, h1, h2⟩
  · exact .inr (.inl ⟨.inl h1, h2⟩)
  · cases b with
    | nil => exact absurd (h3 rfl) hne
    | cons s ss => exact .inr (.inr ⟨s, ss, h1, h2, zipNext_lt k gs _ h2 hne, h4⟩)

theorem trace_ends (step : List (List (Ev α)) → List String × Zipped α × List (List (Ev α))) (n : Nat) (ls : List (List (Ev α))) :
    ∃ pre, ∃ e : Option PyErr, raised pre = [] ∧ traceZip step n ls = pre ++ e.toList.map .raises := by
  induction n generalizing ls with
  | zero => exact ⟨[], none, rfl, rfl⟩
  | succ n ih =>
    unfold traceZip
    split
    · exact ⟨_, none, (obs_loads _).2.2, rfl⟩
    · rename_i s ss _
      obtain ⟨pre, e, h1, h2⟩ := ih (step ls).2.2
      refine ⟨(step ls).1.map .loads ++ .yields (s :: ss) :: pre, e, ?_, ?_⟩
      · rw [raised_append, (obs_loads _).2.2]
        exact h1
      · rw [h2, List.append_assoc]
        rfl
    · exact ⟨_, none, (obs_loads _).2.2, rfl⟩
    · rename_i e _
      exact ⟨_, some e, (obs_loads _).2.2, rfl⟩

theorem held_fail (pre : List (Obs α)) (h : raised pre = []) (e : PyErr) :
    (∀ b, yielded (held (some b) (pre ++ [.raises e])) = (b :: yielded pre).dropLast ∧ raised (held (some b) (pre ++ [.raises e])) = [e]) ∧
      yielded (held none (pre ++ [.raises e])) = (yielded pre).dropLast ∧ raised (held none (pre ++ [.raises e])) = [e] := by
  induction pre with
  | nil => exact ⟨fun b => ⟨rfl, rfl⟩, rfl, rfl⟩
  | cons o r ih =>
    cases o with
    | loads x => exact ih h
    | yields b' =>
      obtain ⟨i1, i2⟩ := ih h
      refine ⟨fun b => ⟨?_, (i1 b').2⟩, i1 b'⟩
      show b :: yielded (held (some b') (r ++ [.raises e])) = b :: (b' :: yielded r).dropLast
      rw [(i1 b').1]
    | raises e => cases h

theorem held_gen (pre : List (Obs α)) (h : raised pre = []) (e : Option PyErr) :
    yielded (held none (pre ++ e.toList.map .raises)) = (forceLastG ⟨yielded pre, e⟩).items ∧ raised (held none (pre ++ e.toList.map .raises)) = (forceLastG ⟨yielded pre, e⟩).fail.toList := by
  cases e with
  | some e => exact (held_fail pre h e).2
  | none =>
    have e0 : pre ++ (none : Option PyErr).toList.map .raises = pre := by simp
    rw [e0]
    unfold forceLastG
    dsimp only
    rcases held_none pre h with ⟨h1, h2⟩ | ⟨h1, h2, h3⟩
    · rw [h1, h2]; exact ⟨rfl, rfl⟩
    · rw [h1, h2, h3]; exact ⟨rfl, rfl⟩

/-- **C225 (refinement).** Whatever the files give or raise, the batches yielded and the exception raised in the trace of an iteration are those of `get_streams` as a generator (C206). -/
theorem C225_trace (f : String → Py (List (Sample α))) (b : Nat) (hb : 0 < b) (dropLast : Bool) (order : List String) :
    yielded (iterTrace f b dropLast order) = (streamsG f b dropLast order).items ∧ raised (iterTrace f b dropLast order) = (streamsG f b dropLast order).fail.toList := by
  have hgs : ((List.range b).map fun i => laneEvents f (everyFrom i b order)).map evGen = ((List.range b).map fun i => chainG f (everyFrom i b order)).map (dropG 0) := by
    rw [List.map_map, List.map_map]
    apply List.map_congr_left
    intro i _
    show evGen _ = dropG 0 (chainG f _)
    rw [evGen_lane]
    rfl
  have hne : ((List.range b).map fun i => chainG f (everyFrom i b order)) ≠ [] := by
    intro hh
    rw [List.map_eq_nil_iff, List.range_eq_nil] at hh
    omega
  have hfuel : maxLen (((List.range b).map fun i => chainG f (everyFrom i b order)).map Gen.items) ≤ ((List.range b).map fun i => laneEvents f (everyFrom i b order)).flatten.length := by
    have hi : ((List.range b).map fun i => chainG f (everyFrom i b order)).map Gen.items = ((List.range b).map fun i => laneEvents f (everyFrom i b order)).map fun l => (evGen l).items := by
      rw [List.map_map, List.map_map]
      apply List.map_congr_left
      intro i _
      show (chainG f _).items = (evGen _).items
      rw [evGen_lane]
    rw [hi]
    generalize (List.range b).map (fun i => laneEvents f (everyFrom i b order)) = ls
    have hl : ∀ l : List (Ev α), (evGen l).items.length ≤ l.length := by
      intro l
      induction l with
      | nil => exact Nat.le_refl _
      | cons ev r ih =>
        cases ev with
        | load y => exact Nat.le_succ_of_le ih
        | item s => exact Nat.succ_le_succ ih
        | fail e => exact Nat.zero_le _
    induction ls with
    | nil => exact Nat.le_refl _
    | cons l ls ih =>
      rw [List.map_cons, maxLen_cons, List.flatten_cons, List.length_append]
      have := hl l
      omega
  unfold iterTrace streamsG
  dsimp only
  cases dropLast with
  | false =>
    rw [if_neg (by simp), if_neg (by simp)]
    exact trace_drive _ _ _ (agree_long _) _ (callsOf _) 0 _ hgs (by omega) (by unfold callsOf; omega) (Nat.zero_le _)
  | true =>
    rw [if_pos rfl, if_pos rfl]
    unfold zipG
    rw [if_neg (by simpa using hne)]
    obtain ⟨h1, h2⟩ := trace_drive _ _ _ (agree_short _ hne) (((List.range b).map fun i => laneEvents f (everyFrom i b order)).flatten.length + 1)
      (callsOf ((List.range b).map fun i => chainG f (everyFrom i b order))) 0 _ hgs (by omega) (by unfold callsOf; omega) (Nat.zero_le _)
    obtain ⟨pre, e, h3, h4⟩ := trace_ends roundShort (((List.range b).map fun i => laneEvents f (everyFrom i b order)).flatten.length + 1) ((List.range b).map fun i => laneEvents f (everyFrom i b order))
    have h5 : yielded (pre ++ e.toList.map .raises) = yielded pre ∧ raised (pre ++ e.toList.map .raises) = e.toList := by
      rw [yielded_append, raised_append, h3]
      cases e with
      | none => exact ⟨List.append_nil _, rfl⟩
      | some e => exact ⟨List.append_nil _, rfl⟩
    have h6 := held_gen pre h3 e
    rw [← h4, ← h5.1, ← h4, h1] at h6
    have h7 : e = (drive (fun k => zipNext k ((List.range b).map fun i => chainG f (everyFrom i b order))) (callsOf ((List.range b).map fun i => chainG f (everyFrom i b order))) 0).fail := by
      rw [h4, h5.2] at h2
      generalize (drive _ _ _).fail = e' at h2
      cases e <;> cases e' <;> simp_all
    rw [h7] at h6
    exact h6

/-! ### Only as far as needed -/

/-- A stream in the middle of a file from `L`, with further files after it. -/
def InFile (f : String → Py (List (Sample α))) (files L : List String) (l : List (Ev α)) : Prop :=
  ∃ (cur : List (Sample α)) (rest : List String), l = cur.map .item ++ laneEvents f rest ∧ (∀ s ∈ cur, s.id ∈ L) ∧ ∀ x ∈ rest, x ∈ files

theorem pull_lazy (f : String → Py (List (Sample α))) (S : String → List (Sample α)) (files L : List String) (hf : ∀ x ∈ files, f x = .ok (S x)) (hS : ∀ x ∈ files, WholeFile x (S x))
    (l : List (Ev α)) (h : InFile f files L l) :
    ((pull l).1 = [] ∧ (pull l).2.1 = .done ∧ InFile f files L (pull l).2.2) ∨
      ∃ s, (pull l).2.1 = .item s ∧ (s.id ∈ L ∧ (pull l).1 = [] ∨ (pull l).1 = [s.id]) ∧ InFile f files ((pull l).1 ++ L) (pull l).2.2 := by
  obtain ⟨cur, rest, rfl, h1, h2⟩ := h
  cases cur with
  | cons s cur => exact .inr ⟨s, rfl, .inl ⟨h1 s (by simp), rfl⟩, cur, rest, rfl, fun t ht => h1 t (by simp [ht]), h2⟩
  | nil =>
    cases rest with
    | nil => exact .inl ⟨rfl, rfl, [], [], rfl, by simp, by simp⟩
    | cons x rest =>
      right
      have hx := h2 x (by simp)
      have hid := whole_id (hS x hx)
      obtain ⟨s, hs, _⟩ := whole_first (hS x hx)
      rw [List.map_nil, List.nil_append, lane_cons_ok f x rest (S x) (hf x hx)]
      cases hc : S x with
      | nil => rw [hc] at hs; cases hs
      | cons t cur =>
        rw [hc] at hid
        have ht := hid t (by simp)
        refine ⟨t, rfl, .inr ?_, cur, rest, rfl, ?_, fun y hy => h2 y (by simp [hy])⟩
        · show [x] = _
          rw [ht]
        · intro u hu
          rw [hid u (by simp [hu])]
          show x ∈ x :: L
          simp

theorem InFile.mono {f : String → Py (List (Sample α))} {files L L' : List String} {l : List (Ev α)} (h : InFile f files L l) (hl : ∀ x ∈ L, x ∈ L') : InFile f files L' l := by
  obtain ⟨cur, rest, e, h1, h2⟩ := h
  exact ⟨cur, rest, e, fun s hs => hl _ (h1 s hs), h2⟩

theorem long_lazy (f : String → Py (List (Sample α))) (S : String → List (Sample α)) (files L : List String) (hf : ∀ x ∈ files, f x = .ok (S x)) (hS : ∀ x ∈ files, WholeFile x (S x))
    (ls : List (List (Ev α))) (h : ∀ l ∈ ls, InFile f files L l) :
    ∃ b, (roundLong ls).2.1 = .batch b ∧ (∀ x, x ∈ L ∨ x ∈ (roundLong ls).1 ↔ x ∈ L ∨ ∃ s ∈ b, s.id = x) ∧ ∀ l ∈ (roundLong ls).2.2, InFile f files ((roundLong ls).1 ++ L) l := by
  induction ls with
  | nil => exact ⟨[], rfl, by simp [roundLong], by simp [roundLong]⟩
  | cons l ls ih =>
    obtain ⟨b, i1, i2, i3⟩ := ih fun l hl => h l (by simp [hl])
    have hp := pull_lazy f S files L hf hS l (h l (by simp))
    simp only [roundLong]
    rcases hq : pull l with ⟨rs, p, l'⟩
    rw [hq] at hp
    dsimp only at hp
    rcases hp with ⟨e1, e2, e3⟩ | ⟨s, e1, e2, e3⟩
    · subst e1 e2
      refine ⟨b, i1, i2, ?_⟩
      intro k hk
      rcases List.mem_cons.1 hk with rfl | hk
      · exact e3.mono fun x hx => by simp [hx]
      · exact i3 k hk
    · subst e1
      refine ⟨s :: b, by dsimp only; rw [i1], ?_, ?_⟩
      · intro x
        dsimp only
        have := i2 x
        simp only [List.mem_append, List.mem_cons, exists_eq_or_imp]
        rcases e2 with ⟨e2, rfl⟩ | rfl
        · constructor
          · rintro (h | h | h)
            · exact .inl h
            · cases h
            · rcases this.1 (.inr h) with h | h
              · exact .inl h
              · exact .inr (.inr h)
          · rintro (h | h | h)
            · exact .inl h
            · exact .inl (h ▸ e2)
            · rcases this.2 (.inr h) with h | h
              · exact .inl h
              · exact .inr (.inr h)
        · constructor
          · rintro (h | h | h)
            · exact .inl h
            · exact .inr (.inl (List.mem_singleton.1 h).symm)
            · rcases this.1 (.inr h) with h | h
              · exact .inl h
              · exact .inr (.inr h)
          · rintro (h | h | h)
            · exact .inl h
            · exact .inr (.inl (by rw [h]; simp))
            · rcases this.2 (.inr h) with h | h
              · exact .inl h
              · exact .inr (.inr h)
      · intro k hk
        rcases List.mem_cons.1 hk with rfl | hk
        · exact e3.mono fun x hx => by
            rcases List.mem_append.1 hx with hx | hx <;> simp [hx]
        · exact (i3 k hk).mono fun x hx => by
            rcases List.mem_append.1 hx with hx | hx <;> simp [hx]

theorem split_trace (rs : List String) (b0 b : List (Sample α)) (T A B : List (Obs α)) (h : rs.map .loads ++ .yields b0 :: T = A ++ .yields b :: B) :
    (A = rs.map .loads ∧ b = b0) ∨ ∃ A', A = rs.map .loads ++ .yields b0 :: A' ∧ T = A' ++ .yields b :: B := by
  induction rs generalizing A with
  | nil =>
    cases A with
    | nil =>
      simp only [List.map_nil, List.nil_append, List.cons.injEq, Obs.yields.injEq] at h
      exact .inl ⟨rfl, h.1.symm⟩
    | cons o A =>
      simp only [List.map_nil, List.nil_append, List.cons_append, List.cons.injEq] at h
      exact .inr ⟨A, by rw [← h.1]; rfl, h.2⟩
  | cons r rs ih =>
    cases A with
    | nil => simp at h
    | cons o A =>
      simp only [List.map_cons, List.cons_append, List.cons.injEq] at h
      obtain ⟨rfl, h⟩ := h
      rcases ih A h with ⟨rfl, h'⟩ | ⟨A', rfl, h'⟩
      · exact .inl ⟨rfl, h'⟩
      · exact .inr ⟨A', rfl, h'⟩

theorem loads_only (rs : List String) (b : List (Sample α)) (A B : List (Obs α)) (h : (rs.map .loads : List (Obs α)) = A ++ .yields b :: B) : False := by
  have : Obs.yields b ∈ (rs.map .loads : List (Obs α)) := by rw [h]; simp
  simp at this

theorem trace_lazy (f : String → Py (List (Sample α))) (S : String → List (Sample α)) (files : List String) (hf : ∀ x ∈ files, f x = .ok (S x)) (hS : ∀ x ∈ files, WholeFile x (S x))
    (n : Nat) (L : List String) (ls : List (List (Ev α))) (h : ∀ l ∈ ls, InFile f files L l) (A B : List (Obs α)) (b : List (Sample α)) (e : traceZip roundLong n ls = A ++ .yields b :: B) (x : String) :
    x ∈ L ∨ x ∈ loaded A ↔ x ∈ L ∨ ∃ s ∈ (yielded A).flatten ++ b, s.id = x := by
  induction n generalizing L ls A with
  | zero => simp [traceZip] at e
  | succ n ih =>
    obtain ⟨c, h1, h2, h3⟩ := long_lazy f S files L hf hS ls h
    unfold traceZip at e
    rw [h1] at e
    cases c with
    | nil =>
      dsimp only at e
      rw [List.append_nil] at e
      exact (loads_only _ _ _ _ e).elim
    | cons s ss =>
      dsimp only at e
      rcases split_trace _ _ _ _ _ _ e with ⟨rfl, rfl⟩ | ⟨A', rfl, e'⟩
      · rw [(obs_loads _).1, (obs_loads _).2.1]
        simpa using h2 x
      · have hl : loaded ((roundLong ls).1.map .loads ++ .yields (s :: ss) :: A') = (roundLong ls).1 ++ loaded A' := by
          rw [loaded_append, (obs_loads _).1]; rfl
        have hy : yielded ((roundLong ls).1.map .loads ++ .yields (s :: ss) :: A') = (s :: ss) :: yielded A' := by
          rw [yielded_append, (obs_loads _).2.1]; rfl
        have i := ih ((roundLong ls).1 ++ L) (roundLong ls).2.2 h3 A' e'
        have h2 := h2 x
        rw [hl, hy, List.flatten_cons, List.append_assoc]
        simp only [List.mem_append, or_and_right, exists_or] at i h2 ⊢
        constructor
        · rintro (h | h | h)
          · exact .inl h
          · rcases h2.1 (.inr h) with h | h
            · exact .inl h
            · exact .inr (.inl h)
          · rcases i.1 (.inr h) with (h | h) | h
            · rcases h2.1 (.inr h) with h | h
              · exact .inl h
              · exact .inr (.inl h)
            · exact .inl h
            · exact .inr (.inr h)
        · rintro (h | h | h)
          · exact .inl h
          · rcases h2.2 (.inr h) with h | h
            · exact .inl h
            · exact .inr (.inl h)
          · rcases i.2 (.inr h) with (h | h) | h
            · exact .inr (.inl h)
            · exact .inl h
            · exact .inr (.inr h)

/-- **C225 (lazily).** Files are loaded only when needed: when a batch is yielded, the files loaded so far are exactly the files of the samples in this batch and those before it. -/
theorem C225_lazy (f : String → Py (List (Sample α))) (S : String → List (Sample α)) (b : Nat) (order : List String)
    (hf : ∀ x ∈ order, f x = .ok (S x)) (hS : ∀ x ∈ order, WholeFile x (S x)) (A B : List (Obs α)) (batch : List (Sample α))
    (e : iterTrace f b false order = A ++ .yields batch :: B) (x : String) :
    x ∈ loaded A ↔ ∃ s ∈ (yielded A).flatten ++ batch, s.id = x := by
  unfold iterTrace at e
  dsimp only at e
  rw [if_neg (by simp)] at e
  have := trace_lazy f S order hf hS _ [] _ (by
    intro l hl
    obtain ⟨i, -, rfl⟩ := List.mem_map.1 hl
    exact ⟨[], everyFrom i b order, rfl, by simp, fun y hy => (everyFrom_sublist i b order).subset hy⟩) A B batch e x
  simpa using this

/-! ### Workers -/

/-- **C225 (workers).** Over all the datasets into which a dataset is split for workers, every file is loaded as often as it is listed, whatever order each worker draws. -/
theorem C225_workers (disk : Disk α) (d : Dataset α) (hs : Splittable d) (n bs : Int) (hn : 0 < n) (hb : 0 < bs) (hdvd : n ∣ bs) (shuffle : Bool)
    (order : List Nat) (ho : order.Perm (List.range d.files.length)) (f : String → Py (List (Sample α))) (S : String → List (Sample α)) (hf : ∀ x ∈ d.files, f x = .ok (S x)) :
    ∃ ds, d.split disk n bs shuffle false order = .ok ds ∧
      ∀ orders : List (List String), List.Forall₂ (fun d' o => o.Perm (Dataset.files d')) ds orders →
        ((ds.zip orders).flatMap fun p => loaded (iterTrace f p.1.batchSize.toNat p.1.dropLast p.2)).Perm d.files := by
  obtain ⟨ds, h1, -, h3, -, h5⟩ := (C78_split disk d hs n bs hb shuffle false order ho).2 hn hdvd
  refine ⟨ds, h1, ?_⟩
  intro orders hz
  refine List.Perm.trans ?_ h3
  have hin : ∀ d' ∈ ds, ∀ x ∈ d'.files, x ∈ d.files := fun d' hd' x hx => h3.mem_iff.1 (List.mem_flatten.2 ⟨_, List.mem_map.2 ⟨d', hd', rfl⟩, hx⟩)
  clear h1 h3
  induction hz with
  | nil => exact List.Perm.nil
  | @cons d' o ds os ho' _ ih =>
    obtain ⟨k1, -, k3⟩ := h5 d' (by simp)
    rw [List.zip_cons_cons, List.flatMap_cons, List.map_cons, List.flatten_cons]
    dsimp only
    rw [k3]
    refine List.Perm.append ?_ (ih (fun d'' hd => h5 d'' (by simp [hd])) fun d'' hd => hin d'' (by simp [hd]))
    exact (C225_once f S d'.batchSize.toNat (by omega) o fun x hx => hf x (hin d' (by simp) x (ho'.mem_iff.1 hx))).2.2.trans ho'

/-! ### Headers -/

theorem splitReads_ok (d : Dataset α) (hs : Splittable d) (n bs : Int) (hn : 0 < n) (hdvd : bs % n = 0) (order : List Nat) (ho : order.Perm (List.range d.files.length)) :
    ∃ parts : List (List String), parts.flatten.Perm d.files ∧ splitReads d n bs order = .ok (parts.flatMap fun p => infoReads p none (partMeta d p)) := by
  have h1 : mapPy (lookupKey d.lengths) d.files = .ok (d.files.map fun x => (d.lengths.lookup x).getD 0) := by
    apply mapPy_ok
    intro x hx
    obtain ⟨v, hv⟩ := Option.isSome_iff_exists.1 (hs.lengths x hx)
    simp [lookupKey, hv]
  have h2 : mapPy (numChunksOf d.chunkSeconds) (d.files.map fun x => (d.lengths.lookup x).getD 0) =
      .ok ((d.files.map fun x => (d.lengths.lookup x).getD 0).map fun l => ((pyRound (l / d.chunkSeconds) : Int) : Rat)) := by
    apply mapPy_ok
    intro l _
    unfold numChunksOf
    rw [if_neg hs.seconds]
  obtain ⟨ps, idxs, h3, _, h5, h6, _⟩ := C71_partition ((d.files.map fun x => (d.lengths.lookup x).getD 0).map fun l => ((pyRound (l / d.chunkSeconds) : Int) : Rat))
    n.toNat (by omega) false true rfl order (by simpa using ho)
  simp only [List.length_map] at h6
  have hlt : ∀ is ∈ idxs, ∀ i ∈ is, i < d.files.length := by
    intro is his i hi
    exact List.mem_range.1 (h6.mem_iff.1 (List.mem_flatten.2 ⟨is, his, hi⟩))
  have h7 : mapPy (mapPy fun i : Nat => pyGet d.files i) idxs = .ok (idxs.map fun is => is.map fun i => d.files.getD i "") := by
    apply mapPy_ok
    intro is his
    apply mapPy_ok
    intro i hi
    rw [pyGet_nat d.files i (hlt is his i hi)]
    simp [List.getD, hlt is his i hi]
  have hperm : (idxs.map fun is => is.map fun i => d.files.getD i "").flatten.Perm d.files := by
    rw [← List.map_flatten]
    refine (h6.map _).trans ?_
    have : (List.range d.files.length).map (fun i => d.files.getD i "") = d.files := by
      apply List.ext_getElem
      · simp
      · intro i h1 h2
        simp [List.getD, h2]
    rw [this]
  refine ⟨idxs.map fun is => is.map fun i => d.files.getD i "", hperm, ?_⟩
  have h8 : mapPy (metaFor d.metadata) (idxs.map fun is => is.map fun i => d.files.getD i "") =
      .ok ((idxs.map fun is => is.map fun i => d.files.getD i "").map (partMeta d)) := by
    apply mapPy_ok
    intro part hp
    apply metaFor_ok d hs
    intro x hx
    exact hperm.mem_iff.1 (List.mem_flatten.2 ⟨part, hp, hx⟩)
  unfold splitReads
  rw [if_neg (by omega), if_neg (by simp [hdvd]), h1, Except.bind_ok', h2, Except.bind_ok', h3, Except.bind_ok', h7, Except.bind_ok', h8, Except.bind_ok']
  generalize (idxs.map fun is => is.map fun i => d.files.getD i "") = parts
  congr 1
  induction parts with
  | nil => rfl
  | cons p ps ih => rw [List.map_cons, List.zip_cons_cons, List.flatMap_cons, List.flatMap_cons, ih]

/-- **C225 (headers).** Splitting a dataset for workers, as the loader does at each iteration, opens no file if the dataset has metadata. A dataset that was given `file_lengths` has none (`C225_given`), and then
every file is opened once more, for its header. Missing: "each file is read only once per iteration" for such datasets, which is false (`C225_headers_false`). -/
theorem C225_headers_partial (d : Dataset α) (hs : Splittable d) (n bs : Int) (hn : 0 < n) (hdvd : n ∣ bs) (order : List Nat) (ho : order.Perm (List.range d.files.length)) :
    (d.metadata ≠ [] → splitReads d n bs order = .ok []) ∧ (d.metadata = [] → ∃ xs, splitReads d n bs order = .ok xs ∧ xs.Perm d.files) := by
  obtain ⟨parts, h1, h2⟩ := splitReads_ok d hs n bs hn (Int.emod_eq_zero_of_dvd hdvd) order ho
  rw [h2]
  constructor
  · intro hm
    congr 1
    rw [List.flatMap_eq_nil_iff]
    intro p _
    unfold infoReads partMeta
    rw [if_neg hm]
    cases p with
    | nil => rfl
    | cons x xs => rfl
  · intro hm
    refine ⟨_, rfl, ?_⟩
    have : (fun p => infoReads p none (partMeta d p)) = fun p => p := by
      funext p
      unfold infoReads partMeta
      rw [if_pos hm]
      rfl
    rw [this]
    simpa [List.flatMap_id'] using h1

/-- A dataset that is given lengths keeps no metadata and opens no file; one that is not opens every file for its header, once. -/
theorem C225_given (disk : Disk α) (files : List String) (c : Rat) (lengths : Option (List Rat)) (tr : Option (List α → List α)) (names : Option (List String)) (bs : Int) (hb : 0 < bs) (shuffle dropLast : Bool) :
    ∃ d, Dataset.new disk files c lengths tr names [] bs shuffle dropLast = .ok d ∧ (lengths.isSome = true → d.metadata = [] ∧ infoReads files lengths [] = []) ∧
      (lengths = none → infoReads files lengths [] = d.files ∧ d.metadata.map Prod.fst = d.files) := by
  unfold Dataset.new
  rw [if_neg (by omega)]
  cases lengths with
  | none => exact ⟨_, rfl, by simp, fun _ => ⟨rfl, by simp [Function.comp_def]⟩⟩
  | some ls => exact ⟨_, rfl, fun _ => ⟨rfl, rfl⟩, by simp⟩

/-- **C225 is false for a dataset that is given `file_lengths`**: iterated by a loader, each of its files is opened twice, for its header by `split` and for its audio by the worker. -/
theorem C225_headers_false : ∃ (disk : Disk Nat) (d : Dataset Nat) (xs : List String),
    Dataset.new disk ["a", "b"] 1 (some [3, 3]) none none [] 1 false false = .ok d ∧ Splittable d ∧ splitReads d 1 1 [0, 1] = .ok xs ∧
      (d.split disk 1 1 false false [0, 1]).map (fun ds => xs ++ ds.flatMap fun d' => loaded (iterTrace (processData disk d') 1 false d'.files)) = .ok ["a", "b", "a", "b"] := by
  refine ⟨fun _ => ([0, 0, 0], 1), _, ["a", "b"], rfl, ⟨by decide +kernel, by decide, Or.inl rfl⟩, by decide +kernel, ?_⟩
  decide +kernel

/-! ### Examples -/

/-- Two files of two chunks, one of one. -/
def exRead (x : String) : Py (List (Sample Nat)) :=
  if x = "b" then .ok [⟨[5], true, true, 1, 0, 1, "b"⟩] else if x = "z" then .error .runtimeError else .ok [⟨[1, 2], true, false, 1, 0, 2, x⟩, ⟨[1, 2], false, true, 1, 1, 2, x⟩]

/-- What is seen, in short. -/
def brief (t : List (Obs Nat)) : List (String ⊕ List String ⊕ PyErr) := t.map fun | .loads x => .inl x | .yields b => .inr (.inl (b.map Sample.id)) | .raises e => .inr (.inr e)

example : ∀ x ∈ ["a", "b", "c"], ∃ ss, exRead x = .ok ss ∧ WholeFile x ss := by
  have two : ∀ x : String, WholeFile x [(⟨[1, 2], true, false, 1, 0, 2, x⟩ : Sample Nat), ⟨[1, 2], false, true, 1, 1, 2, x⟩] := by
    intro x
    refine ⟨by simp, ?_⟩
    intro k s hk
    match k, hk with
    | 0, hk => cases hk; simp
    | 1, hk => cases hk; simp
    | k + 2, hk => simp at hk
  intro x hx
  simp only [List.mem_cons, List.not_mem_nil, or_false] at hx
  rcases hx with rfl | rfl | rfl
  · exact ⟨_, rfl, two _⟩
  · refine ⟨_, rfl, by simp, ?_⟩
    intro k s hk
    match k, hk with
    | 0, hk => cases hk; simp
    | k + 1, hk => simp at hk
  · exact ⟨_, rfl, two _⟩
example : brief (iterTrace exRead 2 false ["a", "b", "c"]) = [.inl "a", .inl "b", .inr (.inl ["a", "b"]), .inr (.inl ["a"]), .inl "c", .inr (.inl ["c"]), .inr (.inl ["c"])] := by decide
-- with `drop_last`, "c" is neither yielded nor loaded: the second stream has ended
example : brief (iterTrace exRead 2 true ["a", "b", "c"]) = [.inl "a", .inl "b", .inr (.inl ["a", "b"])] := by decide
example : brief (iterTrace exRead 2 true ["a"]) = [.inl "a", .inr (.inr .runtimeError)] := by decide
-- an unreadable file: what came before it has been yielded
example : brief (iterTrace exRead 1 false ["a", "z", "b"]) = [.inl "a", .inr (.inl ["a"]), .inr (.inl ["a"]), .inl "z", .inr (.inr .runtimeError)] := by decide
example : (exDatasetMd.metadata ≠ [] ∧ Splittable exDatasetMd) ∧ (exDataset.metadata = [] ∧ Splittable exDataset) :=
  ⟨⟨by decide, by decide +kernel, by decide, Or.inr (by decide)⟩, rfl, by decide +kernel, by decide, Or.inl rfl⟩
example : splitReads exDataset 2 4 [3, 1, 2, 0] = .ok ["d", "c", "b", "a"] := by decide +kernel

end
end DS.Data
