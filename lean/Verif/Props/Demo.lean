import Verif.Model.Demo
import Verif.Props.Loader
/-!
# C137, C138: the demo loader
-/

namespace DS.Demo

open DS.Data

/-! ## Streams of keyed elements -/

section
variable {ι β : Type} [DecidableEq ι]

/-- The elements with a given key, in order. -/
def ofKey (key : β → ι) (x : ι) (l : List β) : List β := l.filter fun b => decide (key b = x)

theorem ofKey_append (key : β → ι) (x : ι) (a b : List β) : ofKey key x (a ++ b) = ofKey key x a ++ ofKey key x b := List.filter_append ..

theorem ofKey_self {key : β → ι} {x : ι} {l : List β} (h : ∀ s ∈ l, key s = x) : ofKey key x l = l :=
  List.filter_eq_self.2 fun s hs => by simpa using h s hs

theorem ofKey_none {key : β → ι} {x : ι} {l : List β} (h : ∀ s ∈ l, key s ≠ x) : ofKey key x l = [] :=
  List.filter_eq_nil_iff.2 fun s hs => by simpa using h s hs

theorem ofKey_flatten (key : β → ι) (x : ι) (L : List (List β)) : ofKey key x L.flatten = L.flatMap (ofKey key x) := by
  induction L with
  | nil => rfl
  | cons a as ih => rw [List.flatten_cons, ofKey_append, ih, List.flatMap_cons]

theorem ofKey_flatMap (key : β → ι) (S : ι → List β) (l : List ι) (hn : l.Nodup) (hS : ∀ y ∈ l, ∀ s ∈ S y, key s = y) (x : ι) :
    ofKey key x (l.flatMap S) = if x ∈ l then S x else [] := by
  induction l with
  | nil => rfl
  | cons y ys ih =>
    rw [List.nodup_cons] at hn
    rw [List.flatMap_cons, ofKey_append, ih hn.2 (fun z hz => hS z (by simp [hz]))]
    by_cases hxy : x = y
    · subst hxy
      rw [ofKey_self (hS x (by simp)), if_neg hn.1, if_pos (by simp), List.append_nil]
    · rw [ofKey_none (fun s hs => by rw [hS y (by simp) s hs]; exact fun h => hxy h.symm), List.nil_append]
      by_cases hx : x ∈ ys <;> simp [hx, hxy]

/-- What a worker with the items `xs` has to yield: everything of each item in order, in batches of at most `b` that hold no item twice. -/
structure Work (key : β → ι) (S : ι → List β) (b : Nat) (xs : List ι) (bs : List (List β)) : Prop where
  once : ∀ x ∈ xs, ofKey key x bs.flatten = S x
  only : ∀ s ∈ bs.flatten, key s ∈ xs
  batch : ∀ a ∈ bs, a ≠ [] ∧ a.length ≤ b ∧ (a.map key).Nodup

theorem stream_key (key : β → ι) (S : ι → List β) (b : Nat) (xs : List ι) (hS : ∀ x ∈ xs, ∀ s ∈ S x, key s = x) (i : Nat) (s : β)
    (h : s ∈ (everyFrom i b xs).flatMap S) : key s ∈ everyFrom i b xs := by
  obtain ⟨x, hx, hs⟩ := List.mem_flatMap.1 h
  rw [hS x ((everyFrom_sublist i b xs).subset hx) s hs]
  exact hx

/-- One worker: its items dealt into `b` slots. -/
theorem work_of_slots (key : β → ι) (S : ι → List β) (b : Nat) (hb : 0 < b) (xs : List ι) (hn : xs.Nodup) (hS : ∀ x ∈ xs, ∀ s ∈ S x, key s = x) :
    Work key S b xs (zipLongest ((List.range b).map fun i => (everyFrom i b xs).flatMap S)) where
  once := by
    intro x hx
    obtain ⟨i, hi, hxi⟩ := everyFrom_exists hb hx
    obtain ⟨pre, post, hr, hne⟩ := range_split hi
    have hother : ∀ j, (j ∈ pre ∨ j ∈ post) → ∀ s ∈ (everyFrom j b xs).flatMap S, key s ≠ x := by
      rintro j hj s hs rfl
      obtain ⟨h1, h2⟩ := hne j hj
      exact h1 (everyFrom_unique hn h2 hi (stream_key key S b xs hS j s hs) hxi)
    unfold ofKey
    rw [hr, List.map_append, List.map_cons, filter_eq_flatMap', zipLongest_flatMap, ← filter_eq_flatMap']
    · show ofKey key x _ = _
      rw [ofKey_flatMap key S _ ((everyFrom_sublist i b xs).nodup hn) (fun y hy => hS y ((everyFrom_sublist i b xs).subset hy)), if_pos hxi]
    · intro l hl s hs
      obtain ⟨j, hj, rfl⟩ := List.mem_map.1 hl
      simp [hother j (Or.inl hj) s hs]
    · intro l hl s hs
      obtain ⟨j, hj, rfl⟩ := List.mem_map.1 hl
      simp [hother j (Or.inr hj) s hs]
  only := by
    intro s h
    obtain ⟨l, hl, hs⟩ := List.mem_flatten.1 h
    obtain ⟨k, _, rfl⟩ := mem_zipLongest hl
    obtain ⟨t, ht, hs⟩ := mem_layer.1 hs
    obtain ⟨i, _, rfl⟩ := List.mem_map.1 ht
    exact (everyFrom_sublist i b xs).subset (stream_key key S b xs hS i s (List.mem_of_getElem? hs))
  batch := by
    intro a ha
    obtain ⟨k, hk, rfl⟩ := mem_zipLongest ha
    refine ⟨layer_ne_nil _ _ hk, Nat.le_trans (layer_length_le _ _) (by simp), layer_nodup _ _ ?_ k⟩
    rw [List.pairwise_map]
    have : (List.range b).Pairwise fun i j => i ≠ j ∧ i < b ∧ j < b := by
      rw [List.pairwise_iff_getElem]
      intro i j hi hj hij
      simp at hi hj ⊢
      omega
    refine this.imp ?_
    rintro i j ⟨hij, hi, hj⟩ a ha c hc heq
    have h1 := stream_key key S b xs hS i a ha
    have h2 := stream_key key S b xs hS j c hc
    rw [← heq] at h2
    exact hij (everyFrom_unique hn hi hj h1 h2)

/-- Workers with disjoint items put together. -/
theorem work_merge (key : β → ι) (S : ι → List β) (b : Nat) (parts : List (List ι)) (streams : List (List (List β))) (hn : parts.flatten.Nodup)
    (h : List.Forall₂ (Work key S b) parts streams) : Work key S (parts.length * b) parts.flatten ((zipLongest streams).map List.flatten) where
  once := by
    intro x hx
    obtain ⟨p, hp, hxp⟩ := List.mem_flatten.1 hx
    have hsplit : ∃ pre st post, streams = pre ++ st :: post ∧ ofKey key x st.flatten = S x ∧
        (∀ l ∈ pre, ∀ s ∈ l.flatten, key s ≠ x) ∧ ∀ l ∈ post, ∀ s ∈ l.flatten, key s ≠ x := by
      clear hx
      induction h with
      | nil => cases hp
      | @cons q st ps sts hw hws ih =>
        rw [List.flatten_cons, List.nodup_append] at hn
        by_cases hxq : x ∈ q
        · refine ⟨[], st, sts, rfl, hw.once x hxq, by simp, ?_⟩
          intro l hl s hs heq
          obtain ⟨q', hq', hw'⟩ := forall2_mem hws hl
          have := hw'.only s hs
          rw [heq] at this
          exact hn.2.2 x hxq x (List.mem_flatten.2 ⟨q', hq', this⟩) rfl
        · have hpp : p ∈ ps := by
            rcases List.mem_cons.1 hp with rfl | h
            · exact absurd hxp hxq
            · exact h
          obtain ⟨pre, st', post, he, h1, h2, h3⟩ := ih hn.2.1 hpp
          refine ⟨st :: pre, st', post, by rw [he]; rfl, h1, ?_, h3⟩
          intro l hl s hs heq
          rcases List.mem_cons.1 hl with rfl | hl
          · have := hw.only s hs
            rw [heq] at this
            exact hxq this
          · exact h2 l hl s hs heq
    obtain ⟨pre, st, post, he, h1, h2, h3⟩ := hsplit
    rw [← List.flatten_flatten, ofKey_flatten, he, zipLongest_flatMap, ← ofKey_flatten, h1]
    · intro l hl c hc
      exact ofKey_none fun s hs => h2 l hl s (List.mem_flatten.2 ⟨c, hc, hs⟩)
    · intro l hl c hc
      exact ofKey_none fun s hs => h3 l hl s (List.mem_flatten.2 ⟨c, hc, hs⟩)
  only := by
    intro s hs
    rw [← List.flatten_flatten] at hs
    obtain ⟨c, hc, hs⟩ := List.mem_flatten.1 hs
    obtain ⟨l, hl, hc⟩ := List.mem_flatten.1 hc
    obtain ⟨k, _, rfl⟩ := mem_zipLongest hl
    obtain ⟨st, hst, hc⟩ := mem_layer.1 hc
    obtain ⟨q, hq, hw⟩ := forall2_mem h hst
    exact List.mem_flatten.2 ⟨q, hq, hw.only s (List.mem_flatten.2 ⟨c, List.mem_of_getElem? hc, hs⟩)⟩
  batch := by
    intro a ha
    obtain ⟨l, hl, rfl⟩ := List.mem_map.1 ha
    obtain ⟨k, hk, rfl⟩ := mem_zipLongest hl
    have hne : ∀ c ∈ layer streams k, c ≠ [] := by
      intro c hc
      obtain ⟨st, hst, hc⟩ := mem_layer.1 hc
      obtain ⟨q, _, hw⟩ := forall2_mem h hst
      exact (hw.batch c (List.mem_of_getElem? hc)).1
    refine ⟨?_, ?_, ?_⟩
    · obtain ⟨c, hc⟩ := List.exists_mem_of_ne_nil _ (layer_ne_nil streams k hk)
      obtain ⟨s, hs⟩ := List.exists_mem_of_ne_nil _ (hne c hc)
      exact List.ne_nil_of_mem (List.mem_flatten.2 ⟨c, hc, hs⟩)
    · clear hne ha hl hk hn
      induction h with
      | nil => simp [layer]
      | @cons q st ps sts hw hws ih =>
        rw [layer_cons, List.flatten_append, List.length_append, List.length_cons, Nat.succ_mul]
        have : ((st[k]?).toList.flatten).length ≤ b := by
          cases hg : st[k]? with
          | none => simp
          | some c => simpa using (hw.batch c (List.mem_of_getElem? hg)).2.1
        omega
    · clear hne ha hl hk
      induction h with
      | nil => simp [layer]
      | @cons q st ps sts hw hws ih =>
        rw [List.flatten_cons, List.nodup_append] at hn
        rw [layer_cons, List.flatten_append, List.map_append, List.nodup_append]
        refine ⟨?_, ih hn.2.1, ?_⟩
        · cases hg : st[k]? with
          | none => simp
          | some c =>
            simpa using (hw.batch c (List.mem_of_getElem? hg)).2.2
        · intro x hx y hy heq
          subst heq
          obtain ⟨s, hs, rfl⟩ := List.mem_map.1 hx
          obtain ⟨c, hc, hs⟩ := List.mem_flatten.1 hs
          have hc' : c ∈ st := List.mem_of_getElem? (by simpa using hc)
          have h1 : key s ∈ q := hw.only s (List.mem_flatten.2 ⟨c, hc', hs⟩)
          obtain ⟨t, ht, hte⟩ := List.mem_map.1 hy
          obtain ⟨c', hc'', ht⟩ := List.mem_flatten.1 ht
          obtain ⟨st', hst', hc''⟩ := mem_layer.1 hc''
          obtain ⟨q', hq', hw'⟩ := forall2_mem hws hst'
          have h2 : key t ∈ ps.flatten := List.mem_flatten.2 ⟨q', hq', hw'.only t (List.mem_flatten.2 ⟨c', List.mem_of_getElem? hc'', ht⟩)⟩
          rw [hte] at h2
          exact hn.2.2 _ h1 _ h2 rfl

end

/-! ## C137: splitting -/

theorem pickWorkers_spec (bs m : Nat) (hb : 0 < bs) (hm : 0 < m) :
    pickWorkers bs m ∣ bs ∧ 0 < pickWorkers bs m ∧ pickWorkers bs m ≤ m ∧ ∀ n, n ∣ bs → n ≤ m → n ≤ pickWorkers bs m := by
  have key : ∀ m, 0 < m → ∃ w, ((List.range m).reverse.map (· + 1)).find? (fun n => bs % n == 0) = some w ∧
      w ∣ bs ∧ 0 < w ∧ w ≤ m ∧ ∀ n, n ∣ bs → n ≤ m → n ≤ w := by
    intro m
    induction m with
    | zero => intro h; omega
    | succ m ih =>
      intro _
      rw [List.range_succ, List.reverse_append, List.reverse_singleton, List.singleton_append, List.map_cons, List.find?_cons]
      by_cases hd : bs % (m + 1) = 0
      · refine ⟨m + 1, by simp [hd], Nat.dvd_of_mod_eq_zero hd, by omega, by omega, fun n _ h => h⟩
      · have hm0 : 0 < m := by
          rcases Nat.eq_zero_or_pos m with h0 | h0
          · subst h0; exact absurd (Nat.mod_one bs) hd
          · exact h0
        obtain ⟨w, h1, h2, h3, h4, h5⟩ := ih hm0
        refine ⟨w, ?_, h2, h3, by omega, ?_⟩
        · rw [show (bs % (m + 1) == 0) = false by simp [hd]]
          exact h1
        · intro n hn hle
          rcases Nat.lt_or_ge n (m + 1) with h | h
          · exact h5 n hn (by omega)
          · have : n = m + 1 := by omega
            subst this
            exact absurd (Nat.mod_eq_zero_of_dvd hn) hd
  obtain ⟨w, h1, h2, h3, h4, h5⟩ := key m hm
  have : pickWorkers bs m = w := by
    unfold pickWorkers
    rw [h1]
    rfl
  rw [this]
  exact ⟨h2, h3, h4, h5⟩

theorem names_length : names.length = 52 := by decide

/-- What `split_datasets` computes. -/
theorem split_spec {γ : Type} (data : List (List γ)) (bs mw : Nat) (hb : 0 < bs) (hm : 0 < mw) (order : List Nat) (ho : order.Perm (List.range data.length)) :
    ∃ (w : Nat) (idxs : List (List Nat)), w ∣ bs ∧ 0 < w ∧ w ≤ mw ∧ (∀ n, n ∣ bs → n ≤ mw → n ≤ w) ∧ idxs.length = w ∧ idxs.flatten.Perm (List.range data.length) ∧
      (52 < w → splitDatasets data bs mw order = .error .indexError) ∧
      (w ≤ 52 → splitDatasets data bs mw order =
        .ok (idxs.mapIdx fun i is => ⟨is.map fun k => data.getD k [], bs / w, false, false, names.getD i 'A'⟩)) := by
  generalize hm' : (if bs < mw then bs else mw) = m
  have hm0 : 0 < m := by rw [← hm']; split <;> assumption
  obtain ⟨h1, h2, h3, h4⟩ := pickWorkers_spec bs m hb hm0
  obtain ⟨ps, idxs, p1, _, p3, p4, _⟩ := C71_partition (data.map fun x => (x.length : Rat)) (pickWorkers bs m) h2 false true rfl order (by simpa using ho)
  simp only [List.length_map] at p4
  have hlt : ∀ is ∈ idxs, ∀ i ∈ is, i < data.length := by
    intro is his i hi
    exact List.mem_range.1 (p4.mem_iff.1 (List.mem_flatten.2 ⟨is, his, hi⟩))
  have hitems : mapPy (mapPy fun i : Nat => pyGet data i) idxs = .ok (idxs.map fun is => is.map fun i => data.getD i []) := by
    apply mapPy_ok
    intro is his
    apply mapPy_ok
    intro i hi
    rw [pyGet_nat data i (hlt is his i hi)]
    simp [List.getD, hlt is his i hi]
  refine ⟨pickWorkers bs m, idxs, h1, h2, ?_, ?_, p3, p4, ?_, ?_⟩
  · refine Nat.le_trans h3 ?_
    rw [← hm']; split <;> omega
  · intro n hn hle
    refine h4 n hn ?_
    rw [← hm']
    split
    · exact Nat.le_of_dvd hb hn
    · exact hle
  · intro h52
    unfold splitDatasets
    dsimp only
    rw [hm', p1, Except.bind_ok', hitems, Except.bind_ok', if_neg (by omega)]
    -- position 52 has no name, the 52 before it have one
    have hgo : ∀ l : List Nat, (∀ i ∈ l, i < pickWorkers bs m) → (∃ i ∈ l, 52 ≤ i) →
        mapPy (fun i : Nat => do
          let d ← pyGet (idxs.map fun is => is.map fun i => data.getD i []) i
          let n ← pyGet names i
          Except.ok (⟨d, bs / pickWorkers bs m, false, false, n⟩ : Dataset γ)) l = .error .indexError := by
      intro l
      induction l with
      | nil => rintro _ ⟨i, hi, _⟩; cases hi
      | cons i is ih =>
        intro hl hex
        unfold mapPy
        have hi : i < (idxs.map fun is => is.map fun i => data.getD i []).length := by rw [List.length_map, p3]; exact hl i (by simp)
        rw [pyGet_nat _ i hi, Except.bind_ok']
        by_cases h : i < 52
        · have hi' : i < names.length := by rw [names_length]; exact h
          rw [pyGet_nat names i hi', Except.bind_ok', Except.bind_ok', ih (fun j hj => hl j (by simp [hj])) ?_, Except.bind_error']
          obtain ⟨j, hj, hj2⟩ := hex
          rcases List.mem_cons.1 hj with rfl | hj
          · omega
          · exact ⟨j, hj, hj2⟩
        · have : pyGet names (i : Int) = .error .indexError := by
            unfold pyGet getNonneg
            have h0 : ¬ ((i : Int) < 0) := by omega
            simp [h0, names_length, show 52 ≤ i by omega]
          rw [this, Except.bind_error', Except.bind_error']
    exact hgo _ (fun i hi => List.mem_range.1 hi) ⟨52, List.mem_range.2 h52, Nat.le_refl _⟩
  · intro h52
    unfold splitDatasets
    dsimp only
    rw [hm', p1, Except.bind_ok', hitems, Except.bind_ok', if_neg (by omega)]
    rw [mapPy_ok _ (fun i : Nat => (⟨(idxs.getD i []).map fun k => data.getD k [], bs / pickWorkers bs m, false, false, names.getD i 'A'⟩ : Dataset γ))]
    · congr 1
      apply List.ext_getElem
      · simp [p3]
      · intro i h1 h2
        have : i < idxs.length := by simpa using h2
        simp [List.getD, this]
    · intro i hi
      have hi := List.mem_range.1 hi
      have hi1 : i < (idxs.map fun is => is.map fun i => data.getD i []).length := by rw [List.length_map, p3]; exact hi
      have hi2 : i < names.length := by rw [names_length]; omega
      have hi3 : i < idxs.length := by omega
      rw [pyGet_nat _ i hi1, Except.bind_ok', pyGet_nat names i hi2, Except.bind_ok']
      simp [List.getD, hi2, hi3]

/-- C137, what holds: for positive sizes, `split_datasets` uses the largest number of workers up to `max_workers` that divides the batch size. If these are at
most 52, the datasets together hold every item once and their batch sizes add up to the batch size; up to 26 they have different names.
Missing: different names for 27 or more workers, and any result for 53 or more. -/
theorem C137_split_partial {γ : Type} (data : List (List γ)) (bs mw : Nat) (hb : 0 < bs) (hm : 0 < mw) (order : List Nat) (ho : order.Perm (List.range data.length)) :
    ∃ w, w ∣ bs ∧ 0 < w ∧ w ≤ mw ∧ (∀ n, n ∣ bs → n ≤ mw → n ≤ w) ∧
      (52 < w → splitDatasets data bs mw order = .error .indexError) ∧
      (w ≤ 52 → ∃ ds, splitDatasets data bs mw order = .ok ds ∧ ds.length = w ∧ (ds.flatMap Dataset.data).Perm data ∧
        (ds.map Dataset.batchSize).sum = bs ∧ (w ≤ 26 → (ds.map Dataset.name).Nodup)) := by
  obtain ⟨w, idxs, h1, h2, h3, h4, h5, h6, h7, h8⟩ := split_spec data bs mw hb hm order ho
  refine ⟨w, h1, h2, h3, h4, h7, fun h => ⟨_, h8 h, by simpa using h5, ?_, ?_, ?_⟩⟩
  · have : (idxs.mapIdx fun i is => (⟨is.map fun k => data.getD k [], bs / w, false, false, names.getD i 'A'⟩ : Dataset γ)).flatMap Dataset.data =
        idxs.flatten.map fun k => data.getD k [] := by
      rw [List.flatMap_def, List.mapIdx_eq_zipIdx_map, List.map_map]
      rw [show (Dataset.data ∘ fun p : List Nat × Nat => (⟨p.1.map fun k => data.getD k [], bs / w, false, false, names.getD p.2 'A'⟩ : Dataset γ)) =
        (fun is : List Nat => is.map fun k => data.getD k []) ∘ Prod.fst from rfl, ← List.map_map, List.zipIdx_map_fst, List.map_flatten]
    rw [this]
    refine (h6.map _).trans ?_
    rw [show (List.range data.length).map (fun k => data.getD k []) = data by
      apply List.ext_getElem
      · simp
      · intro i h1 h2
        simp [List.getD, h2]]
  · have : (idxs.mapIdx fun i is => (⟨is.map fun k => data.getD k [], bs / w, false, false, names.getD i 'A'⟩ : Dataset γ)).map Dataset.batchSize = List.replicate w (bs / w) := by
      rw [List.eq_replicate_iff]
      constructor
      · simpa using h5
      · intro b hb
        obtain ⟨d, hd, rfl⟩ := List.mem_map.1 hb
        obtain ⟨i, _, rfl⟩ := List.mem_mapIdx.1 hd
        rfl
    rw [this, List.sum_replicate_nat]
    exact Nat.mul_div_cancel' h1
  · intro h26
    have hname : (idxs.mapIdx fun i is => (⟨is.map fun k => data.getD k [], bs / w, false, false, names.getD i 'A'⟩ : Dataset γ)).map Dataset.name = names.take w := by
      apply List.ext_getElem
      · simp [h5, names_length]; omega
      · intro i h1 h2
        have : i < names.length := by
          rw [List.length_take] at h2
          omega
        simp [List.getD, this]
    rw [hname]
    have h26' : (names.take 26).Nodup := by decide
    have : names.take w = (names.take 26).take w := by rw [List.take_take, Nat.min_eq_left h26]
    rw [this]
    exact (List.take_sublist _ _).nodup h26'

/-- C137 is false: with 27 workers the first and the last dataset have the same name. -/
theorem C137_names_false : (splitDatasets (γ := Nat) [] 27 27 []).map (fun ds => (ds.map Dataset.name, ds.length)) =
    .ok (['A', 'B', 'C', 'D', 'E', 'F', 'G', 'H', 'I', 'J', 'K', 'L', 'M', 'N', 'O', 'P', 'Q', 'R', 'S', 'T', 'U', 'V', 'W', 'X', 'Y', 'Z', 'A'], 27) := by decide +kernel

/-- C137 is false: 53 workers run out of names. -/
theorem C137_too_many_false : splitDatasets (γ := Nat) [] 53 53 [] = .error .indexError := by
  obtain ⟨w, h1, h2, h3, h4, h5, _⟩ := C137_split_partial (γ := Nat) [] 53 53 (by omega) (by omega) [] (List.Perm.refl _)
  exact h5 (by have := h4 53 (Nat.dvd_refl _) (Nat.le_refl _); omega)

example : (splitDatasets [["a1", "a2", "a3"], ["b1"], ["c1", "c2"], ["d1"]] 6 4 [1, 3, 2, 0]).map (fun ds => ds.map fun d => (d.data, d.batchSize, d.name)) =
    .ok [([["b1"], ["a1", "a2", "a3"]], 2, 'A'), ([["d1"]], 2, 'B'), ([["c1", "c2"]], 2, 'C')] := by decide +kernel

/-! ## C138: delivery -/

/-- C138: the demo loader over the datasets of `split_datasets` delivers every item's chunks exactly once and in order, all with the name of one dataset, and nothing else;
no batch is empty, exceeds the batch size or holds two chunks of an item, and every batch can be collated. The chunks tell their item by `key`. -/
theorem C138_delivers {γ : Type} (data : List (List γ)) (bs mw : Nat) (hb : 0 < bs) (hm : 0 < mw) (order : List Nat) (ho : order.Perm (List.range data.length))
    (ds : List (Dataset γ)) (h : splitDatasets data bs mw order = .ok ds) (key : γ → Nat) (hkey : ∀ (i : Nat) (x : List γ), data[i]? = some x → ∀ c ∈ x, key c = i) :
    let out := loader false (ds.map fun d => d.iter d.data)
    (∀ (i : Nat) (x : List γ), data[i]? = some x → ∃ d ∈ ds, (out.flatten.filter fun c => decide (key c.1 = i)) = x.map fun c => (c, d.name)) ∧
    (∀ c ∈ out.flatten, key c.1 < data.length) ∧
    ∀ b ∈ out, b ≠ [] ∧ b.length ≤ bs ∧ (b.map fun c => key c.1).Nodup ∧ collate b = .ok (b.map Prod.fst, b.map Prod.snd) := by
  obtain ⟨w, idxs, h1, h2, h3, h4, h5, h6, h7, h8⟩ := split_spec data bs mw hb hm order ho
  have hw : w ≤ 52 := by
    by_contra hc
    rw [h7 (by omega)] at h
    cases h
  rw [h8 hw] at h
  injection h with h
  have hidn : idxs.flatten.Nodup := h6.nodup_iff.2 List.nodup_range
  -- the name of an item: that of the first worker that has it
  let nameOf : Nat → Char := fun i => names.getD (idxs.findIdx fun is => decide (i ∈ is)) 'A'
  let S : Nat → List (γ × Char) := fun i => (data.getD i []).map fun c => (c, nameOf i)
  let K : γ × Char → Nat := fun c => key c.1
  have hbw : 0 < bs / w := Nat.div_pos (Nat.le_of_dvd hb h1) h2
  have hKS : ∀ i ∈ idxs.flatten, ∀ s ∈ S i, K s = i := by
    intro i hi s hs
    have hil : i < data.length := List.mem_range.1 (h6.mem_iff.1 hi)
    obtain ⟨c, hc, rfl⟩ := List.mem_map.1 hs
    refine hkey i data[i] (by simp [hil]) c ?_
    simpa [List.getD, hil] using hc
  have hfind : ∀ (n : Nat) (is : List Nat), idxs[n]? = some is → ∀ i ∈ is, idxs.findIdx (fun is => decide (i ∈ is)) = n := by
    intro n is hn i hi
    obtain ⟨hl, hg⟩ := List.getElem?_eq_some_iff.1 hn
    rw [List.findIdx_eq hl]
    refine ⟨by simp [hg, hi], ?_⟩
    intro j hj
    rw [decide_eq_false_iff_not]
    intro hi'
    have hp := List.pairwise_iff_getElem.1 (List.nodup_flatten.1 hidn).2 j n (by omega) hl hj
    exact hp hi' (by rw [hg]; exact hi)
  have hworks : List.Forall₂ (Work K S (bs / w)) idxs (ds.map fun d => d.iter d.data) := by
    rw [← h, List.mapIdx_eq_zipIdx_map, List.map_map, List.forall₂_map_right_iff]
    rw [List.forall₂_iff_get]
    refine ⟨by simp, ?_⟩
    intro n hn1 hn2
    simp only [List.get_eq_getElem, List.getElem_zipIdx, Function.comp, Nat.zero_add]
    have hdn : (idxs[n]).Nodup := (List.nodup_flatten.1 hidn).1 _ (List.getElem_mem _)
    have hw := work_of_slots K S (bs / w) hbw idxs[n] hdn (fun x hx => hKS x (List.mem_flatten.2 ⟨_, List.getElem_mem _, hx⟩))
    have heq : ∀ i, (everyFrom i (bs / w) idxs[n]).flatMap S =
        Dataset.stream (⟨idxs[n].map fun k => data.getD k [], bs / w, false, false, names.getD n 'A'⟩ : Dataset γ) (everyFrom i (bs / w) (idxs[n].map fun k => data.getD k [])) := by
      intro i
      have hmap : everyFrom i (bs / w) (idxs[n].map fun k => data.getD k []) = (everyFrom i (bs / w) idxs[n]).map fun k => data.getD k [] := by
        unfold everyFrom
        rw [List.zipIdx_map, List.filter_map, List.map_map, List.map_map]
        rfl
      rw [hmap]
      unfold Dataset.stream
      rw [List.flatMap_map]
      apply List.flatMap_congr
      intro k hk
      have hk' : k ∈ idxs[n] := (everyFrom_sublist _ _ _).subset hk
      show (data.getD k []).map (fun c => (c, nameOf k)) = _
      have : nameOf k = names.getD n 'A' := by
        show names.getD (idxs.findIdx fun is => decide (k ∈ is)) 'A' = _
        rw [hfind n idxs[n] (by simp) k hk']
      rw [this]
    simp only [heq] at hw
    exact hw
  have hmerge := work_merge K S (bs / w) idxs _ hidn hworks
  intro out
  have hout : out = (zipLongest (ds.map fun d => d.iter d.data)).map List.flatten := rfl
  rw [← hout] at hmerge
  refine ⟨?_, ?_, ?_⟩
  · intro i x hx
    obtain ⟨hil, hg⟩ := List.getElem?_eq_some_iff.1 hx
    have hi : i ∈ idxs.flatten := h6.mem_iff.2 (List.mem_range.2 hil)
    obtain ⟨is, his, hii⟩ := List.mem_flatten.1 hi
    obtain ⟨n, hn, rfl⟩ := List.getElem_of_mem his
    refine ⟨⟨idxs[n].map fun k => data.getD k [], bs / w, false, false, names.getD n 'A'⟩, ?_, ?_⟩
    · rw [← h]
      exact List.mem_mapIdx.2 ⟨n, hn, rfl⟩
    · have := hmerge.once i hi
      unfold ofKey at this
      rw [this]
      show (data.getD i []).map (fun c => (c, nameOf i)) = _
      have hnm : nameOf i = names.getD n 'A' := by
        show names.getD (idxs.findIdx fun is => decide (i ∈ is)) 'A' = _
        rw [hfind n idxs[n] (by simp) i hii]
      rw [hnm]
      simp [List.getD, hil, hg]
  · intro c hc
    exact List.mem_range.1 (h6.mem_iff.1 (hmerge.only c hc))
  · intro b hb'
    obtain ⟨m1, m2, m3⟩ := hmerge.batch b hb'
    refine ⟨m1, ?_, m3, ?_⟩
    · rw [h5, Nat.mul_div_cancel' h1] at m2
      exact m2
    · unfold collate
      rw [if_neg m1]

example : (splitDatasets [["a1", "a2", "a3"], ["b1"], ["c1", "c2"], ["d1"]] 4 2 [1, 3, 2, 0]).map (fun ds => loader false (ds.map fun d => d.iter d.data)) =
    .ok [[("b1", 'A'), ("c1", 'A'), ("d1", 'B'), ("a1", 'B')], [("c2", 'A'), ("a2", 'B')], [("a3", 'B')]] := by decide +kernel

end DS.Demo
