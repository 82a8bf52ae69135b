import Verif.Spec.Shuffle
import Verif.Props.ListOrder
/-!
# C215: shuffling and workers
-/

namespace DS.Data

section
variable {α : Type}

theorem filterMap_range_take {β : Type} (b : Nat) (xs : List β) : (List.range b).filterMap (fun i => xs[i]?) = xs.take b := by
  induction b with
  | zero => simp
  | succ b ih =>
    rw [List.range_succ, List.filterMap_append, ih, List.take_add_one]
    congr 1

theorem first_layer (S : String → List (Sample α)) {b : Nat} (order : List String) (hS : ∀ x ∈ order, WholeFile x (S x)) :
    (layer (streamsOf S b order) 0).map Sample.id = order.take b := by
  unfold layer streamsOf
  rw [List.filterMap_map, List.map_filterMap, ← filterMap_range_take]
  refine List.filterMap_congr fun i hi => ?_
  have hib : i < b := List.mem_range.1 hi
  simp only [Function.comp]
  rw [everyFrom_drop hib]
  cases h : order[i]? with
  | none =>
    rw [if_neg (by rw [List.getElem?_eq_none_iff] at h; omega)]
    rfl
  | some x =>
    obtain ⟨s, h1, h2, _⟩ := whole_first (hS x (List.mem_of_getElem? h))
    simp only [Option.toList_some, List.singleton_append, List.flatMap_cons]
    rw [List.getElem?_append_left (List.getElem?_eq_some_iff.1 h1).1, h1]
    simp [h2]

theorem zipLongest_head {β : Type} (ss : List (List β)) : (zipLongest ss)[0]?.toList.flatten = layer ss 0 := by
  unfold zipLongest
  rw [List.getElem?_map]
  by_cases h : 0 < maxLen ss
  · rw [List.getElem?_range h]
    simp
  · rw [List.getElem?_eq_none (by simpa using h)]
    simp only [Option.map_none, Option.toList_none, List.flatten_nil]
    symm
    refine List.eq_nil_iff_forall_not_mem.2 fun x hx => ?_
    obtain ⟨s, hs, hx⟩ := mem_layer.1 hx
    have := le_maxLen hs
    obtain ⟨h', _⟩ := List.getElem?_eq_some_iff.1 hx
    omega

/-- The streams of the workers, and the files with which they begin. -/
theorem iterAll_first (disk : Disk α) (d : Dataset α) (bs : Nat) (hb : 0 < bs) (shuffle : Bool) (S : String → List (Sample α)) (parts orders : List (List String))
    (ho : List.Forall₂ List.Perm orders parts) (hf : ∀ x ∈ parts.flatten, processData disk d x = .ok (S x))
    (hS : ∀ x ∈ parts.flatten, WholeFile x (S x)) (streams : List (List (List (Sample α))))
    (hi : iterAll disk (parts.map (workerDataset disk d bs shuffle false)) orders = .ok streams) :
    (layer streams 0).flatten.map Sample.id = orders.flatMap (List.take bs) := by
  induction ho generalizing streams with
  | nil =>
    cases hi
    rfl
  | @cons o p os ps hop _ ih =>
    have hmem : ∀ x ∈ o, x ∈ (p :: ps).flatten := fun x hx => List.mem_flatten.2 ⟨p, by simp, hop.subset hx⟩
    have hrest : ∀ x ∈ ps.flatten, x ∈ (p :: ps).flatten := fun x hx => by rw [List.flatten_cons]; exact List.mem_append_right _ hx
    have h1 : Dataset.iter disk (workerDataset disk d bs shuffle false p) o = .ok (zipLongest (streamsOf S bs o)) := by
      unfold Dataset.iter
      rw [getStreams_ok (processData disk (workerDataset disk d bs shuffle false p)) S _ _ _ (fun x hx => (processData_congr disk d _ rfl rfl x).trans (hf x (hmem x hx)))]
      rfl
    have h2 : (do let a ← Dataset.iter disk (workerDataset disk d bs shuffle false p) o; let b ← iterAll disk (ps.map (workerDataset disk d bs shuffle false)) os; Except.ok (a :: b)) =
        .ok streams := hi
    rw [h1, Except.bind_ok'] at h2
    cases h3 : iterAll disk (ps.map (workerDataset disk d bs shuffle false)) os with
    | error e => rw [h3] at h2; cases h2
    | ok rest =>
      rw [h3, Except.bind_ok'] at h2
      cases h2
      rw [layer_cons, List.flatten_append, List.map_append, List.flatMap_cons, ih (fun x hx => hf x (hrest x hx)) (fun x hx => hS x (hrest x hx)) rest h3]
      congr 1
      rw [zipLongest_head, first_layer S o fun x hx => hS x (hmem x hx)]

/-- The first synchronised batch holds the files of the first batch. -/
theorem sync_first (b : List (Sample α)) (rest : List (List (Sample α))) (h : WellFormed (b :: rest)) (fuel : Nat) :
    ∃ b' out e, sync (fuel + 1) (b :: rest) = (b' :: out, e) ∧ b'.map Sample.id = b.map Sample.id := by
  obtain ⟨_, _, heq, hne, hn⟩ := h.1
  cases heq
  have hw := wellFormed_F h
  have hi := hist_init b rest hne hn
  have hfr : Fresh [] (⟨rest, false, b.map Sample.id, Bufs.first b⟩ : SyncSt α) := by
    obtain ⟨_, h3, _⟩ := first_spec b hn
    refine ⟨by simpa using hne, fun j hj => ⟨rfl, ?_⟩⟩
    show (Bufs.first b).get j ≠ []
    rw [h3 j]
    exact fun h0 => ofFile_nil_iff.1 h0 hj
  obtain ⟨b', st', hstep, _, _, hb, _⟩ := step_yield hw hi.inv (Or.inl hfr) (by simpa using hne)
  refine ⟨b', (syncRun b.length fuel st').1, (syncRun b.length fuel st').2, ?_, hb⟩
  show syncRun b.length (fuel + 1) _ = _
  rw [syncRun, hstep]

/-- The files of the first batch of a loader: from every worker the first ones in its order. -/
theorem loader_first (disk : Disk α) (cfg : LoaderCfg) (d : Dataset α) (hs : Splittable d) (hdrop : cfg.dropLast = false) (hb : 0 < cfg.batchSize)
    (hdvd : max 1 cfg.numWorkers ∣ cfg.batchSize) (hn : d.files.Nodup) (hne : d.files ≠ [])
    (S : String → List (Sample α)) (hf : ∀ x ∈ d.files, processData disk d x = .ok (S x)) (hS : ∀ x ∈ d.files, WholeFile x (S x))
    (order : List Nat) (ho : order.Perm (List.range d.files.length)) :
    ∃ ds, d.split disk (max 1 cfg.numWorkers) cfg.batchSize cfg.shuffle false order = .ok ds ∧ (ds.map Dataset.files).flatten.Perm d.files ∧
      ∀ orders, Shuffles orders → ∀ fuel, ∃ b rest e, loader disk cfg d order orders (fuel + 1) = .ok (b :: rest, e) ∧
        b.map Sample.id = (orders (ds.map Dataset.files)).flatMap (List.take (cfg.batchSize / max 1 cfg.numWorkers).toNat) := by
  obtain ⟨parts, _, h2, h3⟩ := split_ok disk d hs (max 1 cfg.numWorkers) cfg.batchSize (by omega) hb (Int.emod_eq_zero_of_dvd hdvd) cfg.shuffle false order ho
  have hpn : parts.flatten.Nodup := h2.nodup_iff.2 hn
  have hbn : 0 < cfg.batchSize / max 1 cfg.numWorkers := Int.ediv_pos_of_pos_of_dvd hb (by omega) hdvd
  have hfiles : (parts.map (workerDataset disk d (cfg.batchSize / max 1 cfg.numWorkers) cfg.shuffle false)).map Dataset.files = parts := by
    rw [List.map_map]
    have : (Dataset.files ∘ workerDataset disk d (cfg.batchSize / max 1 cfg.numWorkers) cfg.shuffle false) = id := by funext p; rfl
    rw [this, List.map_id]
  refine ⟨_, h3, by rw [hfiles]; exact h2, fun orders hor fuel => ?_⟩
  rw [hfiles]
  obtain ⟨streams, h4, h5⟩ := iterAll_ok disk d (cfg.batchSize / max 1 cfg.numWorkers) hbn cfg.shuffle S parts (orders parts) (hor parts) hpn
    (fun x hx => hf x (h2.mem_iff.1 hx)) (fun x hx => hS x (h2.mem_iff.1 hx))
  obtain ⟨m1, m2, m3⟩ := merge_once S parts streams hpn h5
  have hload : loader disk cfg d order orders (fuel + 1) = .ok (loaderBatches cfg (fuel + 1) streams) := by
    unfold loader
    rw [hdrop, h3, Except.bind_ok', hfiles, h4, Except.bind_ok']
  have hids : (layer streams 0).flatten.map Sample.id = (orders parts).flatMap (List.take (cfg.batchSize / max 1 cfg.numWorkers).toNat) := by
    refine iterAll_first disk d _ (by omega) cfg.shuffle S parts (orders parts) (hor parts) (fun x hx => hf x (h2.mem_iff.1 hx)) (fun x hx => hS x (h2.mem_iff.1 hx)) streams ?_
    rw [Int.toNat_of_nonneg (by omega)]
    exact h4
  have hm : mergeWorkers false streams = (zipLongest streams).map List.flatten := rfl
  cases hmw : mergeWorkers false streams with
  | nil =>
    exfalso
    obtain ⟨x, hx⟩ := List.exists_mem_of_ne_nil _ hne
    have := m1 x (h2.mem_iff.2 hx)
    rw [hmw] at this
    exact (hS x hx).1 this.symm
  | cons b rest =>
    have hb0 : b = (layer streams 0).flatten := by
      have := zipLongest_head streams
      rw [hm] at hmw
      cases hz : zipLongest streams with
      | nil => rw [hz] at hmw; cases hmw
      | cons z zs =>
        rw [hz] at hmw this
        simp only [List.map_cons, List.cons.injEq] at hmw
        rw [← hmw.1, ← this]
        simp
    have hmb := m3 b (by rw [hmw]; simp)
    have hwf : WellFormed (b :: rest) := by
      refine ⟨⟨b, rest, rfl, hmb.1, hmb.2⟩, fun s hs => ?_⟩
      rw [← hmw] at hs ⊢
      rw [m1 s.id (m2 s hs)]
      exact hS s.id (h2.mem_iff.1 (m2 s hs))
    cases hov : cfg.overlapping
    · obtain ⟨b', out, e, he, hb'⟩ := sync_first b rest hwf fuel
      refine ⟨b', out, e, ?_, by rw [hb', hb0, hids]⟩
      rw [hload]
      unfold loaderBatches
      rw [hdrop, hov, hmw]
      simp only [Bool.false_eq_true, if_false]
      rw [he]
    · refine ⟨b, rest, .returned, ?_, by rw [hb0, hids]⟩
      rw [hload]
      unfold loaderBatches
      rw [hdrop, hov, hmw]
      rfl

/-- Files `x` and `y` first, the others as they were. -/
def pullFront (x y : String) (l : List String) : List String := l.filter (fun z => z == x || z == y) ++ l.filter (fun z => !(z == x || z == y))

theorem pullFront_perm (x y : String) (l : List String) : (pullFront x y l).Perm l := List.filter_append_perm _ l

theorem shuffles_pullFront (x y : String) : Shuffles (fun ls => ls.map (pullFront x y)) := by
  intro ls
  induction ls with
  | nil => exact .nil
  | cons l ls ih => exact .cons (pullFront_perm x y l) ih

theorem filter_pair_length {l : List String} (hn : l.Nodup) (x y : String) : (l.filter (fun z => z == x || z == y)).length ≤ 2 := by
  have h1 : (l.filter (fun z => z == x || z == y)).Nodup := hn.filter _
  have h2 : l.filter (fun z => z == x || z == y) ⊆ [x, y] := by
    intro z hz
    have := (List.mem_filter.1 hz).2
    simpa using this
  exact (List.subperm_of_subset h1 h2).length_le

theorem pullFront_take {l : List String} {x y : String} {n : Nat} (hl : (l.filter (fun z => z == x || z == y)).length ≤ n) (z : String) (hz : z ∈ l) (he : z = x ∨ z = y) :
    z ∈ (pullFront x y l).take n := by
  unfold pullFront
  rw [List.take_append, List.take_of_length_le hl]
  exact List.mem_append_left _ (List.mem_filter.2 ⟨hz, by simpa using he⟩)

theorem same_worker {os ps : List (List String)} (h : List.Forall₂ List.Perm os ps) (hn : ps.flatten.Nodup) {p : List String} (hp : p ∈ ps) {x y : String} (hx : x ∈ p) (hy : y ∈ p)
    (h1 : x ∈ os.flatMap (List.take 1)) (h2 : y ∈ os.flatMap (List.take 1)) : x = y := by
  induction h with
  | nil => cases hp
  | @cons o q os ps hoq hr ih =>
    rw [List.flatten_cons, List.nodup_append] at hn
    rw [List.flatMap_cons, List.mem_append] at h1 h2
    have hup : ∀ z, z ∈ os.flatMap (List.take 1) → z ∈ ps.flatten := by
      intro z hz
      clear ih h1 h2 hn hp
      induction hr with
      | nil => simp at hz
      | @cons o' q' os' ps' h' _ ih' =>
        rw [List.flatMap_cons, List.mem_append] at hz
        rw [List.flatten_cons, List.mem_append]
        exact hz.imp (fun h => h'.subset (List.mem_of_mem_take h)) ih'
    rcases List.mem_cons.1 hp with rfl | hp
    · have a1 : x ∈ o.take 1 := h1.resolve_right fun h => hn.2.2 x hx x (hup x h) rfl
      have a2 : y ∈ o.take 1 := h2.resolve_right fun h => hn.2.2 y hy y (hup y h) rfl
      cases o with
      | nil => simp at a1
      | cons z o =>
        simp at a1 a2
        rw [a1, a2]
    · have b1 : ∀ z ∈ p, z ∉ o.take 1 := fun z hz h => hn.2.2 z (hoq.subset (List.mem_of_mem_take h)) z (List.mem_flatten.2 ⟨p, hp, hz⟩) rfl
      exact ih hn.2.1 hp (h1.resolve_left (b1 x hx)) (h2.resolve_left (b1 y hy))

theorem filter_single_length {l : List String} (hn : l.Nodup) (x y : String) (h : ¬ (x ∈ l ∧ y ∈ l)) : (l.filter (fun z => z == x || z == y)).length ≤ 1 := by
  have h1 : (l.filter (fun z => z == x || z == y)).Nodup := hn.filter _
  have h2 : ∃ w, l.filter (fun z => z == x || z == y) ⊆ [w] := by
    by_cases hx : x ∈ l
    · refine ⟨x, fun z hz => ?_⟩
      obtain ⟨ha, hb⟩ := List.mem_filter.1 hz
      simp only [Bool.or_eq_true, beq_iff_eq] at hb
      rcases hb with rfl | rfl
      · simp
      · exact absurd ⟨hx, ha⟩ h
    · refine ⟨y, fun z hz => ?_⟩
      obtain ⟨ha, hb⟩ := List.mem_filter.1 hz
      simp only [Bool.or_eq_true, beq_iff_eq] at hb
      rcases hb with rfl | rfl
      · exact absurd ha hx
      · simp
  obtain ⟨w, hw⟩ := h2
  exact (List.subperm_of_subset h1 hw).length_le

/-- **C215, where it holds.** Two files can be in the first batch together, for some orders of the files of the workers, exactly if they are given to different workers or every worker contributes at least two sequences to a batch.
Which files share a worker is decided by `split`, before anything is shuffled. Missing: files of the same worker, if every worker contributes one sequence (`C215_meet_false`). -/
theorem C215_meet_partial (disk : Disk α) (cfg : LoaderCfg) (d : Dataset α) (hs : Splittable d) (hdrop : cfg.dropLast = false) (hb : 0 < cfg.batchSize)
    (hdvd : max 1 cfg.numWorkers ∣ cfg.batchSize) (hn : d.files.Nodup)
    (S : String → List (Sample α)) (hf : ∀ x ∈ d.files, processData disk d x = .ok (S x)) (hS : ∀ x ∈ d.files, WholeFile x (S x))
    (order : List Nat) (ho : order.Perm (List.range d.files.length)) (x y : String) (hx : x ∈ d.files) (hy : y ∈ d.files) (hxy : x ≠ y) :
    ∃ ds, d.split disk (max 1 cfg.numWorkers) cfg.batchSize cfg.shuffle false order = .ok ds ∧
      ((∃ orders, Shuffles orders ∧ ∃ fuel out e, loader disk cfg d order orders (fuel + 1) = .ok (out, e) ∧ Together x y out) ↔
        (∀ w ∈ ds, ¬ (x ∈ w.files ∧ y ∈ w.files)) ∨ 2 * max 1 cfg.numWorkers ≤ cfg.batchSize) := by
  obtain ⟨ds, h1, h2, h3⟩ := loader_first disk cfg d hs hdrop hb hdvd hn (List.ne_nil_of_mem hx) S hf hS order ho
  have hpn : (ds.map Dataset.files).flatten.Nodup := h2.nodup_iff.2 hn
  refine ⟨ds, h1, ?_, ?_⟩
  · rintro ⟨orders, hor, fuel, out, e, hl, b, rest, rfl, hxb, hyb⟩
    by_contra hc
    simp only [not_or, not_forall] at hc
    obtain ⟨⟨w, hw, hxw⟩, hB⟩ := hc
    simp only [not_not] at hxw
    obtain ⟨b', rest', e', hl', hids⟩ := h3 orders hor fuel
    rw [hl] at hl'
    cases hl'
    have hone : (cfg.batchSize / max 1 cfg.numWorkers).toNat = 1 := by
      have hq := Int.ediv_pos_of_pos_of_dvd hb (show (0 : Int) ≤ max 1 cfg.numWorkers by omega) hdvd
      have : cfg.batchSize / max 1 cfg.numWorkers < 2 := Int.ediv_lt_of_lt_mul (by omega) (by omega)
      omega
    rw [hone] at hids
    rw [hids] at hxb hyb
    exact hxy (same_worker (hor _) hpn (List.mem_map.2 ⟨w, hw, rfl⟩) hxw.1 hxw.2 hxb hyb)
  · intro hc
    refine ⟨_, shuffles_pullFront x y, 0, ?_⟩
    obtain ⟨b, rest, e, hl, hids⟩ := h3 _ (shuffles_pullFront x y) 0
    refine ⟨_, e, hl, b, rest, rfl, ?_⟩
    have hq := Int.ediv_pos_of_pos_of_dvd hb (show (0 : Int) ≤ max 1 cfg.numWorkers by omega) hdvd
    have hin : ∀ z, z ∈ d.files → (z = x ∨ z = y) → z ∈ b.map Sample.id := by
      intro z hz he
      rw [hids]
      obtain ⟨p, hp, hzp⟩ := List.mem_flatten.1 (h2.mem_iff.2 hz)
      refine List.mem_flatMap.2 ⟨pullFront x y p, List.mem_map.2 ⟨p, hp, rfl⟩, pullFront_take ?_ z hzp he⟩
      have hpnd : p.Nodup := (List.sublist_flatten_of_mem hp).nodup hpn
      rcases hc with hc | hc
      · obtain ⟨w, hw, rfl⟩ := List.mem_map.1 hp
        have := filter_single_length hpnd x y (hc w hw)
        omega
      · have h4 := filter_pair_length hpnd x y
        have : 2 ≤ cfg.batchSize / max 1 cfg.numWorkers := (Int.le_ediv_iff_mul_le (by omega)).2 hc
        omega
    exact ⟨hin x hx (Or.inl rfl), hin y hy (Or.inr rfl)⟩

theorem iterAll_small (disk : Disk α) (d : Dataset α) (bs : Int) (hb : 0 < bs) (shuffle : Bool) (S : String → List (Sample α)) (parts orders : List (List String))
    (ho : List.Forall₂ List.Perm orders parts) (hn : parts.flatten.Nodup) (hf : ∀ x ∈ parts.flatten, processData disk d x = .ok (S x))
    (hS : ∀ x ∈ parts.flatten, WholeFile x (S x)) :
    ∃ streams, iterAll disk (parts.map (workerDataset disk d bs shuffle false)) orders = .ok streams ∧
      List.Forall₂ (fun p st => ∀ a ∈ st, (a.length : Int) ≤ bs ∧ ∀ s ∈ a, s.id ∈ p) parts streams := by
  induction ho with
  | nil => exact ⟨[], rfl, List.Forall₂.nil⟩
  | @cons o p os ps hop _ ih =>
    rw [List.flatten_cons, List.nodup_append] at hn
    have hmem : ∀ x ∈ p, x ∈ (p :: ps).flatten := fun x hx => List.mem_flatten.2 ⟨p, by simp, hx⟩
    obtain ⟨b, h1, _, h3, h4, _⟩ := C75_dataset disk (workerDataset disk d bs shuffle false p) rfl hb o hop hn.1 S
      (fun x hx => (processData_congr disk d _ rfl rfl x).trans (hf x (hmem x hx))) (fun x hx => hS x (hmem x hx))
    obtain ⟨streams, h5, h6⟩ := ih hn.2.1 (fun x hx => hf x (by rw [List.flatten_cons]; exact List.mem_append_right _ hx))
      (fun x hx => hS x (by rw [List.flatten_cons]; exact List.mem_append_right _ hx))
    refine ⟨b :: streams, ?_, List.Forall₂.cons (fun a ha => ⟨(h4 a ha).2.1, fun s hs => h3 s (List.mem_flatten.2 ⟨a, ha, hs⟩)⟩) h6⟩
    show (do let a ← Dataset.iter disk (workerDataset disk d bs shuffle false p) o; let b ← iterAll disk _ os; Except.ok (a :: b)) = _
    rw [h1, Except.bind_ok', h5, Except.bind_ok']

theorem layer_same {parts : List (List String)} {streams : List (List (List (Sample α)))} (h : List.Forall₂ (fun p st => ∀ a ∈ st, (a.length : Int) ≤ 1 ∧ ∀ s ∈ a, s.id ∈ p) parts streams)
    (hn : parts.flatten.Nodup) (k : Nat) {p : List String} (hp : p ∈ parts) {s t : Sample α} (hs : s ∈ (layer streams k).flatten) (ht : t ∈ (layer streams k).flatten)
    (hsp : s.id ∈ p) (htp : t.id ∈ p) : s = t := by
  induction h with
  | nil => cases hp
  | @cons q st ps sts h hr ih =>
    rw [List.flatten_cons, List.nodup_append] at hn
    rw [layer_cons, List.flatten_append, List.mem_append] at hs ht
    have hup : ∀ u : Sample α, u ∈ (layer sts k).flatten → u.id ∈ ps.flatten := by
      intro u hu
      obtain ⟨a, ha, hu⟩ := List.mem_flatten.1 hu
      obtain ⟨st', hst', ha⟩ := mem_layer.1 ha
      obtain ⟨p', hp', h'⟩ := forall2_mem hr hst'
      exact List.mem_flatten.2 ⟨p', hp', (h' a (List.mem_of_getElem? ha)).2 u hu⟩
    cases hk : st[k]? with
    | none =>
      rw [hk] at hs ht
      simp only [Option.toList_none, List.flatten_nil, List.not_mem_nil, false_or] at hs ht
      rcases List.mem_cons.1 hp with rfl | hp
      · exact absurd rfl (hn.2.2 _ hsp _ (hup s hs))
      · exact ih hn.2.1 hp hs ht
    | some a =>
      rw [hk] at hs ht
      simp only [Option.toList_some, List.flatten_cons, List.flatten_nil, List.append_nil] at hs ht
      obtain ⟨hlen, hmem⟩ := h a (List.mem_of_getElem? hk)
      rcases List.mem_cons.1 hp with rfl | hp
      · have a1 := hs.resolve_right fun h => hn.2.2 _ hsp _ (hup s h) rfl
        have a2 := ht.resolve_right fun h => hn.2.2 _ htp _ (hup t h) rfl
        match a, hlen, a1, a2 with
        | [u], _, a1, a2 => rw [List.mem_singleton.1 a1, List.mem_singleton.1 a2]
        | _ :: _ :: _, hlen, _, _ => simp at hlen; omega
      · have b1 : ∀ u : Sample α, u.id ∈ p → u ∉ a := fun u hu h => hn.2.2 _ (hmem u h) _ (List.mem_flatten.2 ⟨p, hp, hu⟩) rfl
        exact ih hn.2.1 hp (hs.resolve_left (b1 s hsp)) (ht.resolve_left (b1 t htp))

/-- **C215, the other files.** With overlapping batches and one sequence per worker in a batch, two files of the same worker are never in a batch together, however the files are shuffled. Missing: that they can meet. -/
theorem C215_never_partial (disk : Disk α) (cfg : LoaderCfg) (d : Dataset α) (hs : Splittable d) (hdrop : cfg.dropLast = false) (hov : cfg.overlapping = true) (hb : 0 < cfg.batchSize)
    (hB : cfg.batchSize = max 1 cfg.numWorkers) (hn : d.files.Nodup)
    (S : String → List (Sample α)) (hf : ∀ x ∈ d.files, processData disk d x = .ok (S x)) (hS : ∀ x ∈ d.files, WholeFile x (S x))
    (order : List Nat) (ho : order.Perm (List.range d.files.length)) :
    ∃ ds, d.split disk (max 1 cfg.numWorkers) cfg.batchSize cfg.shuffle false order = .ok ds ∧
      ∀ orders, Shuffles orders → ∀ fuel, ∃ out, loader disk cfg d order orders fuel = .ok (out, .returned) ∧
        ∀ b ∈ out, ∀ w ∈ ds, ∀ s ∈ b, ∀ t ∈ b, s.id ∈ w.files → t.id ∈ w.files → s.id = t.id := by
  obtain ⟨parts, _, h2, h3⟩ := split_ok disk d hs (max 1 cfg.numWorkers) cfg.batchSize (by omega) hb (by rw [hB]; exact Int.emod_self) cfg.shuffle false order ho
  have hpn : parts.flatten.Nodup := h2.nodup_iff.2 hn
  have hone : cfg.batchSize / max 1 cfg.numWorkers = 1 := by rw [hB]; exact Int.ediv_self (by omega)
  rw [hone] at h3
  have hfiles : (parts.map (workerDataset disk d 1 cfg.shuffle false)).map Dataset.files = parts := by
    rw [List.map_map]
    have : (Dataset.files ∘ workerDataset disk d 1 cfg.shuffle false) = id := by funext p; rfl
    rw [this, List.map_id]
  refine ⟨_, h3, fun orders hor fuel => ?_⟩
  obtain ⟨streams, h4, h5⟩ := iterAll_small disk d 1 (by omega) cfg.shuffle S parts (orders parts) (hor parts) hpn
    (fun x hx => hf x (h2.mem_iff.1 hx)) (fun x hx => hS x (h2.mem_iff.1 hx))
  refine ⟨mergeWorkers false streams, ?_, ?_⟩
  · unfold loader
    rw [hdrop, h3, Except.bind_ok', hfiles, h4, Except.bind_ok']
    unfold loaderBatches
    rw [hdrop, hov]
    rfl
  · intro b hb w hw s hs t ht hsw htw
    obtain ⟨l, hl, rfl⟩ := List.mem_map.1 hb
    obtain ⟨k, _, rfl⟩ := mem_zipLongest hl
    have hw' : w.files ∈ parts := by rw [← hfiles]; exact List.mem_map.2 ⟨w, hw, rfl⟩
    rw [layer_same h5 hpn k hw' hs ht hsw htw]

end

/-- The chunks of the files of `exLoad`. -/
def exLoadS (f : String) : List (Sample Nat) := match processData exLoadDisk exLoad f with | .ok l => l | .error _ => []

theorem exLoadS_ok : ∀ x ∈ exLoad.files, processData exLoadDisk exLoad x = .ok (exLoadS x) := by decide +kernel

theorem exLoadS_whole : ∀ x ∈ exLoad.files, WholeFile x (exLoadS x) := by
  intro x hx
  apply wholeFileB_sound
  revert x hx
  decide +kernel

/-- **C215 is false of the code.** Three files, two workers, batches of two that overlap: `a` and `b` are given to the same worker, so that in no order of the files they are in a batch together. (`c` can be with either: the example below.) -/
theorem C215_meet_false : ∀ orders, Shuffles orders → ∀ fuel, ∃ out, loader exLoadDisk ⟨2, 2, true, true, false⟩ exLoad [1, 2, 0] orders fuel = .ok (out, .returned) ∧
    ∀ b ∈ out, ¬ ("a" ∈ b.map Sample.id ∧ "b" ∈ b.map Sample.id) := by
  obtain ⟨ds, h1, h2⟩ := C215_never_partial exLoadDisk ⟨2, 2, true, true, false⟩ exLoad ⟨by decide +kernel, by decide, Or.inr (by decide)⟩ rfl rfl (by decide) (by decide) (by decide)
    exLoadS exLoadS_ok exLoadS_whole [1, 2, 0] (by decide)
  have h3 : (exLoad.split exLoadDisk 2 2 true false [1, 2, 0]).map (fun ds => ds.map Dataset.files) = .ok [["b", "a"], ["c"]] := by decide +kernel
  have h1' : exLoad.split exLoadDisk 2 2 true false [1, 2, 0] = .ok ds := h1
  rw [h1'] at h3
  have h4 : ds.map Dataset.files = [["b", "a"], ["c"]] := Except.ok.inj h3
  obtain ⟨w, hw, hwf⟩ := List.mem_map.1 (show ["b", "a"] ∈ ds.map Dataset.files by rw [h4]; simp)
  intro orders hor fuel
  obtain ⟨out, ho, hout⟩ := h2 orders hor fuel
  refine ⟨out, ho, ?_⟩
  rintro b hb ⟨ha, hbb⟩
  obtain ⟨s, hs, hsid⟩ := List.mem_map.1 ha
  obtain ⟨t, ht, htid⟩ := List.mem_map.1 hbb
  have := hout b hb w hw s hs t ht (by rw [hsid, hwf]; simp) (by rw [htid, hwf]; simp)
  rw [hsid, htid] at this
  exact absurd this (by decide)

/-- The hypotheses of `C215_meet_partial` for `exLoad`; `a` and `c` are with different workers and meet if each worker begins with them, and with one worker `a` and `b` can meet as well. -/
example : Splittable exLoad ∧ exLoad.files.Nodup ∧ [1, 2, 0].Perm (List.range exLoad.files.length) := ⟨⟨by decide +kernel, by decide, Or.inr (by decide)⟩, by decide, by decide⟩
example : (loader exLoadDisk ⟨2, 2, true, true, false⟩ exLoad [1, 2, 0] (fun ls => ls.map (pullFront "a" "c")) 1).map (fun r => r.1.map fun b => b.map Sample.id) =
    .ok [["a", "c"], ["a", "c"], ["a"], ["b"]] := by decide +kernel
example : (loader exLoadDisk ⟨2, 1, true, true, false⟩ exLoad [1, 2, 0] (fun ls => ls.map (pullFront "a" "b")) 1).map (fun r => r.1.map fun b => b.map Sample.id) =
    .ok [["b", "a"], ["c", "a"], ["c", "a"]] := by decide +kernel

end DS.Data
