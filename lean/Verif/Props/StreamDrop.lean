import Verif.Props.StreamMemory
/-! C230 with drop_last. -/

namespace DS.Data
open Meta Conv
section
variable {α : Type}

theorem steady_iff (l : List (List (Sample α))) :
    Steady l ↔ ∀ (k : Nat) (b b' : List (Sample α)), l[k]? = some b → l[k + 1]? = some b' → ∀ s ∈ b, s.eos = false → ∃ s' ∈ b', s'.id = s.id := by
  constructor
  · intro h k b b' h1 h2
    obtain ⟨k1, e1⟩ := List.getElem?_eq_some_iff.1 h1
    obtain ⟨k2, e2⟩ := List.getElem?_eq_some_iff.1 h2
    exact h (l.take k) b b' (l.drop (k + 2)) (by conv_lhs => rw [← List.take_append_drop k l, List.drop_eq_getElem_cons k1, List.drop_eq_getElem_cons k2, e1, e2])
  · rintro h pre b b' post rfl
    exact h pre.length b b' (by simp) (by rw [List.getElem?_append_right (by omega)]; simp)

theorem zipShort_get {β : Type} (ss : List (List β)) (k : Nat) (b : List β) : (zipShort ss)[k]? = some b ↔ k < minLen ss ∧ b = layer ss k := by
  unfold zipShort
  rw [List.getElem?_map]
  constructor
  · intro h
    by_cases hk : k < minLen ss
    · rw [List.getElem?_range hk, Option.map_some, Option.some.injEq] at h
      exact ⟨hk, h.symm⟩
    · rw [List.getElem?_eq_none (by simpa using hk)] at h
      cases h
  · rintro ⟨hk, rfl⟩
    rw [List.getElem?_range hk, Option.map_some]

/-- Streams of complete files side by side, up to the end of the shortest. -/
theorem steady_short (S : String → List (Sample α)) (lanes : List (List String)) (hS : ∀ l ∈ lanes, ∀ x ∈ l, WholeFile x (S x)) :
    Steady (zipShort (lanes.map fun l => l.flatMap S)) := by
  rw [steady_iff]
  intro k b b' h1 h2 s hs heos
  obtain ⟨-, rfl⟩ := (zipShort_get _ _ _).1 h1
  obtain ⟨-, rfl⟩ := (zipShort_get _ _ _).1 h2
  obtain ⟨t, ht, hg⟩ := mem_layer.1 hs
  obtain ⟨l, hlm, rfl⟩ := List.mem_map.1 ht
  obtain ⟨e, he1, he2, t', ht', hte⟩ := flatMap_locate S l (hS l hlm) k s hg
  have hne : k ≠ e := by
    intro he
    rw [← he, hg] at ht'
    cases ht'
    rw [heos] at hte
    cases hte
  obtain ⟨s', hs', hid⟩ := he2 (k + 1) (by omega) (by omega)
  exact ⟨s', mem_layer.2 ⟨_, ht, hs'⟩, hid⟩

/-- Marking the last batch as ended changes nothing before it. -/
theorem steady_force {bs r : List (List (Sample α))} (h : Steady bs) (hr : forceLast bs = .ok r) : Steady r := by
  rcases List.eq_nil_or_concat bs with rfl | ⟨as, b, rfl⟩
  · cases hr
  · rw [List.concat_eq_append, forceLast_snoc] at hr
    cases hr
    rw [List.concat_eq_append] at h
    rw [steady_iff] at h ⊢
    intro k c c' h1 h2 s hs heos
    have hk : k < as.length := by
      have := (List.getElem?_eq_some_iff.1 h2).1
      simp at this
      exact this
    rw [List.getElem?_append_left hk] at h1
    by_cases hk' : k + 1 < as.length
    · rw [List.getElem?_append_left hk'] at h2
      exact h k c c' (by rw [List.getElem?_append_left hk]; exact h1) (by rw [List.getElem?_append_left hk']; exact h2) s hs heos
    · have he : k + 1 = as.length := by omega
      rw [he, List.getElem?_concat_length, Option.some.injEq] at h2
      subst h2
      obtain ⟨s', h3, h4⟩ := h k c b (by rw [List.getElem?_append_left hk]; exact h1) (by rw [he, List.getElem?_concat_length]) s hs heos
      exact ⟨s'.end, List.mem_map_of_mem h3, h4⟩

/-- Putting the batches of several workers together as long as all of them have one. -/
theorem steady_merge (parts : List (List (List (Sample α)))) (h : ∀ st ∈ parts, Steady st) : Steady (mergeWorkers true parts) := by
  rw [steady_iff]
  unfold mergeWorkers
  rw [if_pos rfl]
  intro k b b' h1 h2 s hs heos
  rw [List.getElem?_map, Option.map_eq_some_iff] at h1 h2
  obtain ⟨c, h1, rfl⟩ := h1
  obtain ⟨c', h2, rfl⟩ := h2
  obtain ⟨-, rfl⟩ := (zipShort_get _ _ _).1 h1
  obtain ⟨hk, rfl⟩ := (zipShort_get _ _ _).1 h2
  obtain ⟨u, hu, hs⟩ := List.mem_flatten.1 hs
  obtain ⟨st, hst, hg⟩ := mem_layer.1 hu
  have hk' : k + 1 < st.length := Nat.lt_of_lt_of_le hk (minLen_le hst)
  obtain ⟨s', h3, h4⟩ := (steady_iff st).1 (h st hst) k u _ hg (List.getElem?_eq_getElem hk') s hs heos
  exact ⟨s', List.mem_flatten.2 ⟨_, mem_layer.2 ⟨st, hst, List.getElem?_eq_getElem hk'⟩, h3⟩, h4⟩

/-- The stream of a worker with drop_last. -/
theorem iterAll_short (disk : Disk α) (d : Dataset α) (bs : Int) (shuffle : Bool) (S : String → List (Sample α)) : ∀ (parts orders : List (List String)),
    List.Forall₂ List.Perm orders parts → (∀ x ∈ parts.flatten, processData disk d x = .ok (S x)) → ∀ sts,
    iterAll disk (parts.map (workerDataset disk d bs shuffle true)) orders = .ok sts →
    ∀ st ∈ sts, ∃ o, (∀ x ∈ o, x ∈ parts.flatten) ∧ forceLast (zipShort (streamsOf S bs.toNat o)) = .ok st := by
  intro parts orders ho
  induction ho with
  | nil =>
    intro _ sts h st hst
    cases h
    cases hst
  | @cons o p os ps hop _ ih =>
    intro hf sts h st hst
    have h1 : Dataset.iter disk (workerDataset disk d bs shuffle true p) o = forceLast (zipShort (streamsOf S bs.toNat o)) := by
      unfold Dataset.iter
      rw [getStreams_ok _ S]
      · rfl
      · intro x hx
        exact (processData_congr disk d _ rfl rfl x).trans (hf x (List.mem_flatten.2 ⟨p, by simp, hop.mem_iff.1 hx⟩))
    change (do let a ← Dataset.iter disk (workerDataset disk d bs shuffle true p) o; let b ← iterAll disk (ps.map (workerDataset disk d bs shuffle true)) os; Except.ok (a :: b)) = _ at h
    obtain ⟨a, h2, h⟩ := bind_inv h
    obtain ⟨b, h3, h⟩ := bind_inv h
    cases h
    rcases List.mem_cons.1 hst with rfl | hst
    · exact ⟨o, fun x hx => List.mem_flatten.2 ⟨p, by simp, hop.mem_iff.1 hx⟩, by rw [← h1]; exact h2⟩
    · obtain ⟨o', h4, h5⟩ := ih (fun x hx => hf x (by rw [List.flatten_cons]; exact List.mem_append_right _ hx)) b h3 st hst
      exact ⟨o', fun x hx => by rw [List.flatten_cons]; exact List.mem_append_right _ (h4 x hx), h5⟩

/-- **C230**, the loader with drop_last: a file whose end has not been delivered is in the next batch, if there is one, and all batches have `batch_size` samples. Each sample is one of a file, possibly marked as its end. -/
theorem C230_drop_last (disk : Disk α) (cfg : LoaderCfg) (d : Dataset α) (hs : Splittable d) (hdrop : cfg.dropLast = true) (hover : cfg.overlapping = true)
    (S : String → List (Sample α)) (hf : ∀ x ∈ d.files, processData disk d x = .ok (S x)) (hS : ∀ x ∈ d.files, WholeFile x (S x))
    (order : List Nat) (ho : order.Perm (List.range d.files.length)) (orders : List (List String) → List (List String))
    (hor : ∀ ls, List.Forall₂ List.Perm (orders ls) ls) (fuel : Nat) (out : List (List (Sample α))) (e : Ended) (h : loader disk cfg d order orders fuel = .ok (out, e)) :
    (∀ pre b b' post, out = pre ++ b :: b' :: post → ∀ s ∈ b, s.eos = false → ∃ s' ∈ b', s'.id = s.id) ∧ (∀ b ∈ out, (b.length : Int) = cfg.batchSize) ∧ 0 < cfg.batchSize ∧
      ∀ b ∈ out, ∀ s ∈ b, ∃ x ∈ d.files, ∃ s' ∈ S x, s = s' ∨ s = { s' with eos := true } := by
  unfold loader at h
  obtain ⟨ds, h1, h⟩ := bind_inv h
  obtain ⟨sts, h3, h⟩ := bind_inv h
  obtain ⟨hn, hdvd, hlen, hds⟩ := split_inv disk d _ _ _ _ _ _ h1
  have hF := iterAll_inv disk ds _ (by rw [(hor _).length_eq, List.length_map]) sts h3
  obtain ⟨-, heq⟩ := batches_bound disk cfg fuel ds sts hF
  injection h with hl0
  rw [hl0] at heq
  generalize hw : max 1 cfg.numWorkers = w at *
  have hpos : 0 < cfg.batchSize / w := by
    cases ds with
    | nil => simp at hlen; omega
    | cons d' ds => exact (hds d' (by simp)).2.1
  have hsum : (((ds.map fun d => d.batchSize.toNat).sum : Nat) : Int) = cfg.batchSize := by
    rw [sum_replicate_map ds (cfg.batchSize / w) (by omega) fun d' hd' => (hds d' hd').1, hlen, Int.toNat_of_nonneg (by omega), Int.mul_ediv_cancel' hdvd]
  have hb : 0 < cfg.batchSize := by
    have := Int.ediv_mul_cancel hdvd
    have := Int.mul_pos hpos hn
    omega
  obtain ⟨parts, hplen, hp2, hp3⟩ := split_ok disk d hs w cfg.batchSize hn hb (Int.emod_eq_zero_of_dvd hdvd) cfg.shuffle cfg.dropLast order ho
  rw [h1, Except.ok.injEq] at hp3
  rw [hp3, hdrop] at h3
  have hfiles : (parts.map (workerDataset disk d (cfg.batchSize / w) cfg.shuffle true)).map Dataset.files = parts := by
    rw [List.map_map]
    have : (Dataset.files ∘ workerDataset disk d (cfg.batchSize / w) cfg.shuffle true) = id := by funext p; rfl
    rw [this, List.map_id]
  rw [hfiles] at h3
  have hst := iterAll_short disk d _ cfg.shuffle S parts (orders parts) (hor parts) (fun x hx => hf x (hp2.mem_iff.1 hx)) sts h3
  have hout : out = mergeWorkers true sts := by
    unfold loaderBatches at hl0
    rw [hover, hdrop] at hl0
    simpa using (congrArg Prod.fst hl0).symm
  refine ⟨?_, fun b hbm => ?_, hb, ?_⟩
  · change Steady out
    rw [hout]
    refine steady_merge sts fun st hstm => ?_
    obtain ⟨o, h4, h5⟩ := hst st hstm
    refine steady_force ?_ h5
    have := steady_short S ((List.range (cfg.batchSize / w).toNat).map fun i => everyFrom i (cfg.batchSize / w).toNat o) (by
      intro l hl x hx
      obtain ⟨i, _, rfl⟩ := List.mem_map.1 hl
      exact hS x (hp2.mem_iff.1 (h4 x ((everyFrom_sublist _ _ o).subset hx))))
    rw [List.map_map] at this
    exact this
  · rw [← hsum]
    exact_mod_cast heq hdrop hover (fun d' hd' => by rw [(hds d' hd').2.2, hdrop]) b hbm
  · intro b hbm s hsb
    rw [hout] at hbm
    unfold mergeWorkers at hbm
    rw [if_pos rfl] at hbm
    obtain ⟨c, hc, rfl⟩ := List.mem_map.1 hbm
    obtain ⟨u, hu, hsu⟩ := List.mem_flatten.1 hsb
    obtain ⟨st, hstm, hus⟩ := zipShort_flatten_mem sts u (List.mem_flatten.2 ⟨c, hc, hu⟩)
    obtain ⟨o, h4, h5⟩ := hst st hstm
    have hsrc : ∀ v ∈ zipShort (streamsOf S (cfg.batchSize / w).toNat o), ∀ s ∈ v, ∃ x ∈ d.files, s ∈ S x := by
      intro v hv s hsv
      obtain ⟨l, hl, hsl⟩ := zipShort_flatten_mem _ s (List.mem_flatten.2 ⟨v, hv, hsv⟩)
      unfold streamsOf at hl
      obtain ⟨i, _, rfl⟩ := List.mem_map.1 hl
      obtain ⟨x, hx, hsx⟩ := List.mem_flatMap.1 hsl
      exact ⟨x, hp2.mem_iff.1 (h4 x ((everyFrom_sublist _ _ o).subset hx)), hsx⟩
    rcases List.eq_nil_or_concat (zipShort (streamsOf S (cfg.batchSize / w).toNat o)) with he | ⟨as, a, he⟩
    · rw [he] at h5
      cases h5
    · rw [List.concat_eq_append] at he
      rw [he] at h5 hsrc
      rw [forceLast_snoc] at h5
      cases h5
      rcases List.mem_append.1 hus with hus | hus
      · obtain ⟨x, hx, hsx⟩ := hsrc u (by simp [hus]) s hsu
        exact ⟨x, hx, s, hsx, .inl rfl⟩
      · rw [List.mem_singleton] at hus
        subst hus
        obtain ⟨s', hs', rfl⟩ := List.mem_map.1 hsu
        obtain ⟨x, hx, hsx⟩ := hsrc a (by simp) s' hs'
        exact ⟨x, hx, s', hsx, .inr rfl⟩

/-- The memory of a stack after any number of collated batches in which files stay in consecutive batches. -/
theorem steady_memory [Zero α] (out : List (List (Sample α))) (n : Int) (hn : 0 ≤ n) (hst : Steady out) (hle : ∀ b ∈ out, (b.length : Int) ≤ n) (hne : ∀ b ∈ out, b ≠ [])
    (hl : ∀ b ∈ out, ∀ s ∈ b, 0 < s.length ∧ s.length ≤ s.data.length) :
    ∃ xs, collateAll out = .ok xs ∧ (∀ x ∈ xs, Keeps x) ∧
      ∀ (ls : List (Layer α)) (seen : List (ST α)), seen <+: xs → Ready ls seen → ∀ zs t, chainRun (fresh ls) seen = .ok (zs, t) →
        ∃ held : List String, (held.length : Int) ≤ n ∧ ∀ p ∈ t, (∀ i, p.2 i ≠ none → i ∈ held) ∧
          ∀ c g, p.1 = .conv c g → c.Valid → ∀ i f, p.2 i = some f → f.length < c.kw := by
  obtain ⟨xs, h2, hun⟩ := collateAll_ok out hne (fun b hb s hs => (hl b hb s hs).2)
  have hmem : ∀ x ∈ xs, ∃ b ∈ out, Lined x ∧ unpack x = (sortByLength b).map Sample.chunk := by
    intro x hx
    obtain ⟨b, hb, hc⟩ := collateAll_mem h2 x hx
    have hsh := shaped_collateST b (hne b hb) (fun s hs => (hl b hb s hs).2) x hc
    obtain ⟨x', e1, e2⟩ := unpack_collateST b (hne b hb) (fun s hs => (hl b hb s hs).2)
    rw [hc] at e1
    cases e1
    exact ⟨b, hb, ⟨hsh.1, hsh.2.1⟩, e2⟩
  have hlined : ∀ x ∈ xs, Lined x := by
    intro x hx
    obtain ⟨_, _, h, _⟩ := hmem x hx
    exact h
  have hub := unbroken_collated out xs hst hlined hun
  refine ⟨xs, h2, fun x hx => .inr (.inr fun r hr _ => ?_), ?_⟩
  · obtain ⟨b, hb, hlin, hu⟩ := hmem x hx
    obtain ⟨c, hc, -, -, h5⟩ := row_unpacked x hlin r hr
    rw [hu] at hc
    obtain ⟨s, hs, rfl⟩ := List.mem_map.1 hc
    obtain ⟨k1, k2⟩ := hl b hb s ((List.mergeSort_perm _ _).mem_iff.1 hs)
    refine h5 fun h0 => ?_
    have := congrArg List.length h0
    simp only [Sample.chunk, List.length_take, List.length_nil] at this
    omega
  · intro ls seen hpre hr zs t hrun
    have hsub : ∀ x ∈ seen, x ∈ xs := fun x hx => hpre.subset hx
    have key := fun p hp => C230_model_partial ls seen (fun x hx => hlined x (hsub x hx)) hr (unbroken_prefix hpre hub) zs t hrun p hp
    cases hg : seen.getLast? with
    | none =>
      refine ⟨[], by simpa using hn, fun p hp => ⟨fun i hi => ?_, (key p hp).2⟩⟩
      obtain ⟨z, hz, -⟩ := (key p hp).1 i hi
      rw [hg] at hz
      cases hz
    | some z =>
      refine ⟨z.md.ids, ?_, fun p hp => ⟨fun i hi => ?_, (key p hp).2⟩⟩
      · obtain ⟨b, hbm, hlin, hu⟩ := hmem z (hsub z (List.mem_of_getLast? hg))
        have hlen' := congrArg List.length hu
        unfold unpack at hlen'
        rw [List.length_zipWith, List.length_map, show (sortByLength b).length = b.length from (List.mergeSort_perm _ _).length_eq, hlin.2, Meta.ids_rows z.md hlin.1, List.length_map, Nat.min_self] at hlen'
        rw [Meta.ids_rows z.md hlin.1, List.length_map, hlen']
        exact hle b hbm
      · obtain ⟨z', hz, hi'⟩ := (key p hp).1 i hi
        rw [hg] at hz
        cases hz
        exact hi'

/-- **C230** with drop_last. As `C230_stack_partial`, for the batches that are left by drop_last, whether or not all files are complete in them. Missing: layers that get an empty last chunk next to other sequences (`C230_leak_false`). -/
theorem C230_drop_stack_partial [Zero α] (disk : Disk α) (cfg : LoaderCfg) (d : Dataset α) (hs : Splittable d) (hdrop : cfg.dropLast = true) (hover : cfg.overlapping = true)
    (S : String → List (Sample α)) (hf : ∀ x ∈ d.files, processData disk d x = .ok (S x)) (hS : ∀ x ∈ d.files, WholeFile x (S x))
    (hlen : ∀ x ∈ d.files, ∀ s ∈ S x, 0 < s.length ∧ s.length ≤ s.data.length)
    (order : List Nat) (ho : order.Perm (List.range d.files.length)) (orders : List (List String) → List (List String))
    (hor : ∀ ls, List.Forall₂ List.Perm (orders ls) ls) (fuel : Nat) (out : List (List (Sample α))) (e : Ended) (h : loader disk cfg d order orders fuel = .ok (out, e)) :
    ∃ xs, collateAll out = .ok xs ∧ (∀ x ∈ xs, Keeps x) ∧
      ∀ (ls : List (Layer α)) (seen : List (ST α)), seen <+: xs → Ready ls seen → ∀ zs t, chainRun (fresh ls) seen = .ok (zs, t) →
        ∃ held : List String, (held.length : Int) ≤ cfg.batchSize ∧ ∀ p ∈ t, (∀ i, p.2 i ≠ none → i ∈ held) ∧
          ∀ c g, p.1 = .conv c g → c.Valid → ∀ i f, p.2 i = some f → f.length < c.kw := by
  obtain ⟨h1, h2, h3, h4⟩ := C230_drop_last disk cfg d hs hdrop hover S hf hS order ho orders hor fuel out e h
  refine steady_memory out cfg.batchSize (by omega) h1 (fun b hb => (h2 b hb).le) (fun b hb h0 => ?_) (fun b hb s hs => ?_)
  · have := h2 b hb
    rw [h0] at this
    simp at this
    omega
  · obtain ⟨x, hx, s', hs', rfl | rfl⟩ := h4 b hb s hs
    · exact hlen x hx _ hs'
    · exact hlen x hx s' hs'

/-- **C230** for one convolution with drop_last: nothing is missing. -/
theorem C230_drop_convolution [Zero α] (disk : Disk α) (cfg : LoaderCfg) (d : Dataset α) (hs : Splittable d) (hdrop : cfg.dropLast = true) (hover : cfg.overlapping = true)
    (S : String → List (Sample α)) (hf : ∀ x ∈ d.files, processData disk d x = .ok (S x)) (hS : ∀ x ∈ d.files, WholeFile x (S x))
    (hlen : ∀ x ∈ d.files, ∀ s ∈ S x, 0 < s.length ∧ s.length ≤ s.data.length)
    (order : List Nat) (ho : order.Perm (List.range d.files.length)) (orders : List (List String) → List (List String))
    (hor : ∀ ls, List.Forall₂ List.Perm (orders ls) ls) (fuel : Nat) (out : List (List (Sample α))) (e : Ended) (h : loader disk cfg d order orders fuel = .ok (out, e))
    (c : Cfg) (hv : c.Valid) (g : List α → α) :
    ∃ xs, collateAll out = .ok xs ∧ ∀ seen, seen <+: xs → ∀ ys buf, run c g (fun _ => none) seen = .ok (ys, buf) →
      ∃ held : List String, (held.length : Int) ≤ cfg.batchSize ∧ ∀ i f, buf i = some f → i ∈ held ∧ f.length < c.kw := by
  obtain ⟨xs, h2, hk, h3⟩ := C230_drop_stack_partial disk cfg d hs hdrop hover S hf hS hlen order ho orders hor fuel out e h
  refine ⟨xs, h2, fun seen hpre ys buf hrun => ?_⟩
  rw [← layerRun_conv] at hrun
  have hc : chainRun (fresh [.conv c g]) seen = .ok (ys, [(.conv c g, buf)]) := chainRun_cons_ok hrun (chainRun_nil ys)
  obtain ⟨held, k1, k2⟩ := h3 [.conv c g] seen hpre ⟨fun x hx => hk x (hpre.subset hx), fun _ _ _ => trivial⟩ ys _ hc
  obtain ⟨k3, k4⟩ := k2 _ (List.mem_singleton.2 rfl)
  exact ⟨held, k1, fun i f hi => ⟨k3 i (by simp [hi]), k4 c g rfl hv i f hi⟩⟩

-- two workers and drop_last: `a` is cut off after its first chunk, all batches are full
example : (loader exLoadDisk ⟨2, 2, false, true, true⟩ ⟨["a", "b"], 1, none, none, 2, false, true, [("a", 3, 1), ("b", 1, 1)], [("a", 3), ("b", 1)]⟩ [1, 0] id 0).map
    (fun r => (r.1.map fun b => b.map fun s => (s.id, s.eos), r.2)) = .ok ([[("b", true), ("a", false)]], .returned) := by decide +kernel
-- one worker: both files are in both batches, and `a` is marked as ended in the last one
example : (loader exLoadDisk ⟨2, 1, false, true, true⟩ ⟨["a", "c"], 1, none, none, 2, false, true, [("a", 3, 1), ("c", 2, 1)], [("a", 3), ("c", 2)]⟩ [1, 0] id 0).map
    (fun r => (r.1.map fun b => b.map fun s => (s.id, s.eos), r.2)) = .ok ([[("c", false), ("a", false)], [("c", true), ("a", true)]], .returned) := by decide +kernel

end
end DS.Data
