import Verif.Spec.StreamMemory
import Verif.Props.EpochsFiles2
import Verif.Props.SyncMemory
import Verif.Props.BatchBounds
/-! C230: the memory of a model while a dataset is streamed through it. -/

namespace DS.Conv
open Meta
section
variable {α : Type} [Zero α]

omit [Zero α] in
theorem ends_at {xs ys : List (ST α)} (h : ys.map (fun y => (y.md.ids, y.md.eos)) = xs.map (fun x => (x.md.ids, x.md.eos))) (i : String)
    (hx : ∀ x, (xs.filter fun x => decide (i ∈ x.md.ids)).getLast? = some x → (i, true) ∈ x.md.ids.zip x.md.eos) :
    ∀ y, (ys.filter fun y => decide (i ∈ y.md.ids)).getLast? = some y → (i, true) ∈ y.md.ids.zip y.md.eos := by
  intro y hy
  have he : ∀ zs : List (ST α), ((zs.map fun z => (z.md.ids, z.md.eos)).filter fun p => decide (i ∈ p.1)).getLast? =
      ((zs.filter fun z => decide (i ∈ z.md.ids)).getLast?).map fun z => (z.md.ids, z.md.eos) := by
    intro zs
    rw [List.filter_map, List.getLast?_map]
    rfl
  have h1 := he ys
  rw [h, he xs, hy] at h1
  cases hxl : (xs.filter fun z => decide (i ∈ z.md.ids)).getLast? with
  | none => rw [hxl] at h1; simp at h1
  | some x =>
    rw [hxl] at h1
    simp only [Option.map_some, Option.some.injEq, Prod.mk.injEq] at h1
    have := hx x hxl
    rwa [h1.1, h1.2] at this

/-- A stack holds nothing for a stream that has ended, and buffers shorter than the kernels for the others. -/
theorem stack_holds (ls : List (Layer α)) (xs : List (ST α)) (hx : ∀ x ∈ xs, Lined x) (hr : Ready ls xs) (zs : List (ST α)) (t : List (Layer α × Buf α))
    (h : chainRun (fresh ls) xs = .ok (zs, t)) :
    (∀ i, (∀ x, (xs.filter fun x => decide (i ∈ x.md.ids)).getLast? = some x → (i, true) ∈ x.md.ids.zip x.md.eos) → ∀ p ∈ t, p.2 i = none) ∧
    ∀ p ∈ t, ∀ c g, p.1 = .conv c g → c.Valid → ∀ i f, p.2 i = some f → f.length < c.kw := by
  induction ls generalizing xs t with
  | nil =>
    rw [show fresh ([] : List (Layer α)) = [] from rfl, chainRun_nil] at h
    simp only [Except.ok.injEq, Prod.mk.injEq] at h
    rw [← h.2]
    exact ⟨fun _ _ p hp => by simp at hp, fun p hp => by simp at hp⟩
  | cons l ls ih =>
    rw [show fresh (l :: ls) = (l, fun _ => none) :: fresh ls from rfl] at h
    obtain ⟨ys, b', t', h1, h2⟩ := chainRun_cons h
    rw [chainRun_cons_ok h1 h2] at h
    simp only [Except.ok.injEq, Prod.mk.injEq] at h
    obtain ⟨-, rfl⟩ := h
    obtain ⟨a1, a2, a3⟩ := layerRun_ends l xs (fun x hm => ⟨hx x hm, hr.1 x hm⟩) (fun _ => none) (fun _ _ _ => rfl) ys b' h1
    obtain ⟨k1, k2⟩ := ih ys a1 (hr.2 ys b' h1) t' h2
    refine ⟨fun i hi p hp => ?_, fun p hp => ?_⟩
    · rcases List.mem_cons.1 hp with rfl | hp
      · exact a3 i (.inl rfl) hi
      · exact k1 i (ends_at a2 i hi) p hp
    · rcases List.mem_cons.1 hp with rfl | hp
      · rintro c g rfl hv i f hf
        rw [layerRun_conv] at h1
        exact C55_buffer_small c hv g xs ys b' h1 i f hf
      · exact k2 p hp

/-- **C230**, the model. Batches in which no stream is interrupted, through any stack: every layer holds buffers for streams of the latest batch only, each shorter than its kernel.
Missing: streams that end with a chunk which is empty for some layer, whose buffers stay for ever (`C230_leak_false`). -/
theorem C230_model_partial (ls : List (Layer α)) (xs : List (ST α)) (hx : ∀ x ∈ xs, x.md.WF ∧ x.rows.length = x.md.ids.length) (hr : Ready ls xs) (hu : Unbroken xs) (zs : List (ST α))
    (t : List (Layer α × Buf α)) (h : chainRun (fresh ls) xs = .ok (zs, t)) (p : Layer α × Buf α) (hp : p ∈ t) :
    (∀ i, p.2 i ≠ none → ∃ z, xs.getLast? = some z ∧ i ∈ z.md.ids) ∧ ∀ c g, p.1 = .conv c g → c.Valid → ∀ i f, p.2 i = some f → f.length < c.kw := by
  obtain ⟨h1, h2⟩ := stack_holds ls xs hx hr zs t h
  refine ⟨fun i hi => ?_, h2 p hp⟩
  by_contra hc
  refine hi (h1 i (fun x hxl => ?_) p hp)
  by_contra hno
  obtain ⟨ys, hy⟩ := List.getLast?_eq_some_iff.1 hxl
  obtain ⟨A, l2, rfl, -, g2⟩ := List.filter_eq_append_iff.1 hy
  obtain ⟨A', B, rfl, -, g4, g5⟩ := List.filter_eq_cons_iff.1 g2
  have hix : i ∈ x.md.ids := by simpa using g4
  cases B with
  | nil => exact hc ⟨x, by rw [← List.append_assoc, List.getLast?_append]; rfl, hix⟩
  | cons y B =>
    have hiy := hu (A ++ A') x y B (by simp) i hix hno
    have := List.filter_eq_nil_iff.1 g5 y (by simp)
    simp [hiy] at this

omit [Zero α] in
theorem unbroken_of (xs : List (ST α)) (h : ∀ k ∈ List.range xs.length, ∀ x ∈ xs[k]?, ∀ y ∈ xs[k + 1]?, ∀ i ∈ x.md.ids, (i, true) ∉ x.md.ids.zip x.md.eos → i ∈ y.md.ids) : Unbroken xs := by
  rintro pre x y post rfl i hi hno
  exact h pre.length (by simp) x (by simp) y (by simp) i hi hno

omit [Zero α] in
theorem unbroken_prefix {xs ys : List (ST α)} (h : xs <+: ys) (hu : Unbroken ys) : Unbroken xs := by
  obtain ⟨t, rfl⟩ := h
  rintro pre x y post rfl i hi hno
  exact hu pre x y (post ++ t) (by simp) i hi hno

/-- Files of six frames in chunks of five and one, two files at a time; a file of five frames puts the second lane one chunk behind the first. -/
def exLanes : List (ST Int) :=
  [ { md := ⟨["a", "x"], [true, true], [false, true], [5, 5], none⟩, width := 5, rows := [[1, 2, 3, 4, 5], [1, 2, 3, 4, 5]] },
    { md := ⟨["p", "a"], [true, false], [false, true], [5, 1], none⟩, width := 5, rows := [[1, 2, 3, 4, 5], [6, 0, 0, 0, 0]] },
    { md := ⟨["b", "p"], [true, false], [false, true], [5, 1], none⟩, width := 5, rows := [[1, 2, 3, 4, 5], [6, 0, 0, 0, 0]] },
    { md := ⟨["q", "b"], [true, false], [false, true], [5, 1], none⟩, width := 5, rows := [[1, 2, 3, 4, 5], [6, 0, 0, 0, 0]] } ]

/-- **C230 is false of the code.** Two files at a time through two convolutions; the last chunk of a file gives no output in the first, so it is empty for the second, which forgets that the file has ended and keeps its buffer. After four
batches the second convolution holds buffers of four files, three of which have ended; so it goes on with every further file (`C230_unbounded_false`). -/
theorem C230_leak_false : Unbroken exLanes ∧ (∀ x ∈ exLanes, x.md.ids.length ≤ 2 ∧ ∀ c ∈ unpack x, c.frames ≠ []) ∧
    (chainRun (fresh [.conv ⟨3, 1, 2, 0⟩ exG, .conv ⟨2, 1, 1, 0⟩ exG]) exLanes).map (fun r => (r.1.map fun y => (unpack y).map fun c => (c.id, c.eos, c.frames.length),
        r.2.map fun l => ["a", "x", "p", "b", "q"].filter fun i => (l.2 i).isSome)) =
      .ok ([[("a", false, 1), ("x", true, 1)], [("p", false, 1), ("a", false, 0)], [("b", false, 1), ("p", false, 0)], [("q", false, 1), ("b", false, 0)]], [["q"], ["a", "p", "b", "q"]]) :=
  ⟨unbroken_of _ (by decide), by decide, by decide⟩

-- two files at a time whose chunks are long enough: after three batches only `b`, of the last batch, is held
example : Unbroken (exLanes.take 3) ∧ Ready [.conv ⟨3, 1, 2, 0⟩ exG] (exLanes.take 3) ∧
    (chainRun (fresh [.conv ⟨3, 1, 2, 0⟩ exG]) (exLanes.take 3)).map (fun r => r.2.map fun l => ["a", "x", "p", "b"].map l.2) = .ok [[none, none, none, some [5]]] :=
  ⟨unbroken_of _ (by decide), ⟨fun x hx => .inr (.inr (by revert x hx; decide)), fun _ _ _ => trivial⟩, by decide⟩

end
end DS.Conv

namespace DS.Data
open Meta Conv
section
variable {α : Type}

/-- Synchronised batches of whole files: files stay in consecutive batches. -/
theorem steady_sync (n : Nat) (out : List (List (Sample α))) (h : Synchronous n out) (hw : ∀ s ∈ out.flatten, WholeFile s.id (ofFile s.id out.flatten)) : Steady out := by
  rintro pre b b' post rfl s hs heos
  obtain ⟨-, -, hnd, -⟩ := h pre b (b' :: post) rfl
  obtain ⟨-, -, -, h4⟩ := h (pre ++ [b]) b' post (by simp)
  rcases h4 with ⟨-, hall⟩ | ⟨-, pre', l, he, hids⟩
  · exfalso
    obtain ⟨t, ht, hti, hte⟩ := hall s (by simp [hs])
    obtain ⟨-, w2⟩ := hw s (by simp [hs])
    rw [List.flatten_append, List.flatten_singleton] at ht
    rcases List.mem_append.1 ht with ht | ht
    · have hm : t ∈ ofFile s.id pre.flatten := by rw [← hti]; exact mem_ofFile ht
      obtain ⟨k, hk, hkt⟩ := List.mem_iff_getElem.1 hm
      have hb : 0 < (ofFile s.id b).length := List.length_pos_iff.2 (List.ne_nil_of_mem (mem_ofFile hs))
      have hL : ofFile s.id (pre ++ b :: b' :: post).flatten = ofFile s.id pre.flatten ++ (ofFile s.id b ++ ofFile s.id (b' :: post).flatten) := by
        rw [List.flatten_append, List.flatten_cons, ofFile_append, ofFile_append]
      have hk' : (ofFile s.id (pre ++ b :: b' :: post).flatten)[k]? = some t := by
        rw [hL, List.getElem?_append_left hk, List.getElem?_eq_getElem hk, hkt]
      have := (w2 k t hk').2.2.1 hte
      rw [hL, List.length_append, List.length_append] at this
      omega
    · have hts : t = s := List.inj_on_of_nodup_map hnd ht hs hti
      rw [hts, heos] at hte
      cases hte
  · have hl : l = b := by
      have := congrArg List.getLast? he
      simpa using this.symm
    subst hl
    have : s.id ∈ b'.map Sample.id := by
      rw [hids]
      exact List.mem_map.2 ⟨s, List.mem_filter.2 ⟨hs, by simp [heos]⟩, rfl⟩
    obtain ⟨s', h1, h2⟩ := List.mem_map.1 this
    exact ⟨s', h1, h2⟩

theorem orders_mem {os ps : List (List String)} (h : List.Forall₂ List.Perm os ps) {o : List String} (ho : o ∈ os) : ∃ p ∈ ps, o.Perm p := by
  induction h with
  | nil => cases ho
  | cons h1 _ ih =>
    rcases List.mem_cons.1 ho with rfl | hl
    · exact ⟨_, by simp, h1⟩
    · obtain ⟨q, hq, h3⟩ := ih hl
      exact ⟨q, by simp [hq], h3⟩

/-- No batch of a loader is larger than `batch_size`. -/
theorem loader_le (disk : Disk α) (cfg : LoaderCfg) (d : Dataset α) (order : List Nat) (orders : List (List String) → List (List String)) (hor : ∀ ls, (orders ls).length = ls.length) (fuel : Nat)
    (out : List (List (Sample α))) (e : Ended) (h : loader disk cfg d order orders fuel = .ok (out, e)) : ∀ b ∈ out, (b.length : Int) ≤ cfg.batchSize := by
  unfold loader at h
  obtain ⟨ds, h1, h⟩ := bind_inv h
  obtain ⟨parts, h3, h⟩ := bind_inv h
  obtain ⟨hn, hdvd, hlen, hds⟩ := split_inv disk d _ _ _ _ _ _ h1
  have hF := iterAll_inv disk ds _ (by rw [hor, List.length_map]) parts h3
  obtain ⟨hle, -⟩ := batches_bound disk cfg fuel ds parts hF
  injection h with h
  rw [h] at hle
  generalize hw : max 1 cfg.numWorkers = w at *
  have hpos : 0 < cfg.batchSize / w := by
    cases ds with
    | nil => simp at hlen; omega
    | cons d' ds => exact (hds d' (by simp)).2.1
  have hsum : (((ds.map fun d => d.batchSize.toNat).sum : Nat) : Int) = cfg.batchSize := by
    rw [sum_replicate_map ds (cfg.batchSize / w) (by omega) fun d' hd' => (hds d' hd').1, hlen, Int.toNat_of_nonneg (by omega), Int.mul_ediv_cancel' hdvd]
  intro b hb
  rw [← hsum]
  exact_mod_cast hle b hb

/-- **C230**, the loader. Without drop_last, whatever the workers, batch size, shuffling and order, overlapping or not: a file whose end has not been delivered is in the next batch, and no batch is larger than `batch_size`. -/
theorem C230_loader (disk : Disk α) (cfg : LoaderCfg) (d : Dataset α) (hs : Splittable d) (hdrop : cfg.dropLast = false) (hb : 0 < cfg.batchSize)
    (hdvd : max 1 cfg.numWorkers ∣ cfg.batchSize) (hn : d.files.Nodup) (hne : d.files ≠ [])
    (S : String → List (Sample α)) (hf : ∀ x ∈ d.files, processData disk d x = .ok (S x)) (hS : ∀ x ∈ d.files, WholeFile x (S x))
    (order : List Nat) (ho : order.Perm (List.range d.files.length)) (orders : List (List String) → List (List String))
    (hor : ∀ ls, List.Forall₂ List.Perm (orders ls) ls) (fuel : Nat) (out : List (List (Sample α))) (h : loader disk cfg d order orders fuel = .ok (out, .returned)) :
    (∀ pre b b' post, out = pre ++ b :: b' :: post → ∀ s ∈ b, s.eos = false → ∃ s' ∈ b', s'.id = s.id) ∧ ∀ b ∈ out, (b.length : Int) ≤ cfg.batchSize := by
  refine ⟨?_, loader_le disk cfg d order orders (fun ls => (hor ls).length_eq) fuel out _ h⟩
  change Steady out
  obtain ⟨parts, hplen, h2, h3⟩ := split_ok disk d hs (max 1 cfg.numWorkers) cfg.batchSize (by omega) hb (Int.emod_eq_zero_of_dvd hdvd) cfg.shuffle false order ho
  have hpn : parts.flatten.Nodup := h2.nodup_iff.2 hn
  have hbn : 0 < cfg.batchSize / max 1 cfg.numWorkers := Int.ediv_pos_of_pos_of_dvd hb (by omega) hdvd
  have hf' : ∀ x ∈ parts.flatten, processData disk d x = .ok (S x) := fun x hx => hf x (h2.mem_iff.1 hx)
  obtain ⟨streams, h4, h5⟩ := iterAll_ok disk d (cfg.batchSize / max 1 cfg.numWorkers) hbn cfg.shuffle S parts (orders parts) (hor parts) hpn hf'
    (fun x hx => hS x (h2.mem_iff.1 hx))
  obtain ⟨m1, m2, m3⟩ := merge_once S parts streams hpn h5
  have hfiles : (parts.map (workerDataset disk d (cfg.batchSize / max 1 cfg.numWorkers) cfg.shuffle false)).map Dataset.files = parts := by
    rw [List.map_map]
    have : (Dataset.files ∘ workerDataset disk d (cfg.batchSize / max 1 cfg.numWorkers) cfg.shuffle false) = id := by funext p; rfl
    rw [this, List.map_id]
  have hload : loaderBatches cfg fuel streams = (out, .returned) := by
    unfold loader at h
    rw [hdrop, h3, Except.bind_ok', hfiles, h4, Except.bind_ok'] at h
    exact Except.ok.inj h
  have h6 := iterAll_streams disk d (cfg.batchSize / max 1 cfg.numWorkers) cfg.shuffle S parts (orders parts) (hor parts) hf'
  rw [h4, Except.ok.injEq] at h6
  have hmerge : mergeWorkers false streams = zipLongest ((orders parts).map (streamsOf S (cfg.batchSize / max 1 cfg.numWorkers).toNat)).flatten := by rw [h6, merge_zip]
  obtain ⟨lanes, hlanes, hlen, hin⟩ : ∃ lanes : List (List String), ((orders parts).map (streamsOf S (cfg.batchSize / max 1 cfg.numWorkers).toNat)).flatten = lanes.map (fun l => l.flatMap S) ∧
      lanes.length = parts.length * (cfg.batchSize / max 1 cfg.numWorkers).toNat ∧ ∀ l ∈ lanes, ∀ x ∈ l, x ∈ parts.flatten := by
    refine ⟨(orders parts).flatMap fun o => (List.range (cfg.batchSize / max 1 cfg.numWorkers).toNat).map fun i => everyFrom i (cfg.batchSize / max 1 cfg.numWorkers).toNat o, ?_, ?_, ?_⟩
    · generalize orders parts = os
      induction os with
      | nil => rfl
      | cons o os ih =>
        rw [List.map_cons, List.flatten_cons, ih, List.flatMap_cons, List.map_append]
        congr 1
        unfold streamsOf
        rw [List.map_map]
        rfl
    · rw [← (hor parts).length_eq]
      generalize orders parts = os
      induction os with
      | nil => simp
      | cons o os ih =>
        rw [List.flatMap_cons, List.length_append, ih, List.length_map, List.length_range, List.length_cons, Nat.succ_mul]
        omega
    · intro l hl x hx
      obtain ⟨o, hom, hl⟩ := List.mem_flatMap.1 hl
      obtain ⟨i, _, rfl⟩ := List.mem_map.1 hl
      have hxo := (everyFrom_sublist _ _ o).subset hx
      obtain ⟨p, hp, hper⟩ := orders_mem (hor parts) hom
      exact List.mem_flatten.2 ⟨p, hp, hper.mem_iff.1 hxo⟩
  rw [hlanes] at hmerge
  have m1' : ∀ x ∈ d.files, ofFile x (mergeWorkers false streams).flatten = S x := fun x hx => m1 x (h2.mem_iff.2 hx)
  have m2' : ∀ s ∈ (mergeWorkers false streams).flatten, s.id ∈ d.files := fun s hs => h2.mem_iff.1 (m2 s hs)
  unfold loaderBatches at hload
  rw [hdrop] at hload
  cases hov : cfg.overlapping
  · rw [hov] at hload
    simp only [Bool.false_eq_true, if_false] at hload
    have hwf : WellFormed (mergeWorkers false streams) := by
      refine ⟨?_, ?_⟩
      · cases hmw : mergeWorkers false streams with
        | nil =>
          exfalso
          obtain ⟨x, hx⟩ := List.exists_mem_of_ne_nil _ hne
          have := m1' x hx
          rw [hmw] at this
          exact (hS x hx).1 this.symm
        | cons b rest =>
          have := m3 b (by rw [hmw]; simp)
          exact ⟨b, rest, rfl, this.1, this.2⟩
      · intro s hs
        rw [m1' s.id (m2' s hs)]
        exact hS s.id (m2' s hs)
    obtain ⟨fuel', out', n, -, k1, k2, k3, -⟩ := sync_spec _ hwf
    obtain ⟨rfl, -⟩ := sync_unique _ _ _ _ _ _ _ hload k1 (by simp) (by simp)
    refine steady_sync n out k3 fun s hs => ?_
    rw [k2]
    have hm := mem_ofFile hs
    rw [k2] at hm
    exact hwf.2 s (List.mem_filter.1 hm).1
  · rw [hov] at hload
    simp only [if_true, Prod.mk.injEq, and_true] at hload
    rw [← hload, hmerge]
    exact steady_zip S lanes fun l hl x hx => hS x (h2.mem_iff.1 (hin l hl x hx))

/-- Collating keeps files in consecutive batches. -/
theorem unbroken_collated [Zero α] (out : List (List (Sample α))) (xs : List (ST α)) (hst : Steady out) (hlin : ∀ x ∈ xs, Lined x) (hx : xs.map unpack = out.map fun b => (sortByLength b).map Sample.chunk) :
    Unbroken xs := by
  rintro pre x y post rfl i hi hno
  have hget : ∀ (k : Nat) (z : ST α), (pre ++ x :: y :: post)[k]? = some z → ∃ b, out[k]? = some b ∧ unpack z = (sortByLength b).map Sample.chunk := by
    intro k z hz
    have := congrArg (·[k]?) hx
    simp only [List.getElem?_map, hz, Option.map_some] at this
    cases hb : out[k]? with
    | none => rw [hb] at this; simp at this
    | some b =>
      rw [hb, Option.map_some, Option.some.injEq] at this
      exact ⟨b, rfl, this⟩
  obtain ⟨b, hb, hbu⟩ := hget pre.length x (by simp)
  obtain ⟨b', hb', hbu'⟩ := hget (pre.length + 1) y (by simp)
  have hxl := hlin x (by simp)
  have hyl := hlin y (by simp)
  rw [Meta.ids_rows x.md hxl.1] at hi
  obtain ⟨r, hr, hri⟩ := List.mem_map.1 hi
  obtain ⟨c, hc, c1, c2, -⟩ := row_unpacked x hxl r hr
  rw [hbu] at hc
  obtain ⟨s, hs, rfl⟩ := List.mem_map.1 hc
  have hsb : s ∈ b := (List.mergeSort_perm _ _).mem_iff.1 hs
  have heos : s.eos = false := by
    cases he : s.eos with
    | false => rfl
    | true =>
      exfalso
      apply hno
      rw [Meta.ids_rows x.md hxl.1, Meta.eos_rows x.md hxl.1, List.zip_map']
      exact List.mem_map.2 ⟨r, hr, by rw [hri, ← c2]; exact congrArg (Prod.mk i) he⟩
  have hsplit : out = out.take pre.length ++ b :: b' :: out.drop (pre.length + 2) := by
    obtain ⟨k1, e1⟩ := List.getElem?_eq_some_iff.1 hb
    obtain ⟨k2, e2⟩ := List.getElem?_eq_some_iff.1 hb'
    conv_lhs => rw [← List.take_append_drop pre.length out, List.drop_eq_getElem_cons k1, List.drop_eq_getElem_cons k2, e1, e2]
  obtain ⟨s', hs', hid⟩ := hst _ b b' _ hsplit s hsb heos
  have : s'.chunk ∈ unpack y := by
    rw [hbu']
    exact List.mem_map_of_mem ((List.mergeSort_perm _ _).mem_iff.2 hs')
  obtain ⟨r', hr', q1, -⟩ := unpacked_row y _ this
  rw [Meta.ids_rows y.md hyl.1]
  refine List.mem_map.2 ⟨r', hr', ?_⟩
  rw [← q1, ← hri, ← c1]
  exact hid

theorem memory_spec [Zero α] (disk : Disk α) (cfg : LoaderCfg) (d : Dataset α) (hs : Splittable d) (hdrop : cfg.dropLast = false) (hb : 0 < cfg.batchSize)
    (hdvd : max 1 cfg.numWorkers ∣ cfg.batchSize) (hn : d.files.Nodup) (hne : d.files ≠ [])
    (S : String → List (Sample α)) (hf : ∀ x ∈ d.files, processData disk d x = .ok (S x)) (hS : ∀ x ∈ d.files, WholeFile x (S x))
    (hlen : ∀ x ∈ d.files, ∀ s ∈ S x, 0 < s.length ∧ s.length ≤ s.data.length)
    (order : List Nat) (ho : order.Perm (List.range d.files.length)) (orders : List (List String) → List (List String))
    (hor : ∀ ls, List.Forall₂ List.Perm (orders ls) ls) :
    ∃ fuel out xs, loader disk cfg d order orders fuel = .ok (out, .returned) ∧ collateAll out = .ok xs ∧ (∀ x ∈ xs, Keeps x) ∧
      ∀ (ls : List (Layer α)) (seen : List (ST α)), seen <+: xs → Ready ls seen → ∀ zs t, chainRun (fresh ls) seen = .ok (zs, t) →
        ∃ held : List String, (held.length : Int) ≤ cfg.batchSize ∧ ∀ p ∈ t, (∀ i, p.2 i ≠ none → i ∈ held) ∧
          ∀ c g, p.1 = .conv c g → c.Valid → ∀ i f, p.2 i = some f → f.length < c.kw := by
  obtain ⟨fuel, out, xs, h1, h2, h3, h4, -, -, h7⟩ := schedule_spec disk cfg d hs hdrop hb hdvd hn hne S hf hS hlen order ho orders hor
  obtain ⟨hst, hle⟩ := C230_loader disk cfg d hs hdrop hb hdvd hn hne S hf hS order ho orders hor fuel out h1
  have hmem : ∀ x ∈ xs, ∃ b ∈ out, Lined x ∧ unpack x = (sortByLength b).map Sample.chunk := by
    intro x hx
    obtain ⟨b, hb, hc⟩ := collateAll_mem h2 x hx
    obtain ⟨g1, g2⟩ := h7 b hb
    have hsh := shaped_collateST b g1 (fun s hs => (hlen s.id (g2 s hs).1 s (g2 s hs).2).2) x hc
    obtain ⟨x', e1, e2⟩ := unpack_collateST b g1 (fun s hs => (hlen s.id (g2 s hs).1 s (g2 s hs).2).2)
    rw [hc] at e1
    cases e1
    exact ⟨b, hb, ⟨hsh.1, hsh.2.1⟩, e2⟩
  have hlined : ∀ x ∈ xs, Lined x := by
    intro x hx
    obtain ⟨_, _, h, _⟩ := hmem x hx
    exact h
  have hun : xs.map unpack = out.map fun b => (sortByLength b).map Sample.chunk := by
    obtain ⟨xs', e1, e2⟩ := collateAll_ok out (fun b hb => (h7 b hb).1) (fun b hb s hs => (hlen s.id ((h7 b hb).2 s hs).1 s ((h7 b hb).2 s hs).2).2)
    rw [h2] at e1
    cases e1
    exact e2
  have hub := unbroken_collated out xs hst (fun x hx => (hlined x hx)) hun
  refine ⟨fuel, out, xs, h1, h2, fun x hx => keeps_batchOK x (hlined x hx) (h4 x hx).1, ?_⟩
  intro ls seen hpre hr zs t hrun
  have hsub : ∀ x ∈ seen, x ∈ xs := fun x hx => hpre.subset hx
  have key := fun p hp => C230_model_partial ls seen (fun x hx => (hlined x (hsub x hx))) hr (unbroken_prefix hpre hub) zs t hrun p hp
  cases hl : seen.getLast? with
  | none =>
    refine ⟨[], by simp; omega, fun p hp => ⟨fun i hi => ?_, (key p hp).2⟩⟩
    obtain ⟨z, hz, -⟩ := (key p hp).1 i hi
    rw [hl] at hz
    cases hz
  | some z =>
    refine ⟨z.md.ids, ?_, fun p hp => ⟨fun i hi => ?_, (key p hp).2⟩⟩
    · obtain ⟨b, hbm, hlin, hu⟩ := hmem z (hsub z (List.mem_of_getLast? hl))
      have hlen' := congrArg List.length hu
      unfold unpack at hlen'
      rw [List.length_zipWith, List.length_map, show (sortByLength b).length = b.length from (List.mergeSort_perm _ _).length_eq, hlin.2, Meta.ids_rows z.md hlin.1, List.length_map, Nat.min_self] at hlen'
      rw [Meta.ids_rows z.md hlin.1, List.length_map, hlen']
      exact hle b hbm
    · obtain ⟨z', hz, hi'⟩ := (key p hp).1 i hi
      rw [hl] at hz
      cases hz
      exact hi'

/-- **C230.** Without drop_last, whatever the workers, batch size, shuffling and order: when any number of the loader's batches have been streamed through a stack, there are at most `batch_size` files for which any layer holds a buffer, and each buffer is shorter than
the layer's kernel, however many files there are and however long they are. Missing: files that end with a chunk which is empty for some layer (`C230_leak_false`). -/
theorem C230_stack_partial [Zero α] (disk : Disk α) (cfg : LoaderCfg) (d : Dataset α) (hs : Splittable d) (hdrop : cfg.dropLast = false) (hb : 0 < cfg.batchSize)
    (hdvd : max 1 cfg.numWorkers ∣ cfg.batchSize) (hn : d.files.Nodup) (hne : d.files ≠ [])
    (S : String → List (Sample α)) (hf : ∀ x ∈ d.files, processData disk d x = .ok (S x)) (hS : ∀ x ∈ d.files, WholeFile x (S x))
    (hlen : ∀ x ∈ d.files, ∀ s ∈ S x, 0 < s.length ∧ s.length ≤ s.data.length)
    (order : List Nat) (ho : order.Perm (List.range d.files.length)) (orders : List (List String) → List (List String))
    (hor : ∀ ls, List.Forall₂ List.Perm (orders ls) ls) :
    ∃ fuel out xs, loader disk cfg d order orders fuel = .ok (out, .returned) ∧ collateAll out = .ok xs ∧
      ∀ (ls : List (Layer α)) (seen : List (ST α)), seen <+: xs → Ready ls seen → ∀ zs t, chainRun (fresh ls) seen = .ok (zs, t) →
        ∃ held : List String, (held.length : Int) ≤ cfg.batchSize ∧ ∀ p ∈ t, (∀ i, p.2 i ≠ none → i ∈ held) ∧
          ∀ c g, p.1 = .conv c g → c.Valid → ∀ i f, p.2 i = some f → f.length < c.kw := by
  obtain ⟨fuel, out, xs, h1, h2, -, h3⟩ := memory_spec disk cfg d hs hdrop hb hdvd hn hne S hf hS hlen order ho orders hor
  exact ⟨fuel, out, xs, h1, h2, h3⟩

/-- **C230** for one convolution: nothing is missing. -/
theorem C230_convolution [Zero α] (disk : Disk α) (cfg : LoaderCfg) (d : Dataset α) (hs : Splittable d) (hdrop : cfg.dropLast = false) (hb : 0 < cfg.batchSize)
    (hdvd : max 1 cfg.numWorkers ∣ cfg.batchSize) (hn : d.files.Nodup) (hne : d.files ≠ [])
    (S : String → List (Sample α)) (hf : ∀ x ∈ d.files, processData disk d x = .ok (S x)) (hS : ∀ x ∈ d.files, WholeFile x (S x))
    (hlen : ∀ x ∈ d.files, ∀ s ∈ S x, 0 < s.length ∧ s.length ≤ s.data.length)
    (order : List Nat) (ho : order.Perm (List.range d.files.length)) (orders : List (List String) → List (List String))
    (hor : ∀ ls, List.Forall₂ List.Perm (orders ls) ls) (c : Cfg) (hv : c.Valid) (g : List α → α) :
    ∃ fuel out xs, loader disk cfg d order orders fuel = .ok (out, .returned) ∧ collateAll out = .ok xs ∧
      ∀ seen, seen <+: xs → ∀ ys buf, run c g (fun _ => none) seen = .ok (ys, buf) →
        ∃ held : List String, (held.length : Int) ≤ cfg.batchSize ∧ ∀ i f, buf i = some f → i ∈ held ∧ f.length < c.kw := by
  obtain ⟨fuel, out, xs, h1, h2, hk, h3⟩ := memory_spec disk cfg d hs hdrop hb hdvd hn hne S hf hS hlen order ho orders hor
  refine ⟨fuel, out, xs, h1, h2, fun seen hpre ys buf hrun => ?_⟩
  rw [← layerRun_conv] at hrun
  have hc : chainRun (fresh [.conv c g]) seen = .ok (ys, [(.conv c g, buf)]) := chainRun_cons_ok hrun (chainRun_nil ys)
  obtain ⟨held, k1, k2⟩ := h3 [.conv c g] seen hpre ⟨fun x hx => hk x (hpre.subset hx), fun _ _ _ => trivial⟩ ys _ hc
  obtain ⟨k3, k4⟩ := k2 _ (List.mem_singleton.2 rfl)
  exact ⟨held, k1, fun i f hf => ⟨k3 i (by simp [hf]), k4 c g rfl hv i f hf⟩⟩

-- Three files of three frames, one and two in chunks of one frame, with two workers and batches of two (the conditions of `C160_schedule`, examples there); the files that are open after a batch are in the next one.
example : Splittable exLoad ∧ exLoad.files.Nodup ∧ exLoad.files ≠ [] ∧ max 1 (2 : Int) ∣ 2 := ⟨⟨by decide +kernel, by decide, Or.inr (by decide)⟩, by decide, by decide, by decide⟩
example : (loader exLoadDisk ⟨2, 2, false, true, false⟩ exLoad [1, 2, 0] id 0).map (fun r => (r.1.map fun b => b.map fun s => (s.id, s.eos), r.2)) =
    .ok ([[("b", true), ("c", false)], [("a", false), ("c", true)], [("a", false)], [("a", true)]], .returned) := by decide +kernel

end
end DS.Data
