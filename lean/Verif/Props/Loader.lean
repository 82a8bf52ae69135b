import Verif.Props.Split
import Mathlib.Data.List.Forall2
/-!
# C77, C82-C84, C99: the loader
-/

namespace DS.Data

section
variable {α : Type}

/-! ## C82: without drop_last the loader delivers everything -/

theorem ofFile_flatten (x : String) (L : List (List (Sample α))) : ofFile x L.flatten = L.flatMap (ofFile x) := by
  induction L with
  | nil => rfl
  | cons a as ih => rw [List.flatten_cons, ofFile_append, ih, List.flatMap_cons]

theorem forall2_mem {β γ : Type} {R : β → γ → Prop} {ps : List β} {sts : List γ} (h : List.Forall₂ R ps sts) {st : γ} (hst : st ∈ sts) : ∃ p ∈ ps, R p st := by
  induction h with
  | nil => cases hst
  | cons h1 _ ih =>
    rcases List.mem_cons.1 hst with rfl | hl
    · exact ⟨_, by simp, h1⟩
    · obtain ⟨q, hq, h3⟩ := ih hl
      exact ⟨q, by simp [hq], h3⟩

/-- What the stream of one worker has to be: complete files `fs`, in batches that hold no file twice. -/
structure WorkerStream (S : String → List (Sample α)) (fs : List String) (bs : List (List (Sample α))) : Prop where
  once : ∀ x ∈ fs, ofFile x bs.flatten = S x
  only : ∀ s ∈ bs.flatten, s.id ∈ fs
  batch : ∀ a ∈ bs, a ≠ [] ∧ (a.map Sample.id).Nodup

/-- Streams of workers with disjoint files, put together. -/
theorem merge_once (S : String → List (Sample α)) (parts : List (List String)) (streams : List (List (List (Sample α)))) (hn : parts.flatten.Nodup)
    (h : List.Forall₂ (WorkerStream S) parts streams) :
    (∀ x ∈ parts.flatten, ofFile x (mergeWorkers false streams).flatten = S x) ∧ (∀ s ∈ (mergeWorkers false streams).flatten, s.id ∈ parts.flatten) ∧
      ∀ a ∈ mergeWorkers false streams, a ≠ [] ∧ (a.map Sample.id).Nodup := by
  have hm : mergeWorkers false streams = (zipLongest streams).map List.flatten := rfl
  have hfl : (mergeWorkers false streams).flatten = (zipLongest streams).flatten.flatten := by
    rw [hm]
    exact List.flatten_flatten.symm
  refine ⟨?_, ?_, ?_⟩
  · intro x hx
    obtain ⟨p, hp, hxp⟩ := List.mem_flatten.1 hx
    -- split the workers at the one with file x
    have hsplit : ∃ pre st post, streams = pre ++ st :: post ∧ ofFile x st.flatten = S x ∧
        (∀ l ∈ pre, ∀ s ∈ l.flatten, s.id ≠ x) ∧ ∀ l ∈ post, ∀ s ∈ l.flatten, s.id ≠ x := by
      clear hm hfl hx
      induction h with
      | nil => cases hp
      | @cons q st ps sts hw hws ih =>
        rw [List.flatten_cons, List.nodup_append] at hn
        by_cases hxq : x ∈ q
        · refine ⟨[], st, sts, rfl, hw.once x hxq, by simp, ?_⟩
          intro l hl s hs heq
          obtain ⟨q', hq', hw'⟩ := forall2_mem hws hl
          have := hw'.only s hs
          rw [heq] at this
          exact hn.2.2 x hxq x (List.mem_flatten.2 ⟨q', hq', this⟩) rfl
        · have hpp : p ∈ ps := by
            rcases List.mem_cons.1 hp with rfl | h
            · exact absurd hxp hxq
            · exact h
          obtain ⟨pre, st', post, he, h1, h2, h3⟩ := ih hn.2.1 hpp
          refine ⟨st :: pre, st', post, by rw [he]; rfl, h1, ?_, h3⟩
          intro l hl s hs heq
          rcases List.mem_cons.1 hl with rfl | hl
          · have := hw.only s hs
            rw [heq] at this
            exact hxq this
          · exact h2 l hl s hs heq
    obtain ⟨pre, st, post, he, h1, h2, h3⟩ := hsplit
    rw [hfl, ofFile_flatten, he, zipLongest_flatMap, ← ofFile_flatten, h1]
    · intro l hl b hb
      exact ofFile_none fun s hs => h2 l hl s (List.mem_flatten.2 ⟨b, hb, hs⟩)
    · intro l hl b hb
      exact ofFile_none fun s hs => h3 l hl s (List.mem_flatten.2 ⟨b, hb, hs⟩)
  · intro s hs
    rw [hfl] at hs
    obtain ⟨b, hb, hs⟩ := List.mem_flatten.1 hs
    obtain ⟨l, hl, hb⟩ := List.mem_flatten.1 hb
    obtain ⟨k, _, rfl⟩ := mem_zipLongest hl
    obtain ⟨st, hst, hb⟩ := mem_layer.1 hb
    obtain ⟨q, hq, hw⟩ := forall2_mem h hst
    exact List.mem_flatten.2 ⟨q, hq, hw.only s (List.mem_flatten.2 ⟨b, List.mem_of_getElem? hb, hs⟩)⟩
  · intro a ha
    rw [hm] at ha
    obtain ⟨l, hl, rfl⟩ := List.mem_map.1 ha
    obtain ⟨k, hk, rfl⟩ := mem_zipLongest hl
    have hne : ∀ b ∈ layer streams k, b ≠ [] := by
      intro b hb
      obtain ⟨st, hst, hb⟩ := mem_layer.1 hb
      obtain ⟨q, _, hw⟩ := forall2_mem h hst
      exact (hw.batch b (List.mem_of_getElem? hb)).1
    refine ⟨?_, ?_⟩
    · obtain ⟨b, hb⟩ := List.exists_mem_of_ne_nil _ (layer_ne_nil streams k hk)
      obtain ⟨s, hs⟩ := List.exists_mem_of_ne_nil _ (hne b hb)
      exact List.ne_nil_of_mem (List.mem_flatten.2 ⟨b, hb, hs⟩)
    · clear hne hfl hm ha hl hk
      induction h with
      | nil => simp [layer]
      | @cons q st ps sts hw hws ih =>
        rw [List.flatten_cons, List.nodup_append] at hn
        rw [layer_cons, List.flatten_append, List.map_append, List.nodup_append]
        refine ⟨?_, ih hn.2.1, ?_⟩
        · cases hg : st[k]? with
          | none => simp
          | some b =>
            simpa using (hw.batch b (List.mem_of_getElem? hg)).2
        · intro x hx y hy heq
          subst heq
          obtain ⟨s, hs, rfl⟩ := List.mem_map.1 hx
          obtain ⟨b, hb, hs⟩ := List.mem_flatten.1 hs
          have hb' : b ∈ st := List.mem_of_getElem? (by simpa using hb)
          have h1 : s.id ∈ q := hw.only s (List.mem_flatten.2 ⟨b, hb', hs⟩)
          obtain ⟨t, ht, hte⟩ := List.mem_map.1 hy
          obtain ⟨c, hc, ht⟩ := List.mem_flatten.1 ht
          obtain ⟨st', hst', hc⟩ := mem_layer.1 hc
          obtain ⟨q', hq', hw'⟩ := forall2_mem hws hst'
          have h2 : t.id ∈ ps.flatten := List.mem_flatten.2 ⟨q', hq', hw'.only t (List.mem_flatten.2 ⟨c, List.mem_of_getElem? hc, ht⟩)⟩
          rw [hte] at h2
          exact hn.2.2 _ h1 _ h2 rfl

theorem processData_congr (disk : Disk α) (d d' : Dataset α) (h1 : d'.transform = d.transform) (h2 : d'.chunkSeconds = d.chunkSeconds) (x : String) :
    processData disk d' x = processData disk d x := by
  unfold processData
  rw [h1, h2]

theorem iterAll_ok (disk : Disk α) (d : Dataset α) (bs : Int) (hb : 0 < bs) (shuffle : Bool) (S : String → List (Sample α)) (parts orders : List (List String))
    (ho : List.Forall₂ List.Perm orders parts) (hn : parts.flatten.Nodup) (hf : ∀ x ∈ parts.flatten, processData disk d x = .ok (S x))
    (hS : ∀ x ∈ parts.flatten, WholeFile x (S x)) :
    ∃ streams, iterAll disk (parts.map (workerDataset disk d bs shuffle false)) orders = .ok streams ∧ List.Forall₂ (WorkerStream S) parts streams := by
  induction ho with
  | nil => exact ⟨[], rfl, List.Forall₂.nil⟩
  | @cons o p os ps hop _ ih =>
    rw [List.flatten_cons, List.nodup_append] at hn
    have hmem : ∀ x ∈ p, x ∈ (p :: ps).flatten := fun x hx => List.mem_flatten.2 ⟨p, by simp, hx⟩
    obtain ⟨b, h1, h2, h3, h4, _⟩ := C75_dataset disk (workerDataset disk d bs shuffle false p) rfl hb o hop hn.1 S
      (fun x hx => (processData_congr disk d _ rfl rfl x).trans (hf x (hmem x hx))) (fun x hx => hS x (hmem x hx))
    obtain ⟨streams, h5, h6⟩ := ih hn.2.1 (fun x hx => hf x (by rw [List.flatten_cons]; exact List.mem_append_right _ hx))
      (fun x hx => hS x (by rw [List.flatten_cons]; exact List.mem_append_right _ hx))
    refine ⟨b :: streams, ?_, List.Forall₂.cons ⟨h2, h3, fun a ha => ⟨(h4 a ha).1, (h4 a ha).2.2⟩⟩ h6⟩
    show (do let a ← Dataset.iter disk (workerDataset disk d bs shuffle false p) o; let b ← iterAll disk _ os; Except.ok (a :: b)) = _
    rw [h1, Except.bind_ok', h5, Except.bind_ok']

/-- C82, and that no batch is empty or holds a file twice. -/
theorem loader_spec (disk : Disk α) (cfg : LoaderCfg) (d : Dataset α) (hs : Splittable d) (hdrop : cfg.dropLast = false) (hb : 0 < cfg.batchSize)
    (hdvd : max 1 cfg.numWorkers ∣ cfg.batchSize) (hn : d.files.Nodup) (hne : d.files ≠ [])
    (S : String → List (Sample α)) (hf : ∀ x ∈ d.files, processData disk d x = .ok (S x)) (hS : ∀ x ∈ d.files, WholeFile x (S x))
    (order : List Nat) (ho : order.Perm (List.range d.files.length)) (orders : List (List String) → List (List String))
    (hor : ∀ ls, List.Forall₂ List.Perm (orders ls) ls) :
    ∃ fuel out, loader disk cfg d order orders fuel = .ok (out, .returned) ∧ (∀ x ∈ d.files, ofFile x out.flatten = S x) ∧ (∀ s ∈ out.flatten, s.id ∈ d.files) ∧
      ∀ b ∈ out, b ≠ [] ∧ (b.map Sample.id).Nodup := by
  obtain ⟨parts, _, h2, h3⟩ := split_ok disk d hs (max 1 cfg.numWorkers) cfg.batchSize (by omega) hb (Int.emod_eq_zero_of_dvd hdvd) cfg.shuffle false order ho
  have hpn : parts.flatten.Nodup := h2.nodup_iff.2 hn
  have hbn : 0 < cfg.batchSize / max 1 cfg.numWorkers := Int.ediv_pos_of_pos_of_dvd hb (by omega) hdvd
  obtain ⟨streams, h4, h5⟩ := iterAll_ok disk d (cfg.batchSize / max 1 cfg.numWorkers) hbn cfg.shuffle S parts (orders parts) (hor parts) hpn
    (fun x hx => hf x (h2.mem_iff.1 hx)) (fun x hx => hS x (h2.mem_iff.1 hx))
  obtain ⟨m1, m2, m3⟩ := merge_once S parts streams hpn h5
  have hfiles : (parts.map (workerDataset disk d (cfg.batchSize / max 1 cfg.numWorkers) cfg.shuffle false)).map Dataset.files = parts := by
    rw [List.map_map]
    have : (Dataset.files ∘ workerDataset disk d (cfg.batchSize / max 1 cfg.numWorkers) cfg.shuffle false) = id := by funext p; rfl
    rw [this, List.map_id]
  have hload : ∀ fuel, loader disk cfg d order orders fuel = .ok (loaderBatches cfg fuel streams) := by
    intro fuel
    unfold loader
    rw [hdrop, h3, Except.bind_ok', hfiles, h4, Except.bind_ok']
  have m1' : ∀ x ∈ d.files, ofFile x (mergeWorkers false streams).flatten = S x := fun x hx => m1 x (h2.mem_iff.2 hx)
  have m2' : ∀ s ∈ (mergeWorkers false streams).flatten, s.id ∈ d.files := fun s hs => h2.mem_iff.1 (m2 s hs)
  cases hov : cfg.overlapping
  · -- synchronised
    have hwf : WellFormed (mergeWorkers false streams) := by
      refine ⟨?_, ?_⟩
      · cases hmw : mergeWorkers false streams with
        | nil =>
          exfalso
          obtain ⟨x, hx⟩ := List.exists_mem_of_ne_nil _ hne
          have := m1' x hx
          rw [hmw] at this
          exact (hS x hx).1 this.symm
        | cons b rest =>
          have := m3 b (by rw [hmw]; simp)
          exact ⟨b, rest, rfl, this.1, this.2⟩
      · intro s hs
        rw [m1' s.id (m2' s hs)]
        exact hS s.id (m2' s hs)
    obtain ⟨fuel, out, _, _, h6, h7, h8, _⟩ := sync_spec _ hwf
    refine ⟨fuel, out, ?_, ?_, ?_, ?_⟩
    · rw [hload]
      unfold loaderBatches
      rw [hdrop, hov]
      simp only [Bool.false_eq_true, if_false]
      rw [h6]
    · intro x hx
      rw [h7, m1' x hx]
    · intro s hs
      have hm := mem_ofFile hs
      rw [h7] at hm
      exact m2' s (List.mem_filter.1 hm).1
    · intro b hb
      obtain ⟨pre, post, he⟩ := List.append_of_mem hb
      obtain ⟨h9, -, h10, -⟩ := h8 pre b post he
      exact ⟨h9, h10⟩
  · refine ⟨0, mergeWorkers false streams, ?_, m1', m2', m3⟩
    rw [hload]
    unfold loaderBatches
    rw [hdrop, hov]
    rfl

/-- C82: without `drop_last` the loader delivers every file's samples exactly once and in order and nothing else, for every number of workers that divides
the batch size, every argsort and shuffle order, with overlapping batches or without. -/
theorem C82_delivers_all (disk : Disk α) (cfg : LoaderCfg) (d : Dataset α) (hs : Splittable d) (hdrop : cfg.dropLast = false) (hb : 0 < cfg.batchSize)
    (hdvd : max 1 cfg.numWorkers ∣ cfg.batchSize) (hn : d.files.Nodup) (hne : d.files ≠ [])
    (S : String → List (Sample α)) (hf : ∀ x ∈ d.files, processData disk d x = .ok (S x)) (hS : ∀ x ∈ d.files, WholeFile x (S x))
    (order : List Nat) (ho : order.Perm (List.range d.files.length)) (orders : List (List String) → List (List String))
    (hor : ∀ ls, List.Forall₂ List.Perm (orders ls) ls) :
    ∃ fuel out, loader disk cfg d order orders fuel = .ok (out, .returned) ∧ (∀ x ∈ d.files, ofFile x out.flatten = S x) ∧ ∀ s ∈ out.flatten, s.id ∈ d.files := by
  obtain ⟨fuel, out, h1, h2, h3, -⟩ := loader_spec disk cfg d hs hdrop hb hdvd hn hne S hf hS order ho orders hor
  exact ⟨fuel, out, h1, h2, h3⟩

/-- The hypothesis of C82 that there is a file matters: with no files the synchronising loader raises RuntimeError, the overlapping one yields nothing. -/
theorem C82_no_files (disk : Disk α) (fuel : Nat) (overlapping : Bool) :
    loader disk ⟨1, 1, false, overlapping, false⟩ ⟨[], 1, none, none, 1, false, false, [], []⟩ [] id fuel =
      .ok (if overlapping then ([], .returned) else ([], .raised .runtimeError)) := by
  cases overlapping <;> rfl

-- Non-trivial case: two workers, three files.
/-- A dataset of three files of 3, 1 and 2 frames at one frame per second. -/
def exLoadDisk : Disk Nat := fun f => if f = "a" then ([1, 2, 3], 1) else if f = "b" then ([4], 1) else ([5, 6], 1)
/-- The dataset. -/
def exLoad : Dataset Nat := ⟨["a", "b", "c"], 1, none, none, 2, false, false, [("a", 3, 1), ("b", 1, 1), ("c", 2, 1)], [("a", 3), ("b", 1), ("c", 2)]⟩
example : Splittable exLoad := ⟨by decide +kernel, by decide, Or.inr (by decide)⟩
example : (loader exLoadDisk ⟨2, 2, false, false, false⟩ exLoad [1, 2, 0] id 20).map (fun r => (r.1.map fun b => b.map fun s => (s.id, s.chunkIndex), r.2)) =
    .ok ([[("b", 0), ("c", 0)], [("c", 1)], [("a", 0)], [("a", 1)], [("a", 2)]], .returned) := by decide +kernel
example : (loader exLoadDisk ⟨2, 2, false, true, false⟩ exLoad [1, 2, 0] id 0).map (fun r => (r.1.map fun b => b.map fun s => (s.id, s.chunkIndex), r.2)) =
    .ok ([[("b", 0), ("c", 0)], [("a", 0), ("c", 1)], [("a", 1)], [("a", 2)]], .returned) := by decide +kernel

/-! ## C77: drop_last with several workers -/

/-- C77 is false with two workers: the worker with more batches is cut off without an end of stream. -/
theorem C77_false : (loader exLoadDisk ⟨2, 2, false, true, true⟩ ⟨["a", "b"], 1, none, none, 2, false, true, [("a", 3, 1), ("b", 1, 1)], [("a", 3), ("b", 1)]⟩ [1, 0] id 0).map
      (fun r => r.1.map fun b => b.map fun s => (s.id, s.eos)) = .ok [[("b", true), ("a", false)]] := by decide +kernel

theorem zipShort_flatten_mem {β : Type} (ss : List (List β)) (b : β) (h : b ∈ (zipShort ss).flatten) : ∃ s ∈ ss, b ∈ s := by
  obtain ⟨l, hl, hb⟩ := List.mem_flatten.1 h
  obtain ⟨k, _, rfl⟩ := List.mem_map.1 hl
  obtain ⟨s, hs, hb⟩ := mem_layer.1 hb
  exact ⟨s, hs, List.mem_of_getElem? hb⟩

theorem zipShort_all {β : Type} (ss : List (List β)) (n : Nat) (h : ∀ s ∈ ss, s.length = n) (s : List β) (hs : s ∈ ss) (b : β) (hb : b ∈ s) : b ∈ (zipShort ss).flatten := by
  obtain ⟨k, hk, rfl⟩ := List.getElem_of_mem hb
  have hmin : minLen ss = n := by
    cases ss with
    | nil => cases hs
    | cons a as =>
      have h1 : ∀ (l : List (List β)), (∀ t ∈ l, t.length = n) → (l.map List.length).foldr min n = n := by
        intro l
        induction l with
        | nil => intro _; rfl
        | cons c cs ih =>
          intro hc
          rw [List.map_cons, List.foldr_cons, ih (fun t ht => hc t (by simp [ht])), hc c (by simp)]
          exact Nat.min_self n
      show (as.map List.length).foldr min a.length = n
      rw [h a (by simp)]
      exact h1 as fun t ht => h t (by simp [ht])
  refine List.mem_flatten.2 ⟨layer ss k, List.mem_map.2 ⟨k, List.mem_range.2 ?_, rfl⟩, mem_layer.2 ⟨s, hs, by simp [hk]⟩⟩
  rw [hmin, ← h s hs]
  exact hk

/-- C77, what holds: if every worker's stream ends all its files (C76) and all streams have the same number of batches, in particular with one worker, then every file in
the merged output is ended. Missing: workers with different numbers of batches (`C77_exact_partial`). -/
theorem C77_partial (streams : List (List (List (Sample α)))) (n : Nat) (hn : ∀ st ∈ streams, st.length = n) (he : ∀ st ∈ streams, AllEnded st.flatten) :
    AllEnded (mergeWorkers true streams).flatten := by
  have hfl : (mergeWorkers true streams).flatten = (zipShort streams).flatten.flatten := List.flatten_flatten.symm
  rw [hfl]
  intro s hs
  obtain ⟨b, hb, hs⟩ := List.mem_flatten.1 hs
  obtain ⟨st, hst, hb⟩ := zipShort_flatten_mem _ _ hb
  obtain ⟨t, ht, hid, heos⟩ := he st hst s (List.mem_flatten.2 ⟨b, hb, hs⟩)
  obtain ⟨c, hc, ht⟩ := List.mem_flatten.1 ht
  exact ⟨t, List.mem_flatten.2 ⟨c, zipShort_all streams n hn st hst c hc, ht⟩, hid, heos⟩

/-- C77 for one worker: the loader's output is the dataset's stream, in which every file is ended. Missing: several workers (`C77_false`). -/
theorem C77_one_worker_partial (f : String → Py (List (Sample α))) (S : String → List (Sample α)) (b : Nat) (order : List String)
    (hf : ∀ x ∈ order, f x = .ok (S x)) (hS : ∀ x ∈ order, WholeFile x (S x)) (bs : List (List (Sample α)))
    (h : getStreams f b true order = .ok bs) : AllEnded (mergeWorkers true [bs]).flatten :=
  C77_partial [bs] bs.length (by simp) (by
    intro st hst
    rw [List.mem_singleton.1 hst]
    exact (C76_full_and_ended f S b order hf hS bs h).2.2)

example : ∃ bs, getStreams (fun x => .ok (exFiles x)) 2 true ["c", "b", "a"] = .ok bs ∧ bs.length = 3 := ⟨_, rfl, by decide⟩

/-! ## C83: collation -/

/-- C83: collation of a non-empty batch succeeds; the rows are the samples in stable order of decreasing length; row `k` of the data is the `k`-th sample's data, padded at the end
to a common width, and row `k` of the metadata is that of the same sample. -/
theorem C83_collate (pad : α) (batch : List (Sample α)) (hne : batch ≠ []) :
    ∃ (b : List (Sample α)) (data : List (List α)) (m : Meta), collate pad batch = .ok (data, m) ∧ b.Perm batch ∧ b.Pairwise (fun x y => y.length ≤ x.length) ∧
      (∀ L : Nat, b.filter (fun s => decide (s.length = L)) = batch.filter fun s => decide (s.length = L)) ∧
      m.WF ∧ m.ids.length = b.length ∧ data.length = b.length ∧ (∃ w, ∀ r ∈ data, r.length = w) ∧
      ∀ k s, b[k]? = some s → (∃ p, data[k]? = some (s.data ++ List.replicate p pad)) ∧
        m.row k = some ⟨s.id, s.sos, s.eos, s.length, some s.chunkIndex⟩ := by
  have htot : ∀ a b : Sample α, (decide (b.length ≤ a.length) || decide (a.length ≤ b.length)) = true := by
    intro a b
    simp only [Bool.or_eq_true, decide_eq_true_eq]
    omega
  have htrans : ∀ a b c : Sample α, decide (b.length ≤ a.length) = true → decide (c.length ≤ b.length) = true → decide (c.length ≤ a.length) = true := by
    intro a b c h1 h2
    simp only [decide_eq_true_eq] at *
    omega
  have hperm : (sortByLength batch).Perm batch := List.mergeSort_perm _ _
  have hb : sortByLength batch ≠ [] := fun h => hne (List.Perm.nil_eq (h ▸ hperm.symm).symm).symm
  refine ⟨sortByLength batch, (sortByLength batch).map (fun s => s.data ++ List.replicate (maxLen ((sortByLength batch).map Sample.data) - s.data.length) pad),
    ⟨(sortByLength batch).map Sample.id, (sortByLength batch).map Sample.sos, (sortByLength batch).map Sample.eos,
      (sortByLength batch).map fun s => (s.length : Int), some ((sortByLength batch).map fun s => (s.chunkIndex : Int))⟩, ?_, hperm, ?_, ?_, ?_, ?_, ?_, ?_, ?_⟩
  · unfold collate ragged
    simp only [List.map_eq_nil_iff, hb, if_false]
    rw [Except.bind_ok']
    unfold Meta.init
    rw [if_pos (by simp), Except.bind_ok', List.map_map]
    rfl
  · have := List.pairwise_mergeSort (le := fun x y : Sample α => decide (y.length ≤ x.length)) htrans htot batch
    exact this.imp fun h => by simpa using h
  · intro L
    have hp : (batch.filter fun s => decide (s.length = L)).Pairwise fun x y => decide (y.length ≤ x.length) = true := by
      rw [List.pairwise_iff_forall_sublist]
      intro a c hac
      have ha := (List.mem_filter.1 (hac.subset (by simp : a ∈ [a, c]))).2
      have hc := (List.mem_filter.1 (hac.subset (by simp : c ∈ [a, c]))).2
      simp only [decide_eq_true_eq] at *
      omega
    have hsub : (batch.filter fun s => decide (s.length = L)).Sublist (sortByLength batch) :=
      List.sublist_mergeSort htrans htot hp List.filter_sublist
    have hsub2 : (batch.filter fun s => decide (s.length = L)).Sublist ((sortByLength batch).filter fun s => decide (s.length = L)) := by
      have := hsub.filter fun s => decide (s.length = L)
      rwa [List.filter_filter, show (fun a : Sample α => decide (a.length = L) && decide (a.length = L)) = fun a => decide (a.length = L) by funext a; simp] at this
    exact (hsub2.eq_of_length ((hperm.filter _).length_eq.symm)).symm
  · refine ⟨by simp, by simp, by simp, ?_⟩
    intro c hc
    cases hc
    simp
  · simp
  · simp
  · refine ⟨maxLen ((sortByLength batch).map Sample.data), ?_⟩
    intro r hr
    obtain ⟨s, hs, rfl⟩ := List.mem_map.1 hr
    have := le_maxLen (List.mem_map_of_mem (f := Sample.data) hs)
    simp only [List.length_append, List.length_replicate]
    omega
  · intro k s hk
    refine ⟨⟨_, by rw [List.getElem?_map, hk]; rfl⟩, ?_⟩
    unfold Meta.row
    simp [hk]

/-- Collating an empty batch raises IndexError (C83 needs a non-empty batch). -/
theorem C83_empty (pad : α) : collate pad [] = .error .indexError := by
  unfold collate sortByLength
  rw [List.mergeSort_nil]
  rfl

example : collate 0 [⟨[1], true, true, 1, 0, 1, "a"⟩, ⟨[2, 3, 4], true, false, 2, 0, 2, "b"⟩] =
    .ok ([[2, 3, 4], [1, 0, 0]], ⟨["b", "a"], [true, true], [false, true], [2, 1], some [0, 0]⟩) := by
  have : sortByLength ([⟨[1], true, true, 1, 0, 1, "a"⟩, ⟨[2, 3, 4], true, false, 2, 0, 2, "b"⟩] : List (Sample Nat)) =
      [⟨[2, 3, 4], true, false, 2, 0, 2, "b"⟩, ⟨[1], true, true, 1, 0, 1, "a"⟩] := by
    simp [sortByLength, List.mergeSort, List.MergeSort.Internal.splitInTwo, List.merge]
  unfold collate
  rw [this]
  rfl

/-! ## C84: the default collate function -/

/-- C84 is false: without `collate_fn` the local variable gets the default but `self.collate_fn` stays `None`, so the first batch raises TypeError. -/
theorem C84_false : ∃ (default : List (Sample Nat) → Py Nat) (batch : List (Sample Nat)), default batch = .ok 1 ∧ collateOf none none default batch = .error .typeError :=
  ⟨fun b => .ok b.length, [⟨[1], true, true, 1, 0, 1, "a"⟩], rfl, rfl⟩

/-- C84, what holds: a given collate function is applied to every batch; without one every batch raises. Missing: a default. -/
theorem C84_partial {β : Type} (f : List (Sample α) → Py β) (own : Option (List (Sample α) → Py β)) (default : List (Sample α) → Py β) (batch : List (Sample α)) :
    collateOf (some f) own default batch = f batch ∧ collateOf none own default batch = .error .typeError := ⟨rfl, rfl⟩

example : collateOf (some fun b => .ok (b.map Sample.id)) none (fun _ => .ok []) ([⟨[1], true, true, 1, 0, 1, "a"⟩] : List (Sample Nat)) = .ok ["a"] := by decide

/-! ## C99: worker ids -/

/-- C99: with `n ≥ 1` workers the ids passed to `worker_init_fn` are 0, …, n-1, each once; without workers it is not called. -/
theorem C99_worker_ids (n : Nat) (hn : 0 < n) : workerIds n n = List.range n ∧ (∀ i, (workerIds n n).count i = if i < n then 1 else 0) ∧ ∀ k, workerIds 0 k = [] := by
  have h : workerIds n n = List.range n := by
    unfold workerIds
    rw [if_neg (by omega)]
    simp
  refine ⟨h, ?_, fun k => rfl⟩
  intro i
  rw [h]
  by_cases hi : i < n
  · rw [if_pos hi]
    exact List.count_eq_one_of_mem List.nodup_range (List.mem_range.2 hi)
  · rw [if_neg hi]
    exact List.count_eq_zero_of_not_mem (by simpa using hi)

example : workerIds 3 3 = [0, 1, 2] := by decide

end
end DS.Data
