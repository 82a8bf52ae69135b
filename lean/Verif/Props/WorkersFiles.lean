import Verif.Props.Workers
import Verif.Props.Loader
import Verif.Model.LoaderLive
/-!
# C226 from files: the loader in any schedule of its workers
-/

namespace DS.Work

open DS.Data
open DS.LLive (gensOf)

variable {α : Type}

theorem merged_ok (drop : Bool) (ls : List (List (List (Sample α)))) :
    mergeG drop (ls.map fun l => ⟨l, none⟩) = ⟨mergeWorkers drop ls, none⟩ := by
  have hm : (ls.map fun l => (⟨l, none⟩ : Gen (List (Sample α)))).map Gen.items = ls := by
    rw [List.map_map]
    exact List.map_id' _
  unfold mergeG mergeWorkers
  cases drop with
  | false =>
    simp only [Bool.false_eq_true, if_false]
    rw [longG_ok _ (by intro g hg; obtain ⟨i, _, rfl⟩ := List.mem_map.1 hg; rfl), hm]
  | true =>
    simp only [if_true]
    cases ls with
    | nil => rfl
    | cons l ls =>
      rw [zipG_eq _ (by simp), hm]
      have : ∀ k, stopAt k ((l :: ls).map fun l => (⟨l, none⟩ : Gen (List (Sample α)))) = none := by
        intro k
        unfold stopAt
        cases hq : List.find? _ _ with
        | none => rfl
        | some g =>
          obtain ⟨i, _, rfl⟩ := List.mem_map.1 (List.mem_of_find?_eq_some hq)
          rfl
      rw [this]

theorem gensOf_ok (disk : Disk α) (ds : List (Dataset α)) (os : List (List String)) (parts : List (List (List (Sample α))))
    (hr : ∀ p ∈ ds.zip os, ∀ x ∈ p.2, readable (processData disk p.1) x = true) (hp : iterAll disk ds os = .ok parts) :
    gensOf disk ds os = parts.map fun l => ⟨l, none⟩ := by
  induction ds generalizing os parts with
  | nil =>
    simp only [iterAll, Except.ok.injEq] at hp
    subst hp
    rfl
  | cons d ds ih =>
    cases os with
    | nil =>
      simp only [iterAll, Except.ok.injEq] at hp
      subst hp
      rfl
    | cons o os =>
      unfold iterAll at hp
      cases h1 : d.iter disk o with
      | error e => rw [h1] at hp; cases hp
      | ok a =>
        rw [h1, Except.bind_ok'] at hp
        cases h2 : iterAll disk ds os with
        | error e => rw [h2] at hp; cases hp
        | ok b =>
          rw [h2, Except.bind_ok'] at hp
          cases hp
          have := ih os b (fun p hp => hr p (by simp [hp])) h2
          unfold LLive.gensOf at this ⊢
          rw [List.zipWith_cons_cons, this, C206_readable_partial _ _ _ (hr (d, o) (by simp))]
          unfold Dataset.iter at h1
          rw [h1]
          rfl

/-- **C226 (files).** If the files can be read, then, however the workers of the datasets are scheduled and however far they read ahead, an iteration that has ended has returned, and the loader yields what it yields with the datasets iterated one after
the other in the process itself (`loader`, which C75–C82, C160 and C161 are about): the parts put together, or, when batches must not overlap, what `make_streams_synchronous` makes of them. -/
theorem C226_files (disk : Disk α) (cfg : LoaderCfg) (d : Dataset α) (order : List Nat) (orders : List (List String) → List (List String)) (fuel : Nat)
    (ds : List (Dataset α)) (hs : d.split disk (max 1 cfg.numWorkers) cfg.batchSize cfg.shuffle cfg.dropLast order = .ok ds)
    (parts : List (List (List (Sample α)))) (hr : ∀ p ∈ ds.zip (orders (ds.map Dataset.files)), ∀ x ∈ p.2, readable (processData disk p.1) x = true)
    (hp : iterAll disk ds (orders (ds.map Dataset.files)) = .ok parts) (prefetch : Nat) (sched : List Act)
    (h : ((start (gensOf disk ds (orders (ds.map Dataset.files)))).run prefetch cfg.dropLast sched).main.status ≠ .running) :
    ((start (gensOf disk ds (orders (ds.map Dataset.files)))).run prefetch cfg.dropLast sched).main.status = .returned ∧
      loader disk cfg d order orders fuel =
        .ok (if cfg.overlapping then (((start (gensOf disk ds (orders (ds.map Dataset.files)))).run prefetch cfg.dropLast sched).main.out.map List.flatten, .returned)
          else sync fuel (((start (gensOf disk ds (orders (ds.map Dataset.files)))).run prefetch cfg.dropLast sched).main.out.map List.flatten)) := by
  obtain ⟨h1, h2⟩ := C226_merge _ prefetch cfg.dropLast sched h
  rw [← h1, ← h2, gensOf_ok disk ds _ parts hr hp, merged_ok]
  refine ⟨rfl, ?_⟩
  unfold loader
  rw [hs, Except.bind_ok', hp, Except.bind_ok']
  rfl

/-- **C226 (delivers).** Without `drop_last`, for distinct files that can be read and are cut into chunks as `S` says, any number of workers that divides the batch size, any queue size, any orders of the files and any schedule: an iteration whose workers
have ended has returned, and the batches that the loader yields hold every chunk of every file exactly once and in order, and nothing else; no batch is empty or has two chunks of one file. -/
theorem C226_delivers (disk : Disk α) (cfg : LoaderCfg) (d : Dataset α) (hs : Splittable d) (hdrop : cfg.dropLast = false) (hb : 0 < cfg.batchSize)
    (hdvd : max 1 cfg.numWorkers ∣ cfg.batchSize) (hn : d.files.Nodup) (hne : d.files ≠ [])
    (S : String → List (Sample α)) (hf : ∀ x ∈ d.files, processData disk d x = .ok (S x)) (hS : ∀ x ∈ d.files, WholeFile x (S x))
    (order : List Nat) (ho : order.Perm (List.range d.files.length)) (orders : List (List String) → List (List String)) (hor : ∀ ls, List.Forall₂ List.Perm (orders ls) ls) :
    ∃ ds, d.split disk (max 1 cfg.numWorkers) cfg.batchSize cfg.shuffle cfg.dropLast order = .ok ds ∧
      ∃ fuel out, (∀ x ∈ d.files, ofFile x out.flatten = S x) ∧ (∀ s ∈ out.flatten, s.id ∈ d.files) ∧ (∀ b ∈ out, b ≠ [] ∧ (b.map Sample.id).Nodup) ∧
        ∀ (prefetch : Nat) (sched : List Act), ((start (gensOf disk ds (orders (ds.map Dataset.files)))).run prefetch false sched).main.status ≠ .running →
          ((start (gensOf disk ds (orders (ds.map Dataset.files)))).run prefetch false sched).main.status = .returned ∧
          (if cfg.overlapping then (((start (gensOf disk ds (orders (ds.map Dataset.files)))).run prefetch false sched).main.out.map List.flatten, .returned)
            else sync fuel (((start (gensOf disk ds (orders (ds.map Dataset.files)))).run prefetch false sched).main.out.map List.flatten)) = (out, .returned) := by
  obtain ⟨parts, _, h2, h3⟩ := split_ok disk d hs (max 1 cfg.numWorkers) cfg.batchSize (by omega) hb (Int.emod_eq_zero_of_dvd hdvd) cfg.shuffle cfg.dropLast order ho
  obtain ⟨fuel, out, l1, l2, l3, l4⟩ := loader_spec disk cfg d hs hdrop hb hdvd hn hne S hf hS order ho orders hor
  refine ⟨_, h3, fuel, out, l2, l3, l4, ?_⟩
  intro prefetch sched h
  have hfiles : (parts.map (workerDataset disk d (cfg.batchSize / max 1 cfg.numWorkers) cfg.shuffle cfg.dropLast)).map Dataset.files = parts := by
    rw [List.map_map]
    have : (Dataset.files ∘ workerDataset disk d (cfg.batchSize / max 1 cfg.numWorkers) cfg.shuffle cfg.dropLast) = id := by funext p; rfl
    rw [this, List.map_id]
  have hread : ∀ p ∈ (parts.map (workerDataset disk d (cfg.batchSize / max 1 cfg.numWorkers) cfg.shuffle cfg.dropLast)).zip
      (orders ((parts.map (workerDataset disk d (cfg.batchSize / max 1 cfg.numWorkers) cfg.shuffle cfg.dropLast)).map Dataset.files)),
      ∀ x ∈ p.2, readable (processData disk p.1) x = true := by
    rw [hfiles]
    have key : ∀ (os ps : List (List String)), List.Forall₂ List.Perm os ps → (∀ x ∈ ps.flatten, x ∈ d.files) →
        ∀ p ∈ (ps.map (workerDataset disk d (cfg.batchSize / max 1 cfg.numWorkers) cfg.shuffle cfg.dropLast)).zip os, ∀ x ∈ p.2, readable (processData disk p.1) x = true := by
      intro os ps hop
      induction hop with
      | nil => simp
      | @cons o q os ps h1 _ ih =>
        intro hm p hp x hx
        rw [List.map_cons, List.zip_cons_cons, List.mem_cons] at hp
        rcases hp with rfl | hp
        · have hxq : x ∈ d.files := hm x (by rw [List.flatten_cons]; exact List.mem_append_left _ (h1.mem_iff.1 hx))
          unfold readable
          rw [processData_congr disk d (workerDataset disk d _ _ _ q) rfl rfl x, hf x hxq]
        · exact ih (fun y hy => hm y (by rw [List.flatten_cons]; exact List.mem_append_right _ hy)) p hp x hx
    exact key _ _ (hor parts) fun x hx => h2.mem_iff.1 hx
  cases hp : iterAll disk (parts.map (workerDataset disk d (cfg.batchSize / max 1 cfg.numWorkers) cfg.shuffle cfg.dropLast))
      (orders ((parts.map (workerDataset disk d (cfg.batchSize / max 1 cfg.numWorkers) cfg.shuffle cfg.dropLast)).map Dataset.files)) with
  | error e =>
    unfold loader at l1
    rw [h3, Except.bind_ok', hp] at l1
    cases l1
  | ok streams =>
    rw [← hdrop] at h ⊢
    obtain ⟨r1, r2⟩ := C226_files disk cfg d order orders fuel _ h3 streams hread hp prefetch sched h
    rw [l1] at r2
    exact ⟨r1, (Except.ok.inj r2).symm⟩

/-- The datasets of two workers: two files and one. -/
def exParts : List (Dataset Nat) := ((exLoad.split exLoadDisk 2 2 false false [1, 2, 0]).toOption).getD []

-- the second worker is faster
example : exParts.map Dataset.files = [["b", "a"], ["c"]] ∧ (exLoad.split exLoadDisk 2 2 false false [1, 2, 0]).isOk = true ∧
    (∀ p ∈ exParts.zip (exParts.map Dataset.files), ∀ x ∈ p.2, readable (processData exLoadDisk p.1) x = true) ∧
    (iterAll exLoadDisk exParts (exParts.map Dataset.files)).isOk = true ∧
    ((start (gensOf exLoadDisk exParts (exParts.map Dataset.files))).run 2 false (List.replicate 5 (.work 1) ++ (List.replicate 12 [.main, .work 0, .main, .main, .work 1]).flatten)).main.status = .returned ∧
    ((start (gensOf exLoadDisk exParts (exParts.map Dataset.files))).run 2 false (List.replicate 5 (.work 1) ++ (List.replicate 12 [.main, .work 0, .main, .main, .work 1]).flatten)).main.out.length = 4 := by
  decide +kernel

-- the hypotheses of C226_delivers
example : Splittable exLoad ∧ max 1 2 ∣ 2 ∧ exLoad.files.Nodup ∧ exLoad.files ≠ [] ∧ [1, 2, 0].Perm (List.range exLoad.files.length) ∧
    (∀ x ∈ exLoad.files, (processData exLoadDisk exLoad x).isOk = true ∧ WholeFile x ((processData exLoadDisk exLoad x).toOption.getD [])) := by
  refine ⟨⟨by decide +kernel, by decide, Or.inr (by decide)⟩, by decide, by decide, by decide, by decide, ?_⟩
  intro x hx
  have hx : x = "a" ∨ x = "b" ∨ x = "c" := by simpa [exLoad] using hx
  have key : ∀ x ∈ ["a", "b", "c"], (processData exLoadDisk exLoad x).isOk = true ∧ (processData exLoadDisk exLoad x).toOption.getD [] ≠ [] ∧
      ∀ k < ((processData exLoadDisk exLoad x).toOption.getD []).length, ∀ s ∈ ((processData exLoadDisk exLoad x).toOption.getD [])[k]?,
        s.id = x ∧ (s.sos = true ↔ k = 0) ∧ (s.eos = true ↔ k + 1 = ((processData exLoadDisk exLoad x).toOption.getD []).length) := by decide +kernel
  obtain ⟨k1, k2, k3⟩ := key x (by simpa using hx)
  exact ⟨k1, k2, fun k s h => k3 k (List.getElem?_eq_some_iff.1 h).1 s h⟩

end DS.Work
