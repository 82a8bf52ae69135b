import Verif.Props.LoaderLive
import Verif.Props.WorkersFiles
/-!
# C228 from files: an iterator gives the batches of the loader
-/

namespace DS.LLive

open DS.Data
open DS.Work (merged_ok gensOf_ok)

variable {α γ : Type}

theorem forall2_self (ls : List (List String)) : List.Forall₂ List.Perm ls ls := by
  induction ls with
  | nil => exact .nil
  | cons l ls ih => exact .cons (List.Perm.refl l) ih

/-- The orders of the files of all workers: the given ones if the loader shuffles, else the lists themselves. -/
theorem ordersOf_workers (disk : Disk α) (d : Dataset α) (bs : Int) (shuffle dropLast : Bool) (ps os : List (List String)) (h : os.length = ps.length) :
    ordersOf (ps.map (workerDataset disk d bs shuffle dropLast)) os = if shuffle then os else ps := by
  unfold ordersOf
  induction ps generalizing os with
  | nil =>
    cases os with
    | nil => cases shuffle <;> rfl
    | cons o os => simp at h
  | cons p ps ih =>
    cases os with
    | nil => simp at h
    | cons o os =>
      rw [List.map_cons, List.zipWith_cons_cons, ih os (by simpa using h)]
      cases shuffle <;> rfl

theorem workers_readable (disk : Disk α) (d : Dataset α) (bs : Int) (shuffle dropLast : Bool) (hr : ∀ x ∈ d.files, readable (processData disk d) x = true) (os ps : List (List String))
    (h : List.Forall₂ List.Perm os ps) (hm : ∀ x ∈ ps.flatten, x ∈ d.files) :
    ∀ p ∈ (ps.map (workerDataset disk d bs shuffle dropLast)).zip os, ∀ x ∈ p.2, readable (processData disk p.1) x = true := by
  induction h with
  | nil => simp
  | @cons o q os ps h1 _ ih =>
    intro p hp x hx
    rw [List.map_cons, List.zip_cons_cons, List.mem_cons] at hp
    rcases hp with rfl | hp
    · have := hr x (hm x (by rw [List.flatten_cons]; exact List.mem_append_left _ (h1.mem_iff.1 hx)))
      unfold readable at this ⊢
      rw [processData_congr disk d (workerDataset disk d _ _ _ q) rfl rfl x]
      exact this
    · exact ih (fun y hy => hm y (by rw [List.flatten_cons]; exact List.mem_append_right _ hy)) p hp x hx

/-- The batches of an iterator are those of the loader that iterates its datasets one after the other. -/
theorem batches_loader (disk : Disk α) (fuel : Nat) (o : Obj α γ) (c : Choice) (hs : Splittable o.ds) (hb : 0 < o.cfg.batchSize) (hdvd : max 1 o.cfg.numWorkers ∣ o.cfg.batchSize)
    (hr : ∀ x ∈ o.ds.files, readable (processData disk o.ds) x = true) (ho : c.order.Perm (List.range o.ds.files.length)) (hor : ∀ ls, List.Forall₂ List.Perm (c.orders ls) ls)
    (r : List (List (Sample α)) × Ended) (hl : loader disk o.cfg o.ds c.order (fun ls => if o.cfg.shuffle then c.orders ls else ls) fuel = .ok r) :
    batches disk fuel o c = .ok r := by
  obtain ⟨parts, _, h2, h3⟩ := split_ok disk o.ds hs (max 1 o.cfg.numWorkers) o.cfg.batchSize (by omega) hb (Int.emod_eq_zero_of_dvd hdvd) o.cfg.shuffle o.cfg.dropLast c.order ho
  have hfiles : (parts.map (workerDataset disk o.ds (o.cfg.batchSize / max 1 o.cfg.numWorkers) o.cfg.shuffle o.cfg.dropLast)).map Dataset.files = parts := by
    rw [List.map_map]
    have : (Dataset.files ∘ workerDataset disk o.ds (o.cfg.batchSize / max 1 o.cfg.numWorkers) o.cfg.shuffle o.cfg.dropLast) = id := by funext p; rfl
    rw [this, List.map_id]
  have hperm : List.Forall₂ List.Perm (if o.cfg.shuffle then c.orders parts else parts) parts := by
    cases o.cfg.shuffle with
    | true => exact hor parts
    | false => exact forall2_self parts
  unfold loader at hl
  rw [h3, Except.bind_ok', hfiles] at hl
  dsimp only at hl
  unfold batches
  rw [h3, Except.bind_ok', hfiles, ordersOf_workers _ _ _ _ _ _ _ (hor parts).length_eq]
  cases hp : iterAll disk (parts.map (workerDataset disk o.ds (o.cfg.batchSize / max 1 o.cfg.numWorkers) o.cfg.shuffle o.cfg.dropLast)) (if o.cfg.shuffle then c.orders parts else parts) with
  | error e => rw [hp] at hl; cases hl
  | ok streams =>
    rw [hp, Except.bind_ok'] at hl
    rw [gensOf_ok disk _ _ streams (workers_readable disk o.ds _ _ _ hr _ _ hperm fun x hx => h2.mem_iff.1 hx) hp, ← hl]
    unfold loaderG loaderBatches
    rw [merged_ok]
    dsimp only
    rw [C206_synchronous_readable_partial]

/-- **C228 (files).** If the files can be read, an iterator of a loader gives, whatever a program does with it, with other iterators and with the loader after the first call of `next`, what a loader that iterates its datasets one after the other in the
process itself (`loader`, which C75–C82, C160 and C161 are about) yields with the options and the dataset of that first call. Missing: as in `C228_started_partial`. -/
theorem C228_loader_partial (disk : Disk α) (fuel : Nat) (w : World α γ) (before after : List (Act α γ)) (c : Choice) (hbf : ∀ a ∈ before, Untouched w.its.length a) (o : Obj α γ) (hobj : o = objAfter w.obj before)
    (hs : Splittable o.ds) (hb : 0 < o.cfg.batchSize) (hdvd : max 1 o.cfg.numWorkers ∣ o.cfg.batchSize)
    (hr : ∀ x ∈ o.ds.files, readable (processData disk o.ds) x = true) (ho : c.order.Perm (List.range o.ds.files.length)) (hor : ∀ ls, List.Forall₂ List.Perm (c.orders ls) ls)
    (bs : List (List (Sample α))) (fin : Ended) (hl : loader disk o.cfg o.ds c.order (fun ls => if o.cfg.shuffle then c.orders ls else ls) fuel = .ok (bs, fin)) :
    resultsOf w.its.length (w.run disk fuel (.iter :: before ++ .next w.its.length c :: after)).2 = collated bs fin (o.collate :: (objsAt w.its.length o after).map Obj.collate) :=
  (C228_started_partial disk fuel w before after c hbf o hobj).1 bs fin (batches_loader disk fuel o c hs hb hdvd hr ho hor (bs, fin) hl)

/-- C228, everything is delivered: without `drop_last`, for distinct files that can be read and are cut into chunks as `S` says, the results of an iterator are batches that hold every chunk of every file exactly once and in order, collated, and then
StopIteration. Missing: as in `C228_started_partial`. -/
theorem C228_delivers_partial (disk : Disk α) (w : World α γ) (before : List (Act α γ)) (c : Choice) (hbf : ∀ a ∈ before, Untouched w.its.length a) (o : Obj α γ) (hobj : o = objAfter w.obj before)
    (hs : Splittable o.ds) (hdrop : o.cfg.dropLast = false) (hb : 0 < o.cfg.batchSize) (hdvd : max 1 o.cfg.numWorkers ∣ o.cfg.batchSize) (hn : o.ds.files.Nodup) (hne : o.ds.files ≠ [])
    (S : String → List (Sample α)) (hf : ∀ x ∈ o.ds.files, processData disk o.ds x = .ok (S x)) (hS : ∀ x ∈ o.ds.files, WholeFile x (S x))
    (ho : c.order.Perm (List.range o.ds.files.length)) (hor : ∀ ls, List.Forall₂ List.Perm (c.orders ls) ls) :
    ∃ fuel out, (∀ x ∈ o.ds.files, ofFile x out.flatten = S x) ∧ (∀ s ∈ out.flatten, s.id ∈ o.ds.files) ∧ (∀ b ∈ out, b ≠ [] ∧ (b.map Sample.id).Nodup) ∧
      ∀ after : List (Act α γ), resultsOf w.its.length (w.run disk fuel (.iter :: before ++ .next w.its.length c :: after)).2 = collated out .returned (o.collate :: (objsAt w.its.length o after).map Obj.collate) := by
  obtain ⟨fuel, out, l1, l2, l3, l4⟩ := loader_spec disk o.cfg o.ds hs hdrop hb hdvd hn hne S hf hS c.order ho (fun ls => if o.cfg.shuffle then c.orders ls else ls) (by
    intro ls
    cases o.cfg.shuffle with
    | true => exact hor ls
    | false => exact forall2_self ls)
  refine ⟨fuel, out, l2, l3, l4, fun after => ?_⟩
  refine C228_loader_partial disk fuel w before after c hbf o hobj hs hb hdvd ?_ ho hor out .returned l1
  intro x hx
  unfold readable
  rw [hf x hx]

-- the dataset says otherwise than the loader about shuffling and the last batches, and only the loader counts
def exStubborn : Obj Nat (List (String × Nat)) := { exObj with ds := { exLoad with shuffle := true, dropLast := true } }
def exReverse : Choice := ⟨[1, 2, 0], fun ls => ls.map List.reverse⟩

example : resultsOf 0 (World.run exLoadDisk 20 ⟨exStubborn, []⟩ (.iter :: [] ++ .next 0 exReverse :: List.replicate 4 (.next 0 exReverse))).2 =
      [.batch [("b", 0), ("c", 0)], .batch [("a", 0), ("c", 1)], .batch [("a", 1)], .batch [("a", 2)], .stop] ∧
    resultsOf 0 (World.run exLoadDisk 20 ⟨{ exStubborn with cfg := { exStubborn.cfg with shuffle := true } }, []⟩ (.iter :: [] ++ .next 0 exReverse :: List.replicate 4 (.next 0 exReverse))).2 =
      [.batch [("a", 0), ("c", 0)], .batch [("a", 1), ("c", 1)], .batch [("a", 2)], .batch [("b", 0)], .stop] := by decide +kernel

-- the hypotheses
example : Splittable exStubborn.ds ∧ max 1 2 ∣ 2 ∧ exStubborn.ds.files.Nodup ∧ exReverse.order.Perm (List.range exStubborn.ds.files.length) ∧
    (∀ x ∈ exStubborn.ds.files, readable (processData exLoadDisk exStubborn.ds) x = true) ∧
    (loader exLoadDisk exStubborn.cfg exStubborn.ds exReverse.order (fun ls => if exStubborn.cfg.shuffle then exReverse.orders ls else ls) 20).isOk = true := by
  refine ⟨⟨by decide +kernel, by decide, Or.inr (by decide)⟩, by decide, by decide, by decide, by decide +kernel, by decide +kernel⟩
example (ls : List (List String)) : List.Forall₂ List.Perm (exReverse.orders ls) ls := by
  show List.Forall₂ List.Perm (ls.map List.reverse) ls
  induction ls with
  | nil => exact .nil
  | cons l ls ih => exact .cons (List.reverse_perm l) ih

end DS.LLive
