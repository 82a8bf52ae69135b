import Verif.Props.EpochsFiles
import Verif.Props.EpochsStack
import Verif.Props.FromFiles2
/-! C229 for a loader of files of several chunks and one convolution. -/

namespace DS.Data
open Conv
section
variable {α : Type} [Zero α]

/-- One pass over files of any number of chunks: the batches are lined up, no chunk is empty, every stream ends. -/
theorem pass_chunks (disk : Disk α) (cfg : LoaderCfg) (d : Dataset α) (hs : Splittable d) (hdrop : cfg.dropLast = false) (hb : 0 < cfg.batchSize)
    (hdvd : max 1 cfg.numWorkers ∣ cfg.batchSize) (hn : d.files.Nodup) (hne : d.files ≠ [])
    (S : String → List (Sample α)) (hf : ∀ x ∈ d.files, processData disk d x = .ok (S x)) (hS : ∀ x ∈ d.files, WholeFile x (S x))
    (hlen : ∀ x ∈ d.files, ∀ s ∈ S x, 0 < s.length ∧ s.length ≤ s.data.length)
    (order : List Nat) (ho : order.Perm (List.range d.files.length)) (orders : List (List String) → List (List String))
    (hor : ∀ ls, List.Forall₂ List.Perm (orders ls) ls) :
    ∃ fuel out xs, loader disk cfg d order orders fuel = .ok (out, .returned) ∧ collateAll out = .ok xs ∧
      (∀ x ∈ xs, x.md.WF ∧ x.rows.length = x.md.ids.length) ∧ (∀ x ∈ xs, Keeps x) ∧ Finished xs := by
  obtain ⟨fuel, out, xs, h1, h2, h3, h4, h5, h6, h7⟩ := schedule_spec disk cfg d hs hdrop hb hdvd hn hne S hf hS hlen order ho orders hor
  have hlin : ∀ x ∈ xs, Lined x := by
    intro x hx
    obtain ⟨b, hb, hc⟩ := collateAll_mem h2 x hx
    obtain ⟨g1, g2⟩ := h7 b hb
    have := shaped_collateST b g1 (fun s hs => (hlen s.id (g2 s hs).1 s (g2 s hs).2).2) x hc
    exact ⟨this.1, this.2.1⟩
  refine ⟨fuel, out, xs, h1, h2, hlin, ?_, ?_⟩
  · intro x hx
    refine .inr (.inr fun r hr _ => ?_)
    obtain ⟨c, hc, -, -, c3⟩ := row_unpacked x (hlin x hx) r hr
    exact c3 ((h4 x hx).2 c hc)
  · refine finished_last xs hlin fun i c hc => ?_
    by_cases hm : i ∈ d.files
    · exact last_complete _ (h5 i hm).1 c hc
    · rw [h6 i hm] at hc
      cases hc

/-- **C229** for a loader and one patched convolution (or activation): files of any numbers of chunks, of at least one frame each, without drop_last, any workers, any number of epochs in orders of their own. The loader yields all batches of every epoch; over all epochs
the convolution gives what a fresh one gives in every epoch, and it raises if and only if a fresh one does, with the same exception; if it does not, it holds nothing at the end of an epoch. -/
theorem C229_convolution (disk : Disk α) (cfg : LoaderCfg) (d : Dataset α) (hs : Splittable d) (hdrop : cfg.dropLast = false) (hb : 0 < cfg.batchSize)
    (hdvd : max 1 cfg.numWorkers ∣ cfg.batchSize) (hn : d.files.Nodup) (hne : d.files ≠ [])
    (S : String → List (Sample α)) (hf : ∀ x ∈ d.files, processData disk d x = .ok (S x)) (hS : ∀ x ∈ d.files, WholeFile x (S x))
    (hlen : ∀ x ∈ d.files, ∀ s ∈ S x, 0 < s.length ∧ s.length ≤ s.data.length) (l : Layer α)
    (shuffles : List (List Nat × (List (List String) → List (List String))))
    (hsh : ∀ o ∈ shuffles, o.1.Perm (List.range d.files.length) ∧ ∀ ls, List.Forall₂ List.Perm (o.2 ls) ls) :
    ∃ epochs : List (List (ST α)),
      List.Forall₂ (fun o xs => ∃ fuel out, loader disk cfg d o.1 o.2 fuel = .ok (out, .returned) ∧ collateAll out = .ok xs) shuffles epochs ∧
      (chainRun (fresh [l]) epochs.flatten).map (·.1) = (epochs.mapM fun xs => (chainRun (fresh [l]) xs).map (·.1)).map List.flatten ∧
      ∀ xs ∈ epochs, ∀ zs t, chainRun (fresh [l]) xs = .ok (zs, t) → t = fresh [l] := by
  have key : ∃ epochs : List (List (ST α)),
      List.Forall₂ (fun o xs => ∃ fuel out, loader disk cfg d o.1 o.2 fuel = .ok (out, .returned) ∧ collateAll out = .ok xs) shuffles epochs ∧
      ∀ xs ∈ epochs, (∀ x ∈ xs, x.md.WF ∧ x.rows.length = x.md.ids.length) ∧ Ready [l] xs ∧ Finished xs := by
    induction shuffles with
    | nil => exact ⟨[], .nil, by simp⟩
    | cons o os ih =>
      obtain ⟨es, i1, i2⟩ := ih fun q hq => hsh q (by simp [hq])
      obtain ⟨fuel, out, xs, h1, h2, h3, h4, h5⟩ := pass_chunks disk cfg d hs hdrop hb hdvd hn hne S hf hS hlen o.1 (hsh o (by simp)).1 o.2 (hsh o (by simp)).2
      refine ⟨xs :: es, .cons ⟨fuel, out, h1, h2⟩ i1, ?_⟩
      intro z hz
      rcases List.mem_cons.1 hz with rfl | hz
      · exact ⟨h3, ⟨h4, fun _ _ _ => trivial⟩, h5⟩
      · exact i2 z hz
  obtain ⟨es, k1, k2⟩ := key
  refine ⟨es, k1, C229_epochs_partial [l] es k2, ?_⟩
  intro xs hx zs t h
  obtain ⟨a, b, c⟩ := k2 xs hx
  exact C229_again_partial [l] xs a b c zs t h

end

-- The files of C82 cut into chunks of one frame: three, one and two chunks; two epochs in different orders.
example : Splittable exLoad ∧ max 1 2 ∣ 2 ∧ exLoad.files.Nodup ∧ exLoad.files ≠ [] ∧
    (∀ x ∈ exLoad.files, (processData exLoadDisk exLoad x).isOk = true ∧ WholeFile x ((processData exLoadDisk exLoad x).toOption.getD []) ∧
      ∀ s ∈ (processData exLoadDisk exLoad x).toOption.getD [], 0 < s.length ∧ s.length ≤ s.data.length) ∧
    exLoad.files.map (fun x => ((processData exLoadDisk exLoad x).toOption.getD []).length) = [3, 1, 2] ∧
    ∀ o ∈ [([1, 2, 0], (id : List (List String) → List (List String))), ([0, 2, 1], id)], o.1.Perm (List.range exLoad.files.length) ∧ ∀ ls, List.Forall₂ List.Perm (o.2 ls) ls := by
  refine ⟨⟨by decide +kernel, by decide, Or.inr (by decide)⟩, by decide, by decide, by decide, ?_, by decide +kernel, ?_⟩
  · intro x hx
    have hx : x = "a" ∨ x = "b" ∨ x = "c" := by simpa [exLoad] using hx
    have key : ∀ x ∈ ["a", "b", "c"], (processData exLoadDisk exLoad x).isOk = true ∧ (processData exLoadDisk exLoad x).toOption.getD [] ≠ [] ∧
        (∀ k < ((processData exLoadDisk exLoad x).toOption.getD []).length, ∀ s ∈ ((processData exLoadDisk exLoad x).toOption.getD [])[k]?,
          s.id = x ∧ (s.sos = true ↔ k = 0) ∧ (s.eos = true ↔ k + 1 = ((processData exLoadDisk exLoad x).toOption.getD []).length)) ∧
        ∀ s ∈ (processData exLoadDisk exLoad x).toOption.getD [], 0 < s.length ∧ s.length ≤ s.data.length := by decide +kernel
    obtain ⟨k1, k2, k3, k4⟩ := key x (by simpa using hx)
    exact ⟨k1, ⟨k2, fun k s h => k3 k (List.getElem?_eq_some_iff.1 h).1 s h⟩, k4⟩
  · intro o ho
    simp only [List.mem_cons, List.not_mem_nil, or_false] at ho
    rcases ho with rfl | rfl <;> exact ⟨by decide, fun ls => List.forall₂_same.2 fun _ _ => List.Perm.refl _⟩

end DS.Data
