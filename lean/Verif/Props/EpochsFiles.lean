import Verif.Props.EpochsStack
import Verif.Props.FilesCollect
/-! C229 for a loader: the loop `for epoch in …: for batch in loader: model(batch)`. -/

namespace DS.Data
open Conv
section
variable {α : Type} [Zero α]

/-- One pass over one-chunk files: what `C161_stack_partial` says, and that every row of every batch is a whole sequence. -/
theorem pass_spec (disk : Disk α) (cfg : LoaderCfg) (d : Dataset α) (hs : Splittable d) (hdrop : cfg.dropLast = false) (hb : 0 < cfg.batchSize)
    (hdvd : max 1 cfg.numWorkers ∣ cfg.batchSize) (hn : d.files.Nodup) (hne : d.files ≠ [])
    (audio : String → List α) (size : String → Nat) (hL : ∀ f ∈ d.files, audio f ≠ []) (hsize : ∀ f ∈ d.files, 0 < size f)
    (hf : ∀ f ∈ d.files, processData disk d f = chunkSamples (size f : Int) f (audio f)) (hone : ∀ f ∈ d.files, (audio f).length ≤ size f)
    (order : List Nat) (ho : order.Perm (List.range d.files.length)) (orders : List (List String) → List (List String))
    (hor : ∀ ls, List.Forall₂ List.Perm (orders ls) ls)
    (ls : List (Layer α)) (hl : StackOK true ls) (hov : Overlapping ls) (hfit : ∀ f ∈ d.files, need ls ≤ (audio f).length) :
    ∃ fuel out xs ys, loader disk cfg d order orders fuel = .ok (out, .returned) ∧ collateAll out = .ok xs ∧ chainRun (fresh ls) xs = .ok (ys, fresh ls) ∧
      ∀ f ∈ d.files, collected f ys = offlineChain ls (audio f) := by
  obtain ⟨fuel, out, xs, h1, h2, -, h4⟩ := stream_spec disk cfg d hs hdrop hb hdvd hn hne audio size hL hsize hf order ho orders hor
  obtain ⟨hsch, k1, k2, -⟩ := h4 hone
  have hmem : ∀ x ∈ xs, ∀ u ∈ unpack x, u.id ∈ d.files ∧ u.sos = true ∧ u.eos = true ∧ u.frames = audio u.id := by
    intro x hx u hu
    have hmem : u ∈ Conv.chunksOf u.id (xs.map unpack) := List.mem_filter.2 ⟨List.mem_flatten.2 ⟨_, List.mem_map_of_mem hx, hu⟩, by simp⟩
    by_cases hm : u.id ∈ d.files
    · obtain ⟨k, hk⟩ := k1 _ hm
      rw [hk, List.mem_singleton] at hmem
      exact ⟨hm, by rw [hmem], by rw [hmem], congrArg Chunk.frames hmem⟩
    · rw [k2 _ hm] at hmem
      cases hmem
  have hu : ∀ x ∈ xs, ∀ u ∈ unpack x, atLeast (need ls) (jump ls) (rest ls) u ≤ u.frames.length := by
    intro x hx u hu
    obtain ⟨a1, a2, -, a4⟩ := hmem x hx u hu
    unfold atLeast
    rw [if_pos a2, a4]
    exact hfit _ a1
  obtain ⟨ys, t, r1, -, r3⟩ := C114_total_stride ls hl hov xs hsch hu
  have hlin : ∀ x ∈ xs, x.md.WF ∧ x.rows.length = x.md.ids.length := by
    intro x hx
    obtain ⟨⟨p1, p2, -, -, p5⟩, -⟩ := hsch.1 x hx
    refine ⟨p1, ?_⟩
    have e1 := congrArg List.length p5
    have e2 := congrArg List.length p2
    rw [List.length_map] at e1 e2
    rw [e1, ← e2, Meta.ids_rows x.md p1, List.length_map]
  have hcol : ∀ x ∈ xs, (∀ s ∈ x.md.sos, s = true) ∧ ∀ e ∈ x.md.eos, e = true := by
    intro x hx
    obtain ⟨⟨p1, p2, -⟩, -⟩ := hsch.1 x hx
    rw [Meta.sos_rows x.md p1, Meta.eos_rows x.md p1, p2]
    constructor <;>
    · intro s hs
      simp only [List.map_map, List.mem_map, Function.comp_apply] at hs
      obtain ⟨u, hu, rfl⟩ := hs
      first | exact (hmem x hx u hu).2.1 | exact (hmem x hx u hu).2.2.1
  have ht : t = fresh ls := C229_again_partial ls xs hlin (ready_starting ls xs fun x hx => (hcol x hx).1)
    (finished_whole xs fun x hx => ⟨(hlin x hx).1, (hcol x hx).2⟩) ys t r1
  subst ht
  refine ⟨fuel, out, xs, ys, h1, h2, r1, ?_⟩
  intro f hm
  obtain ⟨k, hk⟩ := k1 f hm
  rw [r3 f]
  · unfold collected
    rw [hk]
    simp [allFrames]
  · rw [hk]
    refine ⟨by simp, ?_, ?_⟩ <;>
    · intro j y hy
      rw [List.getElem?_singleton] at hy
      split at hy
      · cases hy; simp_all
      · cases hy

/-- **C229** for a loader. Files of one chunk each, without drop_last, any workers, and any number of epochs, each with an order of its own (`shuffle`): a patched stack as in C114 that is called on every batch of every epoch never
raises, gives in every epoch for every file the output of the ordinary stack on the whole file, and holds no buffers at the end. Missing: files of several chunks, which the loader does not deliver right even in one epoch (`C161_stream_false`); for one convolution see `C229_convolution`. -/
theorem C229_loader_partial (disk : Disk α) (cfg : LoaderCfg) (d : Dataset α) (hs : Splittable d) (hdrop : cfg.dropLast = false) (hb : 0 < cfg.batchSize)
    (hdvd : max 1 cfg.numWorkers ∣ cfg.batchSize) (hn : d.files.Nodup) (hne : d.files ≠ [])
    (audio : String → List α) (size : String → Nat) (hL : ∀ f ∈ d.files, audio f ≠ []) (hsize : ∀ f ∈ d.files, 0 < size f)
    (hf : ∀ f ∈ d.files, processData disk d f = chunkSamples (size f : Int) f (audio f)) (hone : ∀ f ∈ d.files, (audio f).length ≤ size f)
    (ls : List (Layer α)) (hl : StackOK true ls) (hov : Overlapping ls) (hfit : ∀ f ∈ d.files, need ls ≤ (audio f).length)
    (shuffles : List (List Nat × (List (List String) → List (List String))))
    (hsh : ∀ o ∈ shuffles, o.1.Perm (List.range d.files.length) ∧ ∀ ls, List.Forall₂ List.Perm (o.2 ls) ls) :
    ∃ (epochs results : List (List (ST α))),
      List.Forall₂ (fun o xs => ∃ fuel out, loader disk cfg d o.1 o.2 fuel = .ok (out, .returned) ∧ collateAll out = .ok xs) shuffles epochs ∧
      chainRun (fresh ls) epochs.flatten = .ok (results.flatten, fresh ls) ∧
      List.Forall₂ (fun xs ys => ys.length = xs.length ∧ ∀ f ∈ d.files, collected f ys = offlineChain ls (audio f)) epochs results := by
  induction shuffles with
  | nil => exact ⟨[], [], .nil, rfl, .nil⟩
  | cons o os ih =>
    obtain ⟨es, rs, i1, i2, i3⟩ := ih fun q hq => hsh q (by simp [hq])
    obtain ⟨fuel, out, xs, ys, h1, h2, h3, h4⟩ := pass_spec disk cfg d hs hdrop hb hdvd hn hne audio size hL hsize hf hone o.1 (hsh o (by simp)).1 o.2 (hsh o (by simp)).2 ls hl hov hfit
    refine ⟨xs :: es, ys :: rs, .cons ⟨fuel, out, h1, h2⟩ i1, ?_, .cons ⟨chainRun_length h3, h4⟩ i3⟩
    rw [List.flatten_cons, List.flatten_cons, chainRun_two, h3]
    simp only [Except.bind, i2, map_ok']

-- The conditions on files and layers are those of `C161_stack_partial` (example there); two epochs in different orders.
example : ∀ o ∈ [([0, 1, 2], (id : List (List String) → List (List String))), ([2, 0, 1], id)], o.1.Perm (List.range exLong.files.length) ∧ ∀ ls, List.Forall₂ List.Perm (o.2 ls) ls := by
  intro o ho
  simp only [List.mem_cons, List.not_mem_nil, or_false] at ho
  rcases ho with rfl | rfl <;> exact ⟨by decide, fun ls => List.forall₂_same.2 fun _ _ => List.Perm.refl _⟩

end
end DS.Data
