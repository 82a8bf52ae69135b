import Verif.Props.FromFiles
import Verif.Props.CollectStreams
import Verif.Props.CollectEnd
import Verif.Props.ConvField
/-!
# C161: files through stacks of layers, and into the collector
-/

namespace DS.Data
open Conv Coll
section
variable {α : Type} [Zero α]

/-- The outputs of the convolution for files of one chunk each: one chunk for each file. -/
theorem files_out {β : Type} [Zero β] (disk : Disk α) (cfg : LoaderCfg) (d : Dataset α) (hs : Splittable d) (hdrop : cfg.dropLast = false) (hb : 0 < cfg.batchSize)
    (hdvd : max 1 cfg.numWorkers ∣ cfg.batchSize) (hn : d.files.Nodup) (hne : d.files ≠ [])
    (audio : String → List α) (size : String → Nat) (hL : ∀ f ∈ d.files, audio f ≠ []) (hsize : ∀ f ∈ d.files, 0 < size f)
    (hf : ∀ f ∈ d.files, processData disk d f = chunkSamples (size f : Int) f (audio f)) (hone : ∀ f ∈ d.files, (audio f).length ≤ size f)
    (order : List Nat) (ho : order.Perm (List.range d.files.length)) (orders : List (List String) → List (List String))
    (hor : ∀ ls, List.Forall₂ List.Perm (orders ls) ls)
    (c : Cfg) (hv : c.Valid) (g : List α → β) (hfit : ∀ f ∈ d.files, span c ≤ (audio f).length + 2 * c.padding) :
    ∃ fuel out xs ys buf, loader disk cfg d order orders fuel = .ok (out, .returned) ∧ collateAll out = .ok xs ∧ run c g (fun _ => none) xs = .ok (ys, buf) ∧
      List.Forall₂ (fun y cs => cs ≠ [] ∧ Packs y y.width cs) ys (ys.map unpack) ∧
      (∀ f ∈ d.files, offline c g (audio f) ≠ [] ∧ ∃ k, Conv.chunksOf f (ys.map unpack) = [⟨f, true, true, k, offline c g (audio f)⟩]) ∧
      ∀ i, i ∉ d.files → Conv.chunksOf i (ys.map unpack) = [] := by
  obtain ⟨fuel, out, xs, h1, h2, -, h4⟩ := stream_spec disk cfg d hs hdrop hb hdvd hn hne audio size hL hsize hf order ho orders hor
  obtain ⟨hsch, k1, k2, k3⟩ := h4 hone
  obtain ⟨r1, r2⟩ := k3 β c g hv
  obtain ⟨ys, buf, hrun⟩ := r1 hfit
  obtain ⟨-, hwp, hfl, htight⟩ := schedule_invG hv hsch hrun
  have hcar : List.Forall₂ (fun y cs => cs ≠ [] ∧ Packs y y.width cs) ys (ys.map unpack) := by
    have hne : ∀ y ∈ ys, unpack y ≠ [] := by
      intro y hy hn
      obtain ⟨u, hu, -⟩ := htight y hy
      rw [hn] at hu
      simp at hu
    clear hrun hfl htight
    induction ys with
    | nil => exact .nil
    | cons y ys ih => exact .cons ⟨hne y (by simp), hwp y (by simp)⟩ (ih (fun z hz => hwp z (by simp [hz])) (fun z hz => hne z (by simp [hz])))
  have hflags := fun i => chunksOf_flags (a := ys.map unpack) (b := xs.map unpack) (by rw [List.map_map, List.map_map]; exact hfl) i
  refine ⟨fuel, out, xs, ys, buf, h1, h2, hrun, hcar, fun f hm => ?_, fun i hi => ?_⟩
  · obtain ⟨k, hk⟩ := k1 f hm
    have hcol : allFrames (Conv.chunksOf f (ys.map unpack)) = offline c g (audio f) := r2 ys buf hrun f hm
    refine ⟨fun h0 => ?_, ?_⟩
    · have h5 := hfit f hm
      have h6 : (0 : Nat) ∈ fits c (zeros c.padding ++ audio f ++ zeros c.padding : List α).length := by
        refine List.mem_filter.2 ⟨List.mem_range.2 (by omega), decide_eq_true ?_⟩
        simp only [zeros, List.length_append, List.length_replicate]
        omega
      have h7 := List.map_eq_nil_iff.1 h0
      rw [h7] at h6
      cases h6
    · have hfk := hflags f
      rw [hk] at hfk
      obtain ⟨y, hy⟩ : ∃ y, Conv.chunksOf f (ys.map unpack) = [y] := by
        refine List.length_eq_one_iff.1 ?_
        simpa using congrArg List.length hfk
      rw [hy] at hfk hcol
      simp only [List.map_cons, List.map_nil, List.cons.injEq, and_true, Chunk.flags, Prod.mk.injEq] at hfk
      have hyf : y.frames = offline c g (audio f) := by simpa [allFrames] using hcol
      refine ⟨y.index, ?_⟩
      rw [hy, ← hyf]
      obtain ⟨i, so, eo, ix, fr⟩ := y
      obtain ⟨e1, e2, e3⟩ := hfk
      subst e1 e2 e3
      rfl
  · have hz := congrArg List.length (hflags i)
    rw [k2 i hi, List.length_map, List.length_map] at hz
    exact List.length_eq_zero_iff.1 hz

/-- **C161 (collector).** Without drop_last, for files of at least one frame that are one chunk each (no longer than their chunk size), any workers, shuffling and orders, and every convolution that fits in every padded file: the loader yields all batches, no call of the convolution
raises, the collector accepts every output, chunk indices included, and afterwards it has entries for exactly the files, each with the offline output of the file, marked as ended, and its id closed. Missing: files of several chunks (`C161_given_partial`). -/
theorem C161_collect_partial {β : Type} [Zero β] (disk : Disk α) (cfg : LoaderCfg) (d : Dataset α) (hs : Splittable d) (hdrop : cfg.dropLast = false) (hb : 0 < cfg.batchSize)
    (hdvd : max 1 cfg.numWorkers ∣ cfg.batchSize) (hn : d.files.Nodup) (hne : d.files ≠ [])
    (audio : String → List α) (size : String → Nat) (hL : ∀ f ∈ d.files, audio f ≠ []) (hsize : ∀ f ∈ d.files, 0 < size f)
    (hf : ∀ f ∈ d.files, processData disk d f = chunkSamples (size f : Int) f (audio f)) (hone : ∀ f ∈ d.files, (audio f).length ≤ size f)
    (order : List Nat) (ho : order.Perm (List.range d.files.length)) (orders : List (List String) → List (List String))
    (hor : ∀ ls, List.Forall₂ List.Perm (orders ls) ls)
    (c : Cfg) (hv : c.Valid) (g : List α → β) (hfit : ∀ f ∈ d.files, span c ≤ (audio f).length + 2 * c.padding) :
    ∃ fuel out xs ys buf, loader disk cfg d order orders fuel = .ok (out, .returned) ∧ collateAll out = .ok xs ∧ run c g (fun _ => none) xs = .ok (ys, buf) ∧
      (update Coll.new (ys.map Item.batch)).2 = none ∧
      (∀ f ∈ d.files, ∃ e k, (update Coll.new (ys.map Item.batch)).1.entries f = some e ∧ IsChunk e ⟨f, true, true, k, offline c g (audio f)⟩ ∧
        (update Coll.new (ys.map Item.batch)).1.closed f = true) ∧
      ∀ i, i ∉ d.files → (update Coll.new (ys.map Item.batch)).1.entries i = none := by
  obtain ⟨fuel, out, xs, ys, buf, h1, h2, hrun, hcar, k1, k2⟩ := files_out disk cfg d hs hdrop hb hdvd hn hne audio size hL hsize hf hone order ho orders hor c hv g hfit
  have hst : ∀ i, Stream (Conv.chunksOf i (ys.map unpack)) := by
    intro i
    by_cases hi : i ∈ d.files
    · obtain ⟨-, k, hk⟩ := k1 i hi
      rw [hk]
      refine ⟨?_, ?_, ?_⟩
      · intro k y hy
        rw [List.getElem?_singleton] at hy
        split at hy
        · cases hy; simp_all
        · cases hy
      · intro k y hy _
        rw [List.getElem?_singleton] at hy
        split at hy
        · simp_all
        · cases hy
      · cases k with
        | some n => exact .inl fun w hw => by rw [List.mem_singleton.1 hw]; rfl
        | none => exact .inr fun w hw => by rw [List.mem_singleton.1 hw]; rfl
    · rw [k2 i hi]
      exact ⟨fun k y hy => by simp at hy, fun k y hy => by simp at hy, .inl (by simp)⟩
  obtain ⟨s1, -, s3⟩ := C68_streams ys _ hcar
  have hnonE : ∀ f ∈ d.files, nonEmpty (Conv.chunksOf f (ys.map unpack)) = Conv.chunksOf f (ys.map unpack) := by
    intro f hm
    obtain ⟨hoff, k, hk⟩ := k1 f hm
    rw [hk, nonEmpty, List.filter_cons_of_pos (by simpa using List.length_pos_of_ne_nil hoff)]
    rfl
  have hacc : (update Coll.new (ys.map Item.batch)).2 = none := by
    rw [s1]
    intro i
    by_cases hi : i ∈ d.files
    · rw [hnonE i hi]; exact hst i
    · have := hst i
      rw [k2 i hi] at this ⊢
      exact this
  refine ⟨fuel, out, xs, ys, buf, h1, h2, hrun, hacc, ?_, ?_⟩
  · intro f hm
    obtain ⟨hoff, k, hk⟩ := k1 f hm
    have hall : allFrames (Conv.chunksOf f (ys.map unpack)) ≠ [] := by rw [hk]; simpa [allFrames] using hoff
    obtain ⟨e, e1, -, e3⟩ := (s3 hacc f).2 hall
    obtain ⟨e', -, -, e6⟩ := C220_batches_partial ys _ hcar hst hacc f ⟨f, true, true, k, offline c g (audio f)⟩ (by rw [hk]; rfl) hall
    refine ⟨e, k, e1, ?_, by rw [e6]; simpa using hoff⟩
    rw [hnonE f hm, hk] at e3
    simpa [joined, allFrames] using e3
  · intro i hi
    refine (s3 hacc i).1 ?_
    rw [k2 i hi]
    rfl

/-- **C161 (stacks).** Likewise for every stack of layers as in C114, if every file is long enough for one output of the stack: no call raises and the outputs of every file are those of the ordinary stack on the whole file. Missing: files of several chunks (`C161_given_partial`),
other stacks (C113, C62). -/
theorem C161_stack_partial (disk : Disk α) (cfg : LoaderCfg) (d : Dataset α) (hs : Splittable d) (hdrop : cfg.dropLast = false) (hb : 0 < cfg.batchSize)
    (hdvd : max 1 cfg.numWorkers ∣ cfg.batchSize) (hn : d.files.Nodup) (hne : d.files ≠ [])
    (audio : String → List α) (size : String → Nat) (hL : ∀ f ∈ d.files, audio f ≠ []) (hsize : ∀ f ∈ d.files, 0 < size f)
    (hf : ∀ f ∈ d.files, processData disk d f = chunkSamples (size f : Int) f (audio f)) (hone : ∀ f ∈ d.files, (audio f).length ≤ size f)
    (order : List Nat) (ho : order.Perm (List.range d.files.length)) (orders : List (List String) → List (List String))
    (hor : ∀ ls, List.Forall₂ List.Perm (orders ls) ls)
    (ls : List (Layer α)) (hl : StackOK true ls) (hov : Overlapping ls) (hfit : ∀ f ∈ d.files, need ls ≤ (audio f).length) :
    ∃ fuel out xs ys t, loader disk cfg d order orders fuel = .ok (out, .returned) ∧ collateAll out = .ok xs ∧ chainRun (fresh ls) xs = .ok (ys, t) ∧
      ∀ f ∈ d.files, collected f ys = offlineChain ls (audio f) := by
  obtain ⟨fuel, out, xs, h1, h2, -, h4⟩ := stream_spec disk cfg d hs hdrop hb hdvd hn hne audio size hL hsize hf order ho orders hor
  obtain ⟨hsch, k1, k2, -⟩ := h4 hone
  have hu : ∀ x ∈ xs, ∀ u ∈ unpack x, atLeast (need ls) (jump ls) (rest ls) u ≤ u.frames.length := by
    intro x hx u hu
    have hmem : u ∈ Conv.chunksOf u.id (xs.map unpack) := List.mem_filter.2 ⟨List.mem_flatten.2 ⟨_, List.mem_map_of_mem hx, hu⟩, by simp⟩
    by_cases hm : u.id ∈ d.files
    · obtain ⟨k, hk⟩ := k1 _ hm
      rw [hk, List.mem_singleton] at hmem
      have hs : u.sos = true := by rw [hmem]
      have hfr : u.frames = audio u.id := congrArg Chunk.frames hmem
      unfold atLeast
      rw [if_pos hs, hfr]
      exact hfit _ hm
    · rw [k2 _ hm] at hmem
      cases hmem
  obtain ⟨ys, t, r1, -, r3⟩ := C114_total_stride ls hl hov xs hsch hu
  refine ⟨fuel, out, xs, ys, t, h1, h2, r1, ?_⟩
  intro f hm
  obtain ⟨k, hk⟩ := k1 f hm
  rw [r3 f]
  · unfold collected
    rw [hk]
    simp [allFrames]
  · rw [hk]
    refine ⟨by simp, ?_, ?_⟩ <;>
    · intro j y hy
      rw [List.getElem?_singleton] at hy
      split at hy
      · cases hy; simp_all
      · cases hy

-- The files of `exLong`, of three frames, one and two: each is one chunk, and they are long enough for the layers.
example : (∀ f ∈ exLong.files, processData exLoadDisk exLong f = chunkSamples ((3 : Nat) : Int) f (exLoadDisk f).1 ∧ (exLoadDisk f).1 ≠ [] ∧ (exLoadDisk f).1.length ≤ 3 ∧
      span ⟨2, 1, 1, 1⟩ ≤ (exLoadDisk f).1.length + 2 * 1 ∧ need ([.conv ⟨2, 1, 1, 1⟩ List.sum, .act (· * 2), .conv ⟨2, 1, 1, 1⟩ List.sum] : List (Layer Nat)) ≤ (exLoadDisk f).1.length) ∧
    Cfg.Valid ⟨2, 1, 1, 1⟩ := by decide +kernel
example : StackOK true ([.conv ⟨2, 1, 1, 1⟩ List.sum, .act (· * 2), .conv ⟨2, 1, 1, 1⟩ List.sum] : List (Layer Nat)) ∧ Overlapping ([.conv ⟨2, 1, 1, 1⟩ List.sum, .act (· * 2), .conv ⟨2, 1, 1, 1⟩ List.sum] : List (Layer Nat)) :=
  ⟨⟨by decide, .inl rfl, .inl ⟨rfl, rfl, by decide, .inl rfl, trivial⟩⟩, by simp [Overlapping, span]⟩

end
end DS.Data
