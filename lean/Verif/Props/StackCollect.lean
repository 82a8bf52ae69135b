import Verif.Props.PipelineRun
import Verif.Props.EpochsFiles
/-! C161 and C229 for stacks with an `OutputCollector`: the loop of examples/wav2letter.py over files and epochs. -/

namespace DS.Data
open Meta Conv Coll
section
variable {α : Type} [Zero α]

/-- The outputs of a stack are batches with the ids and flags of the inputs, whatever their chunk indices. -/
theorem chain_shaped (ls : List (Layer α)) (clean : Bool) (hl : StackOK clean ls) (xs : List (ST α)) (hx : ScheduleUp xs) (hcl : clean = true → ∀ x ∈ xs, WellPacked x)
    (hfine : Fine ls xs) (zs : List (ST α)) (t : List (Layer α × Buf α)) (h : chainRun (fresh ls) xs = .ok (zs, t)) :
    (∀ z ∈ zs, Shaped z ∧ Tight z.width (unpack z)) ∧ (zs.map fun y => (unpack y).map Chunk.flags) = (xs.map fun x => (unpack x).map Chunk.flags) := by
  induction ls generalizing xs t clean with
  | nil =>
    rw [show fresh ([] : List (Layer α)) = [] from rfl, chainRun_nil] at h
    simp only [Except.ok.injEq, Prod.mk.injEq] at h
    obtain ⟨rfl, -⟩ := h
    exact ⟨fun z hz => ⟨(hx.1 z hz).1, (hx.1 z hz).2.2⟩, rfl⟩
  | cons l ls ih =>
    rw [show fresh (l :: ls) = (l, fun _ => none) :: fresh ls from rfl] at h
    obtain ⟨ys, b', t', h1, h2⟩ := chainRun_cons h
    obtain ⟨⟨clean', k1, k2⟩, a1, a2, a3⟩ := layer_up hl hfine.2.1 hx hcl h1
    have hfy := hfine.2.2 ys b' h1
    by_cases hne : ls = []
    · subst hne
      rw [show fresh ([] : List (Layer α)) = [] from rfl, chainRun_nil] at h2
      simp only [Except.ok.injEq, Prod.mk.injEq] at h2
      obtain ⟨rfl, -⟩ := h2
      exact ⟨fun z hz => ⟨(a1 z hz).1, (a1 z hz).2⟩, a2⟩
    · have hsy : ScheduleUp ys := by
        refine ⟨fun y hy => ⟨(a1 y hy).1, ?_, (a1 y hy).2⟩, fun i => ?_⟩
        · cases ls with
          | nil => exact absurd rfl hne
          | cons l' ls' => exact hfy.1 y hy
        · obtain ⟨done, cur, hh⟩ := hx.2 i
          obtain ⟨d, c, h', -⟩ := via_history hh (a3 i done cur hh)
          exact ⟨d, c, h'⟩
      obtain ⟨r1, r2⟩ := ih clean' k1 ys hsy k2 hfy t' h2
      exact ⟨r1, r2.trans a2⟩

/-- A stack and a new collector on a schedule of complete sequences whose outputs, stream by stream, all have chunk indices or all have none. -/
theorem collect_indexed (ls : List (Layer α)) (hl : StackOK true ls) (xs : List (ST α)) (hx : Schedule xs) (hfine : Fine ls xs)
    (hone : ∀ i, Conv.chunksOf i (xs.map unpack) ≠ [] → Complete (Conv.chunksOf i (xs.map unpack)))
    (zs : List (ST α)) (t : List (Layer α × Buf α)) (h : chainRun (fresh ls) xs = .ok (zs, t)) (hfirst : ∀ i y, (Conv.chunksOf i (zs.map unpack)).head? = some y → y.frames ≠ [])
    (hidx : ∀ i, (∀ y ∈ Conv.chunksOf i (zs.map unpack), y.index.isSome = true) ∨ ∀ y ∈ Conv.chunksOf i (zs.map unpack), y.index.isSome = false) :
    ∃ s, update Coll.new (zs.map Item.batch) = (s, none) ∧ ∀ i,
      (Conv.chunksOf i (xs.map unpack) = [] → s.entries i = none) ∧
      (Conv.chunksOf i (xs.map unpack) ≠ [] → ∃ e, s.entries i = some e ∧ e.frames = offlineChain ls (collected i xs)) := by
  have hup : ScheduleUp xs := ⟨fun x hm => ⟨wp_shaped (hx.1 x hm).1, (hx.1 x hm).2⟩, hx.2⟩
  obtain ⟨h1, h2⟩ := chain_shaped ls true hl xs hup (fun _ x hm => (hx.1 x hm).1) hfine zs t h
  have hu : ∀ z ∈ zs, unpack (zeroed z) = unpack z := fun z hz => unpack_zeroed (h1 z hz).1
  have hcar : List.Forall₂ Carries ((zs.map zeroed).map Item.batch) (zs.map unpack) := by
    have h3 := fun z hz => (h1 z hz).1
    have h4 := fun z hz => (h1 z hz).2
    clear h h1 h2 hfirst hidx
    induction zs with
    | nil => exact .nil
    | cons z zs ih =>
      have hw := zeroed_wp (h3 z (by simp))
      rw [WellPacked, hu z (by simp)] at hw
      refine .cons ⟨?_, hw⟩ (ih (fun z hz => hu z (by simp [hz])) (fun z hz => h3 z (by simp [hz])) (fun z hz => h4 z (by simp [hz])))
      intro h0
      obtain ⟨u, hum, -⟩ := h4 z (by simp)
      rw [h0] at hum
      simp at hum
  have hflags : (zs.map unpack).map (·.map Chunk.flags) = (xs.map unpack).map (·.map Chunk.flags) := by
    rw [List.map_map, List.map_map]; exact h2
  have hst : ∀ i, Stream (Conv.chunksOf i (zs.map unpack)) := by
    intro i
    have hfl := chunksOf_flags hflags i
    by_cases hn : Conv.chunksOf i (xs.map unpack) = []
    · rw [hn, List.map_nil, List.map_eq_nil_iff] at hfl
      rw [hfl]
      exact ⟨by intro k c hc; simp at hc, by intro k c hc; simp at hc, .inl (by simp)⟩
    · have hc := hone i hn
      have hlen := congrArg List.length hfl
      rw [List.length_map, List.length_map] at hlen
      have hget : ∀ (k : Nat) (y : Chunk α), (Conv.chunksOf i (zs.map unpack))[k]? = some y → ∃ x : Chunk α, (Conv.chunksOf i (xs.map unpack))[k]? = some x ∧ y.flags = x.flags := by
        intro k y hk
        have := congrArg (·[k]?) hfl
        simp only [List.getElem?_map, hk, Option.map_some] at this
        cases hxk : (Conv.chunksOf i (xs.map unpack))[k]? with
        | none => simp [hxk] at this
        | some x =>
          simp only [hxk, Option.map_some, Option.some.injEq] at this
          exact ⟨x, rfl, this⟩
      refine ⟨?_, ?_, hidx i⟩
      · intro k y hk
        obtain ⟨x, hxk, hf⟩ := hget k y hk
        have := hc.2.1 k x hxk
        simp only [Chunk.flags, Prod.mk.injEq] at hf
        rw [hf.2.1]
        exact this
      · intro k y hk he
        obtain ⟨x, hxk, hf⟩ := hget k y hk
        simp only [Chunk.flags, Prod.mk.injEq] at hf
        rw [hf.2.2] at he
        rw [hlen]
        exact (hc.2.2 k x hxk).1 he
  obtain ⟨s, k1, k2⟩ := C67_reassemble _ _ hcar hst hfirst
  rw [← Pipe.update_zeroed zs Coll.new (fun z hz => (h1 z hz).1)] at k1
  refine ⟨s, k1, fun i => ⟨?_, ?_⟩⟩
  · intro hn
    have := chunksOf_flags hflags i
    rw [hn, List.map_nil, List.map_eq_nil_iff] at this
    exact (k2 i).1 this
  · intro hn
    have hne : Conv.chunksOf i (zs.map unpack) ≠ [] := by
      intro hy
      have := chunksOf_flags hflags i
      rw [hy, List.map_nil] at this
      exact hn (List.map_eq_nil_iff.1 this.symm)
    obtain ⟨e, h3, h4, -⟩ := (k2 i).2 hne
    refine ⟨e, h3, ?_⟩
    rw [h4]
    exact C113_pointwise_partial ls hl xs hx hfine zs t h i (hone i hn)

/-- One pass: loader, stack and a new collector. -/
theorem pass_collect (disk : Disk α) (cfg : LoaderCfg) (d : Dataset α) (hs : Splittable d) (hdrop : cfg.dropLast = false) (hb : 0 < cfg.batchSize)
    (hdvd : max 1 cfg.numWorkers ∣ cfg.batchSize) (hn : d.files.Nodup) (hne : d.files ≠ [])
    (audio : String → List α) (size : String → Nat) (hL : ∀ f ∈ d.files, audio f ≠ []) (hsize : ∀ f ∈ d.files, 0 < size f)
    (hf : ∀ f ∈ d.files, processData disk d f = chunkSamples (size f : Int) f (audio f)) (hone : ∀ f ∈ d.files, (audio f).length ≤ size f)
    (order : List Nat) (ho : order.Perm (List.range d.files.length)) (orders : List (List String) → List (List String))
    (hor : ∀ ls, List.Forall₂ List.Perm (orders ls) ls)
    (ls : List (Layer α)) (hl : StackOK true ls) (hov : Overlapping ls) (hfit : ∀ f ∈ d.files, need ls ≤ (audio f).length) :
    ∃ fuel out xs zs s, loader disk cfg d order orders fuel = .ok (out, .returned) ∧ collateAll out = .ok xs ∧ chainRun (fresh ls) xs = .ok (zs, fresh ls) ∧
      update Coll.new (zs.map Item.batch) = (s, none) ∧ (∀ f ∈ d.files, ∃ e, s.entries f = some e ∧ e.frames = offlineChain ls (audio f)) ∧ ∀ i, i ∉ d.files → s.entries i = none := by
  obtain ⟨fuel, out, xs, h1, h2, -, h4⟩ := stream_spec disk cfg d hs hdrop hb hdvd hn hne audio size hL hsize hf order ho orders hor
  obtain ⟨hsch, k1, k2, -⟩ := h4 hone
  have hmem : ∀ x ∈ xs, ∀ u ∈ unpack x, u.id ∈ d.files ∧ u.sos = true ∧ u.eos = true ∧ u.frames = audio u.id := by
    intro x hx u hu
    have hmem : u ∈ Conv.chunksOf u.id (xs.map unpack) := List.mem_filter.2 ⟨List.mem_flatten.2 ⟨_, List.mem_map_of_mem hx, hu⟩, by simp⟩
    by_cases hm : u.id ∈ d.files
    · obtain ⟨k, hk⟩ := k1 _ hm
      rw [hk, List.mem_singleton] at hmem
      exact ⟨hm, by rw [hmem], by rw [hmem], congrArg Chunk.frames hmem⟩
    · rw [k2 _ hm] at hmem
      cases hmem
  have hu : ∀ x ∈ xs, ∀ u ∈ unpack x, atLeast (need ls) (jump ls) (rest ls) u ≤ u.frames.length := by
    intro x hx u hu
    obtain ⟨a1, a2, -, a4⟩ := hmem x hx u hu
    unfold atLeast
    rw [if_pos a2, a4]
    exact hfit _ a1
  have hup : ScheduleUp xs := ⟨fun x hm => ⟨wp_shaped (hsch.1 x hm).1, (hsch.1 x hm).2⟩, hsch.2⟩
  obtain ⟨hfine, -⟩ := stack_field ls true hl hov xs hup (fun _ x hm => (hsch.1 x hm).1) hu
  obtain ⟨zs, t, r1, r2, -⟩ := C114_total_stride ls hl hov xs hsch hu
  have hcomp : ∀ i, Conv.chunksOf i (xs.map unpack) ≠ [] → Complete (Conv.chunksOf i (xs.map unpack)) := by
    intro i hi
    by_cases hm : i ∈ d.files
    · obtain ⟨k, hk⟩ := k1 i hm
      rw [hk]
      refine ⟨by simp, ?_, ?_⟩ <;>
      · intro j y hy
        rw [List.getElem?_singleton] at hy
        split at hy
        · cases hy; simp_all
        · cases hy
    · exact absurd (k2 i hm) hi
  have hlin : ∀ x ∈ xs, Lined x := fun x hx => ⟨(hup.1 x hx).1.1, (hup.1 x hx).1.2.1⟩
  obtain rfl := C229_again_partial ls xs hlin (ready_fine ls xs hlin hfine) (finished_last xs hlin fun i c hc => last_complete _ (hcomp i (by intro h0; rw [h0] at hc; cases hc)) c hc) zs t r1
  obtain ⟨-, hfl⟩ := chain_shaped ls true hl xs hup (fun _ x hm => (hsch.1 x hm).1) hfine zs _ r1
  have hlen : ∀ i, (Conv.chunksOf i (zs.map unpack)).length ≤ 1 := by
    intro i
    have := congrArg List.length (chunksOf_flags (a := zs.map unpack) (b := xs.map unpack) (by rw [List.map_map, List.map_map]; exact hfl) i)
    rw [List.length_map, List.length_map] at this
    rw [this]
    by_cases hm : i ∈ d.files
    · obtain ⟨k, hk⟩ := k1 i hm
      rw [hk]; simp
    · rw [k2 i hm]; simp
  have hidx : ∀ i, (∀ y ∈ Conv.chunksOf i (zs.map unpack), y.index.isSome = true) ∨ ∀ y ∈ Conv.chunksOf i (zs.map unpack), y.index.isSome = false := by
    intro i
    have hi := hlen i
    cases hcs : Conv.chunksOf i (zs.map unpack) with
    | nil => exact .inl (by simp)
    | cons y l =>
      have : l = [] := by
        rw [hcs, List.length_cons] at hi
        exact List.length_eq_zero_iff.1 (by omega)
      subst this
      cases hy : y.index.isSome with
      | true => exact .inl fun z hz => by rw [List.mem_singleton.1 hz, hy]
      | false => exact .inr fun z hz => by rw [List.mem_singleton.1 hz, hy]
  have hfirst : ∀ i y, (Conv.chunksOf i (zs.map unpack)).head? = some y → y.frames ≠ [] := by
    intro i y hy
    have hm := List.mem_of_mem_head? hy
    obtain ⟨l, hlm, hyl⟩ := List.mem_flatten.1 (List.mem_filter.1 hm).1
    obtain ⟨z, hz, rfl⟩ := List.mem_map.1 hlm
    exact r2 z hz y hyl
  obtain ⟨s, c1, c2⟩ := collect_indexed ls hl xs hsch hfine hcomp zs _ r1 hfirst hidx
  refine ⟨fuel, out, xs, zs, s, h1, h2, r1, c1, ?_, fun i hi => (c2 i).1 (k2 i hi)⟩
  intro f hm
  obtain ⟨k, hk⟩ := k1 f hm
  obtain ⟨e, e1, e2⟩ := (c2 f).2 (by rw [hk]; simp)
  refine ⟨e, e1, ?_⟩
  rw [e2]
  unfold collected
  rw [hk]
  simp [allFrames]

/-- **C229**, the whole program. Files of one chunk each, without drop_last, any workers; any number of epochs in orders of their own, with one patched stack as in C114 and a new `OutputCollector` in every epoch: nothing raises, and at the end of every epoch the collector
holds for every file the output of the ordinary stack on the whole file, and nothing else. Missing: files of several chunks, which the loader does not deliver right (`C161_stream_false`). -/
theorem C229_program_partial (disk : Disk α) (cfg : LoaderCfg) (d : Dataset α) (hs : Splittable d) (hdrop : cfg.dropLast = false) (hb : 0 < cfg.batchSize)
    (hdvd : max 1 cfg.numWorkers ∣ cfg.batchSize) (hn : d.files.Nodup) (hne : d.files ≠ [])
    (audio : String → List α) (size : String → Nat) (hL : ∀ f ∈ d.files, audio f ≠ []) (hsize : ∀ f ∈ d.files, 0 < size f)
    (hf : ∀ f ∈ d.files, processData disk d f = chunkSamples (size f : Int) f (audio f)) (hone : ∀ f ∈ d.files, (audio f).length ≤ size f)
    (ls : List (Layer α)) (hl : StackOK true ls) (hov : Overlapping ls) (hfit : ∀ f ∈ d.files, need ls ≤ (audio f).length)
    (shuffles : List (List Nat × (List (List String) → List (List String))))
    (hsh : ∀ o ∈ shuffles, o.1.Perm (List.range d.files.length) ∧ ∀ ls, List.Forall₂ List.Perm (o.2 ls) ls) :
    ∃ (epochs results : List (List (ST α))),
      List.Forall₂ (fun o xs => ∃ fuel out, loader disk cfg d o.1 o.2 fuel = .ok (out, .returned) ∧ collateAll out = .ok xs) shuffles epochs ∧
      chainRun (fresh ls) epochs.flatten = .ok (results.flatten, fresh ls) ∧ results.map List.length = epochs.map List.length ∧
      ∀ zs ∈ results, (update Coll.new (zs.map Item.batch)).2 = none ∧
        ∀ i, ((update Coll.new (zs.map Item.batch)).1.entries i).map (·.frames) = if i ∈ d.files then some (offlineChain ls (audio i)) else none := by
  induction shuffles with
  | nil => exact ⟨[], [], .nil, rfl, rfl, by simp⟩
  | cons o os ih =>
    obtain ⟨es, rs, i1, i2, i3, i4⟩ := ih fun q hq => hsh q (by simp [hq])
    obtain ⟨fuel, out, xs, zs, s, h1, h2, h3, h4, h5, h6⟩ := pass_collect disk cfg d hs hdrop hb hdvd hn hne audio size hL hsize hf hone o.1 (hsh o (by simp)).1 o.2 (hsh o (by simp)).2 ls hl hov hfit
    refine ⟨xs :: es, zs :: rs, .cons ⟨fuel, out, h1, h2⟩ i1, ?_, by rw [List.map_cons, List.map_cons, i3, chainRun_length h3], ?_⟩
    · rw [List.flatten_cons, List.flatten_cons, chainRun_two, h3]
      simp only [Except.bind, i2, map_ok']
    · intro w hw
      rcases List.mem_cons.1 hw with rfl | hw
      · rw [h4]
        refine ⟨rfl, fun i => ?_⟩
        by_cases hi : i ∈ d.files
        · obtain ⟨e, e1, e2⟩ := h5 i hi
          rw [if_pos hi, e1, Option.map_some, e2]
        · rw [if_neg hi, h6 i hi]
          rfl
      · exact i4 w hw

-- The conditions are those of `C161_stack_partial` and `C229_loader_partial` (examples there); the outputs of the files of `exLong` (of three frames, one and two) under the stack of that example:
example : exLong.files.map (fun f => (f, offlineChain ([.conv ⟨2, 1, 1, 1⟩ List.sum, .act (· * 2), .conv ⟨2, 1, 1, 1⟩ List.sum] : List (Layer Nat)) (exLoadDisk f).1)) =
    [("a", [2, 8, 16, 16, 6]), ("b", [8, 16, 8]), ("c", [10, 32, 34, 12])] := by decide +kernel
example : exLong.files.Nodup ∧ (∀ o ∈ [([0, 1, 2], (id : List (List String) → List (List String))), ([2, 0, 1], id)], o.1.Perm (List.range exLong.files.length) ∧ ∀ ls, List.Forall₂ List.Perm (o.2 ls) ls) := by
  refine ⟨by decide, fun o ho => ?_⟩
  simp only [List.mem_cons, List.not_mem_nil, or_false] at ho
  rcases ho with rfl | rfl <;> exact ⟨by decide, fun ls => List.forall₂_same.2 fun _ _ => List.Perm.refl _⟩

end
end DS.Data
