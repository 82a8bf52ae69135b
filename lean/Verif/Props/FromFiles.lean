import Verif.Props.Loader
import Verif.Props.Dataset
import Verif.Props.ConvMore
import Verif.Model.FromFiles
/-!
# C160, C161: from files to network outputs
-/

namespace DS.Data
open Conv
section
variable {α : Type} [Zero α]

/-- What the metadata of a batch say about a sample: its id, flags, chunk index and the frames counted as valid. -/
def Sample.chunk (s : Sample α) : Chunk α := ⟨s.id, s.sos, s.eos, some (s.chunkIndex : Int), s.data.take s.length⟩

theorem collateST_eq (batch : List (Sample α)) (hne : batch ≠ []) :
    collateST batch = .ok ⟨Meta.ofRows true ((sortByLength batch).map fun s => ⟨s.id, s.sos, s.eos, s.length, some (s.chunkIndex : Int)⟩),
      maxLen (batch.map Sample.data), (sortByLength batch).map fun s => s.data ++ zeros (maxLen ((sortByLength batch).map Sample.data) - s.data.length)⟩ := by
  have hperm : (sortByLength batch).Perm batch := List.mergeSort_perm _ _
  have hb : sortByLength batch ≠ [] := fun h => hne (List.Perm.nil_eq (h ▸ hperm.symm).symm).symm
  unfold collateST collate ragged
  simp only [List.map_eq_nil_iff, hb, if_false]
  rw [Except.bind_ok']
  unfold Meta.init
  rw [if_pos (by simp), Except.bind_ok', Except.bind_ok', List.map_map]
  simp [Meta.ofRows, Function.comp_def, zeros]

theorem unpack_collateST (batch : List (Sample α)) (hne : batch ≠ []) (hl : ∀ s ∈ batch, s.length ≤ s.data.length) :
    ∃ x, collateST batch = .ok x ∧ unpack x = (sortByLength batch).map Sample.chunk := by
  refine ⟨_, collateST_eq batch hne, ?_⟩
  have hperm : (sortByLength batch).Perm batch := List.mergeSort_perm _ _
  unfold unpack
  dsimp only
  rw [Meta.ofRows_rows _ _ (by intro r hr; obtain ⟨s, -, rfl⟩ := List.mem_map.1 hr; rfl), List.zipWith_map, List.zipWith_self]
  apply List.map_congr_left
  intro s hs
  have := hl s (hperm.mem_iff.1 hs)
  unfold Sample.chunk
  simp [List.take_append_of_le_length this]

theorem collateAll_ok (out : List (List (Sample α))) (hne : ∀ b ∈ out, b ≠ []) (hl : ∀ b ∈ out, ∀ s ∈ b, s.length ≤ s.data.length) :
    ∃ xs, collateAll out = .ok xs ∧ xs.map unpack = out.map fun b => (sortByLength b).map Sample.chunk := by
  induction out with
  | nil => exact ⟨[], rfl, rfl⟩
  | cons b bs ih =>
    obtain ⟨x, h1, h2⟩ := unpack_collateST b (hne b (by simp)) (hl b (by simp))
    obtain ⟨xs, h3, h4⟩ := ih (fun b hb => hne b (by simp [hb])) (fun b hb => hl b (by simp [hb]))
    refine ⟨x :: xs, ?_, by simp [h2, h4]⟩
    simp only [collateAll]
    rw [h1, Except.bind_ok', h3, Except.bind_ok']

/-- Rearranging a list in which an id occurs at most once does not change the elements with that id. -/
theorem ofFile_perm {a b : List (Sample α)} (h : a.Perm b) (hn : (a.map Sample.id).Nodup) (x : String) : ofFile x a = ofFile x b := by
  have hp : (ofFile x a).Perm (ofFile x b) := h.filter _
  have hle : (ofFile x a).length ≤ 1 := by
    have h1 : ((ofFile x a).map Sample.id).Nodup := (List.filter_sublist.map _).nodup hn
    have h2 : (ofFile x a).map Sample.id = List.replicate (ofFile x a).length x := by
      rw [List.eq_replicate_iff]
      refine ⟨by simp, ?_⟩
      intro y hy
      obtain ⟨s, hs, rfl⟩ := List.mem_map.1 hy
      simpa using (List.mem_filter.1 hs).2
    rw [h2, List.nodup_replicate] at h1
    exact h1
  match h1 : ofFile x a, h2 : ofFile x b with
  | [], [] => rfl
  | [], _ :: _ => simp [h1, h2] at hp
  | [s], l =>
    rw [h1, h2] at hp
    exact (List.perm_singleton.1 hp.symm).symm ▸ rfl
  | _ :: _ :: _, _ => simp [h1] at hle

theorem chunksOf_collated (out : List (List (Sample α))) (hn : ∀ b ∈ out, (b.map Sample.id).Nodup) (x : String) :
    Conv.chunksOf x (out.map fun b => (sortByLength b).map Sample.chunk) = (ofFile x out.flatten).map Sample.chunk := by
  induction out with
  | nil => rfl
  | cons b bs ih =>
    have hperm : (sortByLength b).Perm b := List.mergeSort_perm _ _
    have h1 : ofFile x (sortByLength b) = ofFile x b := ofFile_perm hperm ((hperm.map _).nodup_iff.2 (hn b (by simp))) x
    have ih := ih fun b hb => hn b (by simp [hb])
    unfold Conv.chunksOf at ih ⊢
    rw [List.map_cons, List.flatten_cons, List.filter_append, ih, List.flatten_cons, ofFile_append, List.map_append, ← h1]
    congr 1
    rw [List.filter_map]
    rfl

/-- C160, and where the samples come from. -/
theorem schedule_spec (disk : Disk α) (cfg : LoaderCfg) (d : Dataset α) (hs : Splittable d) (hdrop : cfg.dropLast = false) (hb : 0 < cfg.batchSize)
    (hdvd : max 1 cfg.numWorkers ∣ cfg.batchSize) (hn : d.files.Nodup) (hne : d.files ≠ [])
    (S : String → List (Sample α)) (hf : ∀ x ∈ d.files, processData disk d x = .ok (S x)) (hS : ∀ x ∈ d.files, WholeFile x (S x))
    (hlen : ∀ x ∈ d.files, ∀ s ∈ S x, 0 < s.length ∧ s.length ≤ s.data.length)
    (order : List Nat) (ho : order.Perm (List.range d.files.length)) (orders : List (List String) → List (List String))
    (hor : ∀ ls, List.Forall₂ List.Perm (orders ls) ls) :
    ∃ fuel out xs, loader disk cfg d order orders fuel = .ok (out, .returned) ∧ collateAll out = .ok xs ∧ xs.length = out.length ∧
      (∀ x ∈ xs, BatchOK (unpack x) ∧ ∀ c ∈ unpack x, c.frames ≠ []) ∧
      (∀ f ∈ d.files, Complete (Conv.chunksOf f (xs.map unpack)) ∧
        Conv.chunksOf f (xs.map unpack) = (S f).map fun s => ⟨f, s.sos, s.eos, some (s.chunkIndex : Int), s.data.take s.length⟩) ∧
      (∀ i, i ∉ d.files → Conv.chunksOf i (xs.map unpack) = []) ∧
      ∀ b ∈ out, b ≠ [] ∧ ∀ s ∈ b, s.id ∈ d.files ∧ s ∈ S s.id := by
  obtain ⟨fuel, out, h1, h2, h3, h4⟩ := loader_spec disk cfg d hs hdrop hb hdvd hn hne S hf hS order ho orders hor
  have hin : ∀ b ∈ out, ∀ s ∈ b, s.id ∈ d.files ∧ s ∈ S s.id := by
    intro b hb s hs
    have hs' : s ∈ out.flatten := List.mem_flatten.2 ⟨b, hb, hs⟩
    have hx := h3 s hs'
    refine ⟨hx, ?_⟩
    rw [← h2 s.id hx]
    exact List.mem_filter.2 ⟨hs', by simp⟩
  have hl : ∀ b ∈ out, ∀ s ∈ b, 0 < s.length ∧ s.length ≤ s.data.length := by
    intro b hb s hs
    have hs' : s ∈ out.flatten := List.mem_flatten.2 ⟨b, hb, hs⟩
    have hx := h3 s hs'
    exact hlen s.id hx s (hin b hb s hs).2
  obtain ⟨xs, h5, h6⟩ := collateAll_ok out (fun b hb => (h4 b hb).1) (fun b hb s hs => (hl b hb s hs).2)
  have hch : ∀ i, Conv.chunksOf i (xs.map unpack) = (ofFile i out.flatten).map Sample.chunk := by
    intro i
    rw [h6]
    exact chunksOf_collated out (fun b hb => (h4 b hb).2) i
  refine ⟨fuel, out, xs, h1, h5, by simpa using congrArg List.length h6, ?_, ?_, ?_, fun b hb => ⟨(h4 b hb).1, hin b hb⟩⟩
  · intro x hx
    have hu : unpack x ∈ xs.map unpack := List.mem_map_of_mem hx
    rw [h6] at hu
    obtain ⟨b, hb, hu⟩ := List.mem_map.1 hu
    have hperm : (sortByLength b).Perm b := List.mergeSort_perm _ _
    have hfr : ∀ c ∈ unpack x, c.frames ≠ [] := by
      intro c hc
      rw [← hu] at hc
      obtain ⟨s, hs, rfl⟩ := List.mem_map.1 hc
      have := hl b hb s (hperm.mem_iff.1 hs)
      unfold Sample.chunk
      intro h0
      have h0 := congrArg List.length h0
      rw [List.length_take, List.length_nil] at h0
      omega
    refine ⟨⟨?_, ?_, .inr fun c hc h0 => absurd h0 (hfr c hc)⟩, hfr⟩
    · rw [← hu]
      intro h0
      rw [List.map_eq_nil_iff] at h0
      exact (h4 b hb).1 (List.Perm.nil_eq (h0 ▸ hperm.symm).symm).symm
    · rw [← hu, List.map_map]
      exact (hperm.map _).nodup_iff.2 (h4 b hb).2
  · intro f hf'
    have he := hch f
    rw [h2 f hf'] at he
    obtain ⟨w1, w2⟩ := hS f hf'
    refine ⟨?_, ?_⟩
    · rw [he]
      refine ⟨by simpa using w1, ?_, ?_⟩
      · intro k c hk
        rw [List.getElem?_map, Option.map_eq_some_iff] at hk
        obtain ⟨s, hk, rfl⟩ := hk
        exact (w2 k s hk).2.1
      · intro k c hk
        rw [List.getElem?_map, Option.map_eq_some_iff] at hk
        obtain ⟨s, hk, rfl⟩ := hk
        rw [List.length_map]
        exact (w2 k s hk).2.2
    · rw [he]
      apply List.map_congr_left
      intro s hs
      obtain ⟨k, hk⟩ := List.mem_iff_getElem?.1 hs
      rw [← (w2 k s hk).1]
      rfl
  · intro i hi
    rw [hch i, ofFile_none, List.map_nil]
    intro s hs h
    exact hi (h ▸ h3 s hs)

/-- **C160.** Without drop_last, whatever the workers, batch size, shuffling and order: the loader's batches, collated, are a valid schedule of streams. Every
batch is non-empty, holds no stream twice and no empty chunk; every file is one complete sequence of chunks in order, which hold the first `length`
frames of the samples' data; there are no other streams. -/
theorem C160_schedule (disk : Disk α) (cfg : LoaderCfg) (d : Dataset α) (hs : Splittable d) (hdrop : cfg.dropLast = false) (hb : 0 < cfg.batchSize)
    (hdvd : max 1 cfg.numWorkers ∣ cfg.batchSize) (hn : d.files.Nodup) (hne : d.files ≠ [])
    (S : String → List (Sample α)) (hf : ∀ x ∈ d.files, processData disk d x = .ok (S x)) (hS : ∀ x ∈ d.files, WholeFile x (S x))
    (hlen : ∀ x ∈ d.files, ∀ s ∈ S x, 0 < s.length ∧ s.length ≤ s.data.length)
    (order : List Nat) (ho : order.Perm (List.range d.files.length)) (orders : List (List String) → List (List String))
    (hor : ∀ ls, List.Forall₂ List.Perm (orders ls) ls) :
    ∃ fuel out xs, loader disk cfg d order orders fuel = .ok (out, .returned) ∧ collateAll out = .ok xs ∧ xs.length = out.length ∧
      (∀ x ∈ xs, BatchOK (unpack x) ∧ ∀ c ∈ unpack x, c.frames ≠ []) ∧
      (∀ f ∈ d.files, Complete (Conv.chunksOf f (xs.map unpack)) ∧
        Conv.chunksOf f (xs.map unpack) = (S f).map fun s => ⟨f, s.sos, s.eos, some (s.chunkIndex : Int), s.data.take s.length⟩) ∧
      ∀ i, i ∉ d.files → Conv.chunksOf i (xs.map unpack) = [] := by
  obtain ⟨fuel, out, xs, h1, h2, h3, h4, h5, h6, -⟩ := schedule_spec disk cfg d hs hdrop hb hdvd hn hne S hf hS hlen order ho orders hor
  exact ⟨fuel, out, xs, h1, h2, h3, h4, h5, h6⟩

theorem maxLen_attained {ss : List (List α)} (h : ss ≠ []) : ∃ s ∈ ss, s.length = maxLen ss := by
  by_cases h0 : maxLen ss = 0
  · obtain ⟨s, hs⟩ := List.exists_mem_of_ne_nil _ h
    have := le_maxLen hs
    exact ⟨s, hs, by omega⟩
  · obtain ⟨s, hs, hl⟩ := maxLen_mem (ss := ss) (k := maxLen ss - 1) (by omega)
    have := le_maxLen hs
    exact ⟨s, hs, by omega⟩

theorem maxLen_perm {a b : List (List α)} (h : a.Perm b) : maxLen a = maxLen b := by
  by_cases hn : a = []
  · subst hn
    rw [List.Perm.nil_eq h]
  · have hb : b ≠ [] := fun h0 => hn (by subst h0; exact List.Perm.eq_nil h)
    obtain ⟨s, hs, h1⟩ := maxLen_attained hn
    obtain ⟨t, ht, h2⟩ := maxLen_attained hb
    have h3 := le_maxLen (h.mem_iff.1 hs)
    have h4 := le_maxLen (h.mem_iff.2 ht)
    omega

/-- A batch of samples that are whole files is zero-padded and as wide as the longest. -/
theorem packed_collateST (batch : List (Sample α)) (hne : batch ≠ []) (hl : ∀ s ∈ batch, s.length = s.data.length) (x : ST α) (hx : collateST batch = .ok x) :
    WellPacked x ∧ Tight x.width (unpack x) := by
  obtain ⟨x', h1, h2⟩ := unpack_collateST batch hne (fun s hs => (hl s hs).le)
  rw [h1] at hx
  cases hx
  rw [collateST_eq batch hne] at h1
  have hperm : (sortByLength batch).Perm batch := List.mergeSort_perm _ _
  have hm : maxLen ((sortByLength batch).map Sample.data) = maxLen (batch.map Sample.data) := maxLen_perm (hperm.map _)
  have hfr : ∀ s ∈ sortByLength batch, s.data.take s.length = s.data := by
    intro s hs
    rw [hl s (hperm.mem_iff.1 hs), List.take_length]
  cases h1
  refine ⟨⟨Meta.ofRows_wf _ _, ?_, rfl, ?_, ?_⟩, ?_⟩
  · rw [Meta.ofRows_rows _ _ (by intro r hr; obtain ⟨s, -, rfl⟩ := List.mem_map.1 hr; rfl), h2, List.map_map]
    apply List.map_congr_left
    intro s hs
    simp [Sample.chunk, Chunk.row, hfr s hs, hl s (hperm.mem_iff.1 hs)]
  · intro c hc
    rw [h2] at hc
    obtain ⟨s, hs, rfl⟩ := List.mem_map.1 hc
    show (s.data.take s.length).length ≤ _
    rw [hfr s hs]
    exact le_maxLen (List.mem_map_of_mem (f := Sample.data) (hperm.mem_iff.1 hs))
  · rw [h2, List.map_map]
    apply List.map_congr_left
    intro s hs
    show _ = s.data.take s.length ++ _
    simp only [Function.comp_apply, Sample.chunk]
    rw [hfr s hs, hm]
  · obtain ⟨d, hd, he⟩ : ∃ d ∈ batch.map Sample.data, d.length = maxLen (batch.map Sample.data) :=
      maxLen_attained (by simpa using hne)
    obtain ⟨s, hs, rfl⟩ := List.mem_map.1 hd
    refine ⟨s.chunk, ?_, ?_⟩
    · rw [h2]
      exact List.mem_map_of_mem (hperm.mem_iff.2 hs)
    · show (s.data.take s.length).length = _
      rw [hfr s (hperm.mem_iff.2 hs)]
      exact he

theorem collateAll_mem {out : List (List (Sample α))} {xs : List (ST α)} (h : collateAll out = .ok xs) : ∀ x ∈ xs, ∃ b ∈ out, collateST b = .ok x := by
  induction out generalizing xs with
  | nil =>
    cases h
    simp
  | cons b bs ih =>
    simp only [collateAll] at h
    obtain ⟨y, h1, h⟩ := Meta.bind_ok_iff h
    obtain ⟨ys, h2, h⟩ := Meta.bind_ok_iff h
    cases h
    intro x hx
    rcases List.mem_cons.1 hx with rfl | hx
    · exact ⟨b, by simp, h1⟩
    · obtain ⟨b', hb, h3⟩ := ih h2 x hx
      exact ⟨b', by simp [hb], h3⟩

/-- Whole files in one chunk each: no call raises if the kernel fits in one padded file of every batch. -/
theorem run_starts {β : Type} [Zero β] (c : Cfg) (hv : c.Valid) (g : List α → β) (xs : List (ST α)) (hx : Schedule xs)
    (hse : ∀ z ∈ xs, ∀ y ∈ unpack z, y.sos = true ∧ y.eos = true) (hlong : ∀ z ∈ xs, ∃ y ∈ unpack z, span c ≤ y.frames.length + 2 * c.padding) :
    ∃ ys buf, run c g (fun _ => none) xs = .ok (ys, buf) := by
  obtain ⟨n, hn⟩ : ∃ n, xs.length = n := ⟨_, rfl⟩
  induction n generalizing xs with
  | zero =>
    rw [List.length_eq_zero_iff.1 hn]
    exact ⟨[], _, rfl⟩
  | succ n ih =>
    obtain ⟨xs, x, rfl⟩ : ∃ l a, xs = l ++ [a] := by
      rcases List.eq_nil_or_concat xs with h | ⟨l, a, h⟩
      · simp [h] at hn
      · exact ⟨l, a, by rw [h, List.concat_eq_append]⟩
    obtain ⟨ys, buf, hrun⟩ := ih xs (schedule_prefix hx) (fun z hz => hse z (by simp [hz])) (fun z hz => hlong z (by simp [hz])) (by simpa using hn)
    obtain ⟨y, hy, hyk⟩ := hlong x (by simp)
    obtain ⟨h1, h2⟩ := hse x (by simp) y hy
    obtain ⟨o, ho⟩ := (C59_exact_partial c hv g xs x hx ys buf hrun _ Iff.rfl).2.1
      (by rintro ⟨-, -, ⟨z, hz, h⟩, -⟩
          rw [(hse x (by simp) z hz).1] at h
          cases h)
      ⟨y, hy, by unfold inp; simp only [List.length_append, h1, h2, if_true, zeros_length]; omega⟩
    exact ⟨_, _, run_snoc c g x o xs _ ys buf hrun ho⟩

theorem flatMap_range {β γ : Type} (l : List β) (f : β → List γ) (h : Nat → List γ) (hk : ∀ k s, l[k]? = some s → f s = h k) :
    l.flatMap f = (List.range l.length).flatMap h := by
  rw [List.flatMap_def, List.flatMap_def]
  congr 1
  apply List.ext_getElem?
  intro k
  rw [List.getElem?_map, List.getElem?_map]
  by_cases hl : k < l.length
  · rw [List.getElem?_range hl, List.getElem?_eq_getElem hl]
    simp only [Option.map_some]
    rw [hk k _ (List.getElem?_eq_getElem hl)]
  · rw [List.getElem?_eq_none (by omega), List.getElem?_eq_none (by simpa using hl)]
    rfl

/-- **C161 is false of the code.** A file 1, 2, 3 cut into chunks of two frames: both samples carry the whole file (C74), so the network is given the frames 1, 2 and then 1 again, and a convolution with kernel 1 puts out
1, 2, 1. -/
theorem C161_stream_false : ((loader (fun _ => ([(1 : Int), 2, 3], 1)) ⟨1, 1, false, false, false⟩ ⟨["a"], 2, none, none, 1, false, false, [("a", 3, 1)], [("a", 3)]⟩ [0] id 20).bind fun r =>
      (collateAll r.1).bind fun xs => (run ⟨1, 1, 1, 0⟩ exG (fun _ => none) xs).map fun ys => (xs.length, collected "a" xs, collected "a" ys.1)) =
        .ok (2, [1, 2, 1], [1, 2, 1]) ∧ offline ⟨1, 1, 1, 0⟩ exG [(1 : Int), 2, 3] = [1, 2, 3] := by
  have h1 : loader (fun _ => ([(1 : Int), 2, 3], 1)) ⟨1, 1, false, false, false⟩ ⟨["a"], 2, none, none, 1, false, false, [("a", 3, 1)], [("a", 3)]⟩ [0] id 20 =
      .ok ([[⟨[1, 2, 3], true, false, 2, 0, 2, "a"⟩], [⟨[1, 2, 3], false, true, 1, 1, 2, "a"⟩]], .returned) := by decide +kernel
  have h2 : ∀ s : Sample Int, collateST [s] = .ok ⟨⟨[s.id], [s.sos], [s.eos], [(s.length : Int)], some [(s.chunkIndex : Int)]⟩, s.data.length, [s.data]⟩ := by
    intro s
    rw [collateST_eq _ (by simp)]
    simp [sortByLength, Meta.ofRows, maxLen, zeros]
  refine ⟨?_, by decide⟩
  rw [h1]
  simp only [Except.bind, collateAll, h2, Except.bind_ok']
  decide

/-- C161, and the chunks of files that are one chunk each. -/
theorem stream_spec (disk : Disk α) (cfg : LoaderCfg) (d : Dataset α) (hs : Splittable d) (hdrop : cfg.dropLast = false) (hb : 0 < cfg.batchSize)
    (hdvd : max 1 cfg.numWorkers ∣ cfg.batchSize) (hn : d.files.Nodup) (hne : d.files ≠ [])
    (audio : String → List α) (size : String → Nat) (hL : ∀ f ∈ d.files, audio f ≠ []) (hsize : ∀ f ∈ d.files, 0 < size f)
    (hf : ∀ f ∈ d.files, processData disk d f = chunkSamples (size f : Int) f (audio f))
    (order : List Nat) (ho : order.Perm (List.range d.files.length)) (orders : List (List String) → List (List String))
    (hor : ∀ ls, List.Forall₂ List.Perm (orders ls) ls) :
    ∃ fuel out xs, loader disk cfg d order orders fuel = .ok (out, .returned) ∧ collateAll out = .ok xs ∧
      (∀ f ∈ d.files, collected f xs = (List.range (((audio f).length + size f - 1) / size f)).flatMap fun k => (audio f).take (min (size f) ((audio f).length - k * size f))) ∧
      ((∀ f ∈ d.files, (audio f).length ≤ size f) → Schedule xs ∧
        (∀ f ∈ d.files, ∃ k, Conv.chunksOf f (xs.map unpack) = [⟨f, true, true, k, audio f⟩]) ∧ (∀ i, i ∉ d.files → Conv.chunksOf i (xs.map unpack) = []) ∧
        ∀ (β : Type) [Zero β] (c : Cfg) (g : List α → β), c.Valid →
          ((∀ f ∈ d.files, span c ≤ (audio f).length + 2 * c.padding) → ∃ ys buf, run c g (fun _ => none) xs = .ok (ys, buf)) ∧
          ∀ ys buf, run c g (fun _ => none) xs = .ok (ys, buf) → ∀ f ∈ d.files, collected f ys = offline c g (audio f)) := by
  classical
  have hex : ∀ f, ∃ ss : List (Sample α), f ∈ d.files → processData disk d f = .ok ss ∧ ss.length = ((audio f).length + size f - 1) / size f ∧ WholeFile f ss ∧
      (∀ s ∈ ss, s.data = audio f) ∧
      ∀ k s, ss[k]? = some s → s.length = min (size f) ((audio f).length - k * size f) ∧ 0 < s.length := by
    intro f
    by_cases hm : f ∈ d.files
    · obtain ⟨ss, h1, h2, h3, -, h5⟩ := C73_tiles (size f) (hsize f hm) f (audio f) (hL f hm)
      refine ⟨ss, fun _ => ⟨by rw [hf f hm, h1], h2, h3, (C74_partial (size f) (hsize f hm) f (audio f) ss h1).1, ?_⟩⟩
      intro k s hk
      exact ⟨(h5 k s hk).2.2.1, (h5 k s hk).2.2.2.1⟩
    · exact ⟨[], fun h => absurd h hm⟩
  choose S hS using hex
  have hlen : ∀ x ∈ d.files, ∀ s ∈ S x, 0 < s.length ∧ s.length ≤ s.data.length := by
    intro x hx s hs
    obtain ⟨-, -, -, h4, h5⟩ := hS x hx
    obtain ⟨k, hk⟩ := List.mem_iff_getElem?.1 hs
    have := h5 k s hk
    rw [h4 s hs]
    omega
  obtain ⟨fuel, out, xs, h1, h2, h3, h4, h5, h6, h7⟩ := schedule_spec disk cfg d hs hdrop hb hdvd hn hne S (fun x hx => (hS x hx).1) (fun x hx => (hS x hx).2.2.1) hlen order ho orders hor
  have hcol : ∀ f ∈ d.files, collected f xs = (List.range (((audio f).length + size f - 1) / size f)).flatMap fun k => (audio f).take (min (size f) ((audio f).length - k * size f)) := by
    intro f hm
    obtain ⟨-, g2, -, g4, g5⟩ := hS f hm
    unfold collected allFrames
    rw [(h5 f hm).2, List.flatMap_map]
    rw [← g2]
    apply flatMap_range
    intro k s hk
    rw [g4 s (List.mem_of_getElem? hk), (g5 k s hk).1]
  refine ⟨fuel, out, xs, h1, h2, hcol, ?_⟩
  intro hone
  have hwhole : ∀ f ∈ d.files, ∃ s : Sample α, S f = [s] ∧ s.length = s.data.length ∧ s.data = audio f ∧ s.sos = true ∧ s.eos = true := by
    intro f hm
    obtain ⟨-, g2, g3, g4, g5⟩ := hS f hm
    have hpos : 0 < (audio f).length := List.length_pos_iff.2 (hL f hm)
    have := hone f hm
    have hl : (S f).length = 1 := by
      rw [g2]
      exact Nat.div_eq_of_lt_le (by omega) (by omega)
    obtain ⟨s, hs⟩ := List.length_eq_one_iff.1 hl
    have g50 := g5 0 s (by rw [hs]; rfl)
    have g30 := g3.2 0 s (by rw [hs]; rfl)
    have g40 := g4 s (by rw [hs]; simp)
    refine ⟨s, hs, ?_, g40, by simp [g30.2.1], by simp [g30.2.2, hl]⟩
    rw [g50.1, g40]
    omega
  have hch : ∀ x ∈ xs, ∀ y ∈ unpack x, y.id ∈ d.files ∧ y.sos = true ∧ y.eos = true ∧ y.frames = audio y.id := by
    intro x hx y hy
    obtain ⟨b, hb, hc⟩ := collateAll_mem h2 x hx
    obtain ⟨g1, g2⟩ := h7 b hb
    obtain ⟨x', e1, e2⟩ := unpack_collateST b g1 (fun s hs => (hlen s.id (g2 s hs).1 s (g2 s hs).2).2)
    rw [hc] at e1
    cases e1
    rw [e2] at hy
    obtain ⟨s, hs, rfl⟩ := List.mem_map.1 hy
    have hperm : (sortByLength b).Perm b := List.mergeSort_perm _ _
    have g3 := g2 s (hperm.mem_iff.1 hs)
    obtain ⟨s', q1, q2, q3, q4, q5⟩ := hwhole s.id g3.1
    rw [q1] at g3
    obtain rfl : s = s' := by simpa using g3.2
    exact ⟨g3.1, q4, q5, by show s.data.take s.length = _; rw [q2, List.take_length, q3]; rfl⟩
  have hsch : Schedule xs := by
    refine ⟨fun x hx => ?_, fun i => ?_⟩
    · obtain ⟨b, hb, hc⟩ := collateAll_mem h2 x hx
      obtain ⟨g1, g2⟩ := h7 b hb
      obtain ⟨p1, p2⟩ := packed_collateST b g1 (fun s hs => by
        obtain ⟨s', q1, q2, -⟩ := hwhole s.id (g2 s hs).1
        have := (g2 s hs).2
        rw [q1] at this
        obtain rfl : s = s' := by simpa using this
        exact q2) x hc
      exact ⟨p1, (h4 x hx).1, p2⟩
    · by_cases hm : i ∈ d.files
      · exact ⟨[Conv.chunksOf i (xs.map unpack)], [], by simp, by simpa using (h5 i hm).1, .inl rfl⟩
      · rw [h6 i hm]
        exact ⟨[], [], rfl, by simp, .inl rfl⟩
  refine ⟨hsch, ?_, h6, ?_⟩
  · intro f hm
    obtain ⟨s, q1, q2, q3, q4, q5⟩ := hwhole f hm
    have hc1 := (h5 f hm).2
    rw [q1] at hc1
    exact ⟨some (s.chunkIndex : Int), by rw [hc1, List.map_cons, List.map_nil, q2, List.take_length, q3, q4, q5]⟩
  intro β _ c g hv
  refine ⟨?_, ?_⟩
  · intro hfit
    refine run_starts c hv g xs hsch (fun z hz y hy => ⟨(hch z hz y hy).2.1, (hch z hz y hy).2.2.1⟩) ?_
    intro z hz
    obtain ⟨y, hy⟩ := List.exists_mem_of_ne_nil _ (h4 z hz).1.1
    obtain ⟨q1, -, -, q4⟩ := hch z hz y hy
    exact ⟨y, hy, by rw [q4]; exact hfit y.id q1⟩
  · intro ys buf hrun f hm
    obtain ⟨s, q1, q2, q3, -⟩ := hwhole f hm
    have hc1 := (h5 f hm).2
    rw [q1] at hc1
    rw [C52_clear_partial c hv g xs hsch ys buf hrun f (h5 f hm).1]
    · unfold collected
      rw [hc1]
      simp [allFrames, q2, q3]
    · intro p q hpq hp hq
      rw [hc1] at hpq
      have := congrArg List.length hpq
      have h1 := List.length_pos_iff.2 hp
      have h2 := List.length_pos_iff.2 hq
      simp at this
      omega

/-- **C161, where it holds.** Without drop_last, for files of at least one frame cut into chunks of `size f ≥ 1` frames: what the network is given of a file is, for every chunk, the *first* frames of the file, as many as the chunk
has. If no file is longer than its chunk size, the batches are a schedule (C50-C60 apply), no call raises if the kernel fits in every padded file, and whenever no call raises the outputs of every file are the
offline outputs of the file, for every convolution. Missing: files of several chunks (`C161_given_partial`). -/
theorem C161_stream_partial (disk : Disk α) (cfg : LoaderCfg) (d : Dataset α) (hs : Splittable d) (hdrop : cfg.dropLast = false) (hb : 0 < cfg.batchSize)
    (hdvd : max 1 cfg.numWorkers ∣ cfg.batchSize) (hn : d.files.Nodup) (hne : d.files ≠ [])
    (audio : String → List α) (size : String → Nat) (hL : ∀ f ∈ d.files, audio f ≠ []) (hsize : ∀ f ∈ d.files, 0 < size f)
    (hf : ∀ f ∈ d.files, processData disk d f = chunkSamples (size f : Int) f (audio f))
    (order : List Nat) (ho : order.Perm (List.range d.files.length)) (orders : List (List String) → List (List String))
    (hor : ∀ ls, List.Forall₂ List.Perm (orders ls) ls) :
    ∃ fuel out xs, loader disk cfg d order orders fuel = .ok (out, .returned) ∧ collateAll out = .ok xs ∧
      (∀ f ∈ d.files, collected f xs = (List.range (((audio f).length + size f - 1) / size f)).flatMap fun k => (audio f).take (min (size f) ((audio f).length - k * size f))) ∧
      ((∀ f ∈ d.files, (audio f).length ≤ size f) → Schedule xs ∧
        ∀ (β : Type) [Zero β] (c : Cfg) (g : List α → β), c.Valid →
          ((∀ f ∈ d.files, span c ≤ (audio f).length + 2 * c.padding) → ∃ ys buf, run c g (fun _ => none) xs = .ok (ys, buf)) ∧
          ∀ ys buf, run c g (fun _ => none) xs = .ok (ys, buf) → ∀ f ∈ d.files, collected f ys = offline c g (audio f)) := by
  obtain ⟨fuel, out, xs, h1, h2, h3, h4⟩ := stream_spec disk cfg d hs hdrop hb hdvd hn hne audio size hL hsize hf order ho orders hor
  exact ⟨fuel, out, xs, h1, h2, h3, fun h => ⟨(h4 h).1, (h4 h).2.2.2⟩⟩

-- Non-trivial case: the dataset of C82 with two workers, cut into chunks of three frames: every file is one chunk.
/-- The files of the example. -/
def exLong : Dataset Nat := ⟨["a", "b", "c"], 3, none, none, 2, false, false, [("a", 3, 1), ("b", 1, 1), ("c", 2, 1)], [("a", 3), ("b", 1), ("c", 2)]⟩
example : Splittable exLong ∧ exLong.files.Nodup ∧ exLong.files ≠ [] ∧ max 1 (2 : Int) ∣ 2 := ⟨⟨by decide +kernel, by decide, Or.inr (by decide)⟩, by decide, by decide, by decide⟩
example : ∀ f ∈ exLong.files, processData exLoadDisk exLong f = chunkSamples ((3 : Nat) : Int) f (exLoadDisk f).1 ∧ (exLoadDisk f).1 ≠ [] ∧ (exLoadDisk f).1.length ≤ 3 := by decide +kernel
example : (loader exLoadDisk ⟨2, 2, false, true, false⟩ exLong [1, 2, 0] id 0).map (fun r => (r.1.map fun b => b.map fun s => (s.id, s.length), r.2)) =
    .ok ([[("b", 1), ("a", 3)], [("c", 2)]], .returned) := by decide +kernel
example : ∀ f ∈ exLoad.files, processData exLoadDisk exLoad f = chunkSamples ((1 : Nat) : Int) f (exLoadDisk f).1 := by decide +kernel

end
end DS.Data
