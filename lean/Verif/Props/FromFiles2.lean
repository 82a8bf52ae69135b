import Verif.Props.FromFiles
import Verif.Props.ConvAct
/-!
# C161 for files of several chunks: what the network puts out for the frames it is given
-/

namespace DS.Data
open Conv
section
variable {α : Type} [Zero α]

theorem shaped_collateST (batch : List (Sample α)) (hne : batch ≠ []) (hl : ∀ s ∈ batch, s.length ≤ s.data.length) (x : ST α) (hx : collateST batch = .ok x) :
    Shaped x := by
  rw [collateST_eq batch hne] at hx
  cases hx
  have hperm : (sortByLength batch).Perm batch := List.mergeSort_perm _ _
  have hm : maxLen ((sortByLength batch).map Sample.data) = maxLen (batch.map Sample.data) := maxLen_perm (hperm.map _)
  refine ⟨Meta.ofRows_wf _ _, by simp [Meta.ofRows], ?_, ?_⟩
  · intro r hr
    obtain ⟨s, hs, rfl⟩ := List.mem_map.1 hr
    have : s.data.length ≤ maxLen (batch.map Sample.data) := le_maxLen (List.mem_map_of_mem (hperm.mem_iff.1 hs))
    simp only [List.length_append, zeros_length, hm]
    omega
  · intro l hl'
    simp only [Meta.ofRows, List.map_map] at hl'
    obtain ⟨s, hs, rfl⟩ := List.mem_map.1 hl'
    have h1 : s.data.length ≤ maxLen (batch.map Sample.data) := le_maxLen (List.mem_map_of_mem (hperm.mem_iff.1 hs))
    have h2 := hl s (hperm.mem_iff.1 hs)
    simp only [Function.comp_apply]
    omega

theorem run_zeroed' {β : Type} [Zero β] (c : Cfg) (hv : c.Valid) (hp : c.padding = 0) (g : List α → β) (xs : List (ST α)) (h : ∀ x ∈ xs, Shaped x) (buf : Buf α) :
    run c g buf xs = run c g buf (xs.map zeroed) := by
  induction xs generalizing buf with
  | nil => rfl
  | cons x xs ih =>
    simp only [run, List.map_cons]
    rw [C112_padding_partial c hv g buf x (zeroed x) (h x (by simp)) (zeroed_same (h x (by simp))) (.inl hp)]
    cases forward c g buf x with
    | error e => rfl
    | ok o => simp only [Except.bind_ok', ih (fun x hx => h x (by simp [hx])) o.buf]

/-- Batches of any width with anything in their padding: a module without padding gives for every sequence, ended or not, the offline output of its frames. -/
theorem run_loose {β : Type} [Zero β] (c : Cfg) (hv : c.Valid) (hs : c.stride ≤ c.kw) (hp : c.padding = 0) (g : List α → β) (xs : List (ST α)) (h : ∀ x ∈ xs, Shaped x ∧ BatchOK (unpack x))
    (hh : ∀ i, ∃ done cur, History (Conv.chunksOf i (xs.map unpack)) done cur) (ys : List (ST β)) (buf : Buf α) (hrun : run c g (fun _ => none) xs = .ok (ys, buf))
    (i : String) (hc : Complete (Conv.chunksOf i (xs.map unpack)) ∨ Conv.Open (Conv.chunksOf i (xs.map unpack))) : collected i ys = offline c g (collected i xs) := by
  have he : (xs.map zeroed).map unpack = xs.map unpack := by
    rw [List.map_map]
    exact List.map_congr_left fun x hx => unpack_zeroed (h x hx).1
  rw [run_zeroed' c hv hp g xs (fun x hx => (h x hx).1)] at hrun
  have hinv := (inv_run hv (xs.map zeroed) (inv_init c g) (by
    intro x hx
    obtain ⟨x0, h0, rfl⟩ := List.mem_map.1 hx
    rw [unpack_zeroed (h x0 h0).1]
    exact ⟨zeroed_wp (h x0 h0).1, (h x0 h0).2, .inl hp⟩) (by simpa [he] using hh) hrun).1
  rcases hc with hc | hc
  · have hem := (hinv.small hv hs).emitted i [Conv.chunksOf i (xs.map unpack)] [] (by
      simp only [List.nil_append, he]
      exact ⟨by simp, by simpa using hc, .inl rfl⟩)
    simp only [List.nil_append] at hem
    have := streamed_frames hem
    simpa [due, collected] using this
  · have hem := (hinv.small hv hs).emitted i [] (Conv.chunksOf i (xs.map unpack)) (by
      simp only [List.nil_append, he]
      exact ⟨by simp, by simp, .inr hc⟩)
    simp only [List.nil_append] at hem
    have := streamed_frames hem
    simpa [due, collected, offline, hp, zeros, hc.1] using this

/-- **C161, files of several chunks.** What the network is given of a file is, for every chunk, the *first* frames of the file, as many as the chunk has, and behind them the rest of the file, not counted by the metadata. A convolution without
padding (and with a stride of at most its width) does not see that rest: whenever no call raises, its outputs for every file are the offline outputs of the frames given. For files of one chunk these are the frames of the file. Missing: the frames
of the later chunks, which the network is never given; convolutions with padding, which see the rest of the file at the end of a shorter sequence (C112). -/
theorem C161_given_partial (disk : Disk α) (cfg : LoaderCfg) (d : Dataset α) (hs : Splittable d) (hdrop : cfg.dropLast = false) (hb : 0 < cfg.batchSize)
    (hdvd : max 1 cfg.numWorkers ∣ cfg.batchSize) (hn : d.files.Nodup) (hne : d.files ≠ [])
    (audio : String → List α) (size : String → Nat) (hL : ∀ f ∈ d.files, audio f ≠ []) (hsize : ∀ f ∈ d.files, 0 < size f)
    (hf : ∀ f ∈ d.files, processData disk d f = chunkSamples (size f : Int) f (audio f))
    (order : List Nat) (ho : order.Perm (List.range d.files.length)) (orders : List (List String) → List (List String))
    (hor : ∀ ls, List.Forall₂ List.Perm (orders ls) ls) :
    ∃ fuel out xs, loader disk cfg d order orders fuel = .ok (out, .returned) ∧ collateAll out = .ok xs ∧
      ∀ (β : Type) [Zero β] (c : Cfg) (g : List α → β), c.Valid → c.stride ≤ c.kw → c.padding = 0 →
        ∀ ys buf, run c g (fun _ => none) xs = .ok (ys, buf) → ∀ f ∈ d.files,
          collected f ys = offline c g ((List.range (((audio f).length + size f - 1) / size f)).flatMap fun k => (audio f).take (min (size f) ((audio f).length - k * size f))) := by
  classical
  have hex : ∀ f, ∃ ss : List (Sample α), f ∈ d.files → processData disk d f = .ok ss ∧ ss.length = ((audio f).length + size f - 1) / size f ∧ WholeFile f ss ∧
      (∀ s ∈ ss, s.data = audio f) ∧
      ∀ k s, ss[k]? = some s → s.length = min (size f) ((audio f).length - k * size f) ∧ 0 < s.length := by
    intro f
    by_cases hm : f ∈ d.files
    · obtain ⟨ss, h1, h2, h3, -, h5⟩ := C73_tiles (size f) (hsize f hm) f (audio f) (hL f hm)
      refine ⟨ss, fun _ => ⟨by rw [hf f hm, h1], h2, h3, (C74_partial (size f) (hsize f hm) f (audio f) ss h1).1, ?_⟩⟩
      intro k s hk
      exact ⟨(h5 k s hk).2.2.1, (h5 k s hk).2.2.2.1⟩
    · exact ⟨[], fun h => absurd h hm⟩
  choose S hS using hex
  have hlen : ∀ x ∈ d.files, ∀ s ∈ S x, 0 < s.length ∧ s.length ≤ s.data.length := by
    intro x hx s hs
    obtain ⟨-, -, -, h4, h5⟩ := hS x hx
    obtain ⟨k, hk⟩ := List.mem_iff_getElem?.1 hs
    have := h5 k s hk
    rw [h4 s hs]
    omega
  obtain ⟨fuel, out, xs, h1, h2, h3, h4, h5, h6, h7⟩ := schedule_spec disk cfg d hs hdrop hb hdvd hn hne S (fun x hx => (hS x hx).1) (fun x hx => (hS x hx).2.2.1) hlen order ho orders hor
  refine ⟨fuel, out, xs, h1, h2, ?_⟩
  intro β _ c g hv hst hp ys buf hrun f hm
  have hcol : collected f xs = (List.range (((audio f).length + size f - 1) / size f)).flatMap fun k => (audio f).take (min (size f) ((audio f).length - k * size f)) := by
    obtain ⟨-, g2, -, g4, g5⟩ := hS f hm
    unfold collected allFrames
    rw [(h5 f hm).2, List.flatMap_map, ← g2]
    apply flatMap_range
    intro k s hk
    rw [g4 s (List.mem_of_getElem? hk), (g5 k s hk).1]
  rw [← hcol]
  refine run_loose c hv hst hp g xs ?_ ?_ ys buf hrun f (.inl (h5 f hm).1)
  · intro x hx
    obtain ⟨b, hb, hc⟩ := collateAll_mem h2 x hx
    obtain ⟨g1, g2⟩ := h7 b hb
    exact ⟨shaped_collateST b g1 (fun s hs => (hlen s.id (g2 s hs).1 s (g2 s hs).2).2) x hc, (h4 x hx).1⟩
  · intro i
    by_cases hm : i ∈ d.files
    · exact ⟨[Conv.chunksOf i (xs.map unpack)], [], by simp, by simpa using (h5 i hm).1, .inl rfl⟩
    · rw [h6 i hm]
      exact ⟨[], [], rfl, by simp, .inl rfl⟩

-- Non-trivial case: the dataset of C82 cut into chunks of one frame, so that files of two and three frames come in several chunks.
example : Splittable exLoad ∧ exLoad.files.Nodup ∧ exLoad.files ≠ [] := ⟨⟨by decide +kernel, by decide, Or.inr (by decide)⟩, by decide, by decide⟩
example : ∀ f ∈ exLoad.files, processData exLoadDisk exLoad f = chunkSamples ((1 : Nat) : Int) f (exLoadDisk f).1 ∧ (exLoadDisk f).1 ≠ [] := by decide +kernel
example : (exLoadDisk "a").1.length = 3 ∧ (⟨2, 1, 1, 0⟩ : Cfg).Valid ∧ (⟨2, 1, 1, 0⟩ : Cfg).stride ≤ (⟨2, 1, 1, 0⟩ : Cfg).kw := by decide

end
end DS.Data
