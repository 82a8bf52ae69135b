import Verif.Props.FromFilesDrop
import Verif.Props.ConvMore
/-!
# C161: when the loader's batches are accepted
-/

namespace DS.Conv
section
variable {α β : Type} [Zero α] [Zero β]

/-- `no_missing` for batches of any width. -/
theorem no_missing_loose {c : Cfg} (hv : c.Valid) (hs : c.stride < c.kw) {g : List α → β} {xs : List (ST α)} {x : ST α}
    {outs : List (List (Chunk β))} {buf : Buf α} (hinv : Inv c g (xs.map unpack) outs buf) (a2 : BatchOK (unpack x))
    (hh : ∀ i, ∃ done cur, History (chunksOf i ((xs ++ [x]).map unpack)) done cur)
    (hne : 0 < c.padding ∨ ∀ z ∈ xs, ∀ y ∈ unpack z, y.frames ≠ []) :
    (stacked c buf (unpack x) && (unpack x).any (fun y => (buf y.id).isNone)) = false := by
  by_contra hcon
  rw [Bool.not_eq_false, Bool.and_eq_true] at hcon
  obtain ⟨hst, hany⟩ := hcon
  unfold stacked at hst
  simp only [Bool.and_eq_true, decide_eq_true_eq, Bool.not_eq_true'] at hst
  obtain ⟨⟨hk, hsos⟩, hsame⟩ := hst
  obtain ⟨y, hy, hys⟩ : ∃ y ∈ unpack x, y.sos = false := by
    unfold allSos at hsos
    rw [List.all_eq_false] at hsos
    obtain ⟨y, hy, h⟩ := hsos
    exact ⟨y, hy, by simpa using h⟩
  obtain ⟨z, hz, hzn⟩ := List.any_eq_true.1 hany
  -- all buffers of the batch have the same length
  have hlen : ((buf y.id).getD []).length = ((buf z.id).getD []).length := by
    have h := List.all_eq_true.1 hsame
    have h1 := h (buf y.id) (List.mem_map_of_mem (f := fun x : Chunk α => buf x.id) hy)
    have h2 := h (buf z.id) (List.mem_map_of_mem (f := fun x : Chunk α => buf x.id) hz)
    simp only [beq_iff_eq, bufLen] at h1 h2
    rw [h1, h2]
  have hz0 : (buf z.id).getD [] = [] := by
    rw [Option.isNone_iff_eq_none.1 hzn]; rfl
  rw [hz0] at hlen
  -- but the one of `y` is not empty
  obtain ⟨d, cur, h⟩ := hh y.id
  rw [List.map_append, chunksOf_append, List.map_singleton, chunksOf_single_mem _ a2.2.1 y hy] at h
  obtain ⟨d', cur', h', hsos', -⟩ := history_concat h
  have hcur : cur' ≠ [] := fun hc => by rw [hsos'.2 hc] at hys; simp at hys
  have hopen := (hinv.opened y.id d' cur' h' hcur).1
  rw [hopen] at hlen
  have := left_nil c hv hs _ (List.length_eq_zero_iff.1 hlen)
  rw [List.append_eq_nil_iff] at this
  obtain ⟨e1, e2⟩ := this
  rcases hne with hp | hp
  · have := congrArg List.length e1
    simp [zeros_length] at this
    omega
  · obtain ⟨u, hu⟩ := List.exists_mem_of_ne_nil _ hcur
    have hmem : u ∈ chunksOf y.id (xs.map unpack) := by rw [h'.1]; simp [hu]
    unfold chunksOf at hmem
    obtain ⟨l, hl, hul⟩ := List.mem_flatten.1 (List.mem_filter.1 hmem).1
    obtain ⟨w, hw, rfl⟩ := List.mem_map.1 hl
    exact hp w hw u hul (by
      unfold allFrames at e2
      exact List.flatMap_eq_nil_iff.1 e2 u hu)

/-- After at least a kernel's worth of frames, at least the kernel less one stride is left. -/
theorem left_length_ge (c : Cfg) (hv : c.Valid) (f : List α) (h : c.kw ≤ f.length) : c.kw ≤ (left c f).length + c.stride := by
  unfold left
  have h0 := (lt_nOut c hv f.length 0).2 (by omega)
  have h1 := (lt_nOut c hv f.length (nOut c f.length - 1)).1 (by omega)
  have h2 : nOut c f.length * c.stride = (nOut c f.length - 1) * c.stride + c.stride := by
    conv => lhs; rw [show nOut c f.length = (nOut c f.length - 1) + 1 by omega, Nat.add_mul, Nat.one_mul]
  rw [List.length_drop]
  omega

/-- Batches of any width: if the kernel fits in the first chunk of every sequence with its padding, and every chunk has at least a stride of frames, no call raises. -/
theorem runs_loose (c : Cfg) (hv : c.Valid) (hs : c.stride < c.kw) (g : List α → β) (xs : List (ST α))
    (h : ∀ x ∈ xs, WellPacked x ∧ BatchOK (unpack x) ∧ WidthOK c x.width (unpack x)) (hh : ∀ i, ∃ done cur, History (chunksOf i (xs.map unpack)) done cur)
    (hlong : ∀ z ∈ xs, ∀ y ∈ unpack z, c.stride ≤ y.frames.length ∧ (y.sos = true → span c ≤ c.padding + y.frames.length)) :
    ∃ ys buf, run c g (fun _ => none) xs = .ok (ys, buf) := by
  obtain ⟨n, hn⟩ : ∃ n, xs.length = n := ⟨_, rfl⟩
  induction n generalizing xs with
  | zero =>
    rw [List.length_eq_zero_iff.1 hn]
    exact ⟨[], _, rfl⟩
  | succ n ih =>
    obtain ⟨xs, x, rfl⟩ : ∃ l a, xs = l ++ [a] := by
      rcases List.eq_nil_or_concat xs with h | ⟨l, a, h⟩
      · simp [h] at hn
      · exact ⟨l, a, by rw [h, List.concat_eq_append]⟩
    have hh' : ∀ i, ∃ done cur, History (chunksOf i (xs.map unpack)) done cur := by
      intro i
      obtain ⟨d, cur, hd⟩ := hh i
      rw [List.map_append, chunksOf_append] at hd
      exact history_prefix _ _ ⟨d, cur, hd⟩
    have hspos : 0 < c.stride := hv.2.2
    have hne' : ∀ z ∈ xs, ∀ y ∈ unpack z, y.frames ≠ [] := fun z hz y hy hc => by
      have := (hlong z (by simp [hz]) y hy).1
      rw [hc] at this
      simp at this
      omega
    obtain ⟨ys, buf, hrun⟩ := ih xs (fun z hz => h z (by simp [hz])) hh' (fun z hz => hlong z (by simp [hz])) (by simpa using hn)
    have hinvG := (inv_run hv xs (inv_init c g) (fun z hz => h z (by simp [hz])) (by simpa using hh') hrun).1
    simp only [List.nil_append] at hinvG
    have hinv := hinvG.small hv (by omega)
    obtain ⟨a1, a2, a3⟩ := h x (by simp)
    have hpre := inv_preOK hinvG a2 a1.2.2.2.1 (by simpa using hh)
    obtain ⟨w', h1, -, h3⟩ := forward_pk c hv g buf x.md.chunk.isSome x.width (unpack x) a2.1 hpre a3
    rw [← packs_pk a1, no_missing_loose hv hs hinv a2 hh (.inr hne')] at h3
    obtain ⟨y, hy⟩ := List.exists_mem_of_ne_nil _ a2.1
    obtain ⟨hy1, hy2⟩ := hlong x (by simp) y hy
    have hw := h1 y hy
    rw [span_eq c hv] at hy2
    have hi : c.kw ≤ (inp c buf y).length := by
      unfold inp
      simp only [List.length_append]
      cases hsos : y.sos with
      | true =>
        have := hy2 hsos
        simp only [if_true, zeros_length]
        omega
      | false =>
        obtain ⟨d, cur, hd⟩ := hh y.id
        rw [List.map_append, chunksOf_append, List.map_singleton, chunksOf_single_mem _ a2.2.1 y hy] at hd
        obtain ⟨d', cur', h', hsos', -⟩ := history_concat hd
        have hcur : cur' ≠ [] := fun hc => by rw [hsos'.2 hc] at hsos; simp at hsos
        obtain ⟨u, us, rfl⟩ := List.exists_cons_of_ne_nil hcur
        have hu : u.sos = true := by
          rcases h'.2.2 with hc | hc
          · simp at hc
          · exact (hc.2.1 0 u rfl).2 rfl
        have hmem : u ∈ chunksOf y.id (xs.map unpack) := by rw [h'.1]; simp
        unfold chunksOf at hmem
        obtain ⟨l, hl, hul⟩ := List.mem_flatten.1 (List.mem_filter.1 hmem).1
        obtain ⟨w, hw, rfl⟩ := List.mem_map.1 hl
        have hlu := (hlong w (by simp [hw]) u hul).2 hu
        rw [span_eq c hv] at hlu
        have hge := left_length_ge c hv (zeros c.padding ++ allFrames (u :: us)) (by
          simp only [List.length_append, zeros_length, allFrames, List.flatMap_cons]
          omega)
        rw [(hinv.opened y.id d' _ h' hcur).1]
        simp only [Bool.false_eq_true, if_false]
        omega
    simp only [Bool.false_eq_true, if_false] at h3
    rw [if_neg (by omega)] at h3
    exact ⟨_, _, run_snoc c g x _ xs _ ys buf hrun h3⟩

/-- C58 and C59, chunks shorter than the kernel: they do no harm behind the first chunk of their sequence. If the kernel fits in the first chunk of every sequence with the padding before it, and every chunk has at least a stride of frames,
no call raises. Missing: first chunks in which the kernel does not fit (`C58_short_chunk_false`); chunks shorter than a stride; strides equal to the kernel width (C59). -/
theorem C58_starts_partial (c : Cfg) (hv : c.Valid) (hs : c.stride < c.kw) (g : List α → β) (xs : List (ST α)) (hx : Schedule xs)
    (hfirst : ∀ z ∈ xs, ∀ y ∈ unpack z, y.sos = true → span c ≤ c.padding + y.frames.length) (hlong : ∀ z ∈ xs, ∀ y ∈ unpack z, c.stride ≤ y.frames.length) :
    ∃ ys buf, run c g (fun _ => none) xs = .ok (ys, buf) :=
  runs_loose c hv hs g xs (fun x h => ⟨(hx.1 x h).1, (hx.1 x h).2.1, .inr (.inr (.inr (hx.1 x h).2.2.reaches))⟩) hx.2 fun z hz y hy => ⟨hlong z hz y hy, hfirst z hz y hy⟩

example : (⟨2, 1, 1, 1⟩ : Cfg).Valid ∧ (⟨2, 1, 1, 1⟩ : Cfg).stride < (⟨2, 1, 1, 1⟩ : Cfg).kw ∧ Schedule exXs ∧
    (∀ z ∈ exXs, ∀ y ∈ unpack z, y.sos = true → span ⟨2, 1, 1, 1⟩ ≤ 1 + y.frames.length) ∧ ∀ z ∈ exXs, ∀ y ∈ unpack z, 1 ≤ y.frames.length :=
  ⟨by decide, by decide, exXs_schedule, by decide, by decide⟩

/-- A stream of four frames in chunks of three and one. -/
def exTail : List (ST Int) :=
  [ { md := ⟨["a"], [true], [false], [3], none⟩, width := 3, rows := [[1, 2, 3]] }, { md := ⟨["a"], [false], [true], [1], none⟩, width := 1, rows := [[4]] } ]

/-- **C58 is false of the code**, also behind a first chunk in which the kernel fits: with a stride of two, a kernel of three frames leaves one frame of the first three, and a last chunk of one frame raises RuntimeError
(with a stride of one it is accepted: `C58_starts_partial`). -/
theorem C58_tail_false :
    Schedule exTail ∧ run ⟨3, 1, 2, 0⟩ exG (fun _ => none) exTail = .error .runtimeError ∧ (run ⟨3, 1, 1, 0⟩ exG (fun _ => none) exTail).isOk = true := by
  refine ⟨⟨by decide, ?_⟩, rfl, rfl⟩
  intro i
  by_cases ha : i = "a"
  · subst ha
    refine ⟨[[⟨"a", true, false, none, [1, 2, 3]⟩, ⟨"a", false, true, none, [4]⟩]], [], by decide, ?_, .inl rfl⟩
    intro s hs
    rw [List.mem_singleton.1 hs]
    refine ⟨by simp, ?_, ?_⟩ <;>
    · intro k c hk
      rcases k with - | - | k <;> simp at hk <;> subst hk <;> simp
  · refine ⟨[], [], ?_⟩
    have : chunksOf i (exTail.map unpack) = [] := by
      unfold chunksOf
      rw [List.filter_eq_nil_iff]
      intro x hx
      have : ∀ x ∈ (exTail.map unpack).flatten, x.id = "a" := by decide
      simp [this x hx, Ne.symm ha]
    rw [this]
    exact ⟨rfl, by simp, .inl rfl⟩

end
end DS.Conv

namespace DS.Data
open Conv
section
variable {α : Type} [Zero α]

/-- **C161, no call raises.** If the files and their chunks are at least as long as the kernel (the last chunk of a file may be shorter, but not shorter than the stride), no call with the loader's batches raises, and the outputs for every file are the
offline outputs of the frames given. Missing: the frames of the later chunks, as in `C161_given_partial`; batches all of whose rows see less than the kernel, which raise RuntimeError (C58); strides equal to the kernel width, which can raise TypeError (C59); convolutions with padding. -/
theorem C161_runs_partial (disk : Disk α) (cfg : LoaderCfg) (d : Dataset α) (hs : Splittable d) (hdrop : cfg.dropLast = false) (hb : 0 < cfg.batchSize)
    (hdvd : max 1 cfg.numWorkers ∣ cfg.batchSize) (hn : d.files.Nodup) (hne : d.files ≠ [])
    (audio : String → List α) (size : String → Nat) (hL : ∀ f ∈ d.files, audio f ≠ []) (hsize : ∀ f ∈ d.files, 0 < size f)
    (hf : ∀ f ∈ d.files, processData disk d f = chunkSamples (size f : Int) f (audio f))
    (order : List Nat) (ho : order.Perm (List.range d.files.length)) (orders : List (List String) → List (List String))
    (hor : ∀ ls, List.Forall₂ List.Perm (orders ls) ls) :
    ∃ fuel out xs, loader disk cfg d order orders fuel = .ok (out, .returned) ∧ collateAll out = .ok xs ∧
      ∀ (β : Type) [Zero β] (c : Cfg) (g : List α → β), c.Valid → c.stride < c.kw → c.padding = 0 →
        (∀ f ∈ d.files, span c ≤ min (size f) (audio f).length ∧ ∀ k < ((audio f).length + size f - 1) / size f, c.stride ≤ min (size f) ((audio f).length - k * size f)) →
        ∃ ys buf, run c g (fun _ => none) xs = .ok (ys, buf) ∧ ∀ f ∈ d.files,
          collected f ys = offline c g ((List.range (((audio f).length + size f - 1) / size f)).flatMap fun k => (audio f).take (min (size f) ((audio f).length - k * size f))) := by
  classical
  have hex : ∀ f, ∃ ss : List (Sample α), f ∈ d.files → processData disk d f = .ok ss ∧ ss.length = ((audio f).length + size f - 1) / size f ∧ WholeFile f ss ∧
      (∀ s ∈ ss, s.data = audio f) ∧
      ∀ k s, ss[k]? = some s → s.length = min (size f) ((audio f).length - k * size f) ∧ 0 < s.length := by
    intro f
    by_cases hm : f ∈ d.files
    · obtain ⟨ss, h1, h2, h3, -, h5⟩ := C73_tiles (size f) (hsize f hm) f (audio f) (hL f hm)
      refine ⟨ss, fun _ => ⟨by rw [hf f hm, h1], h2, h3, (C74_partial (size f) (hsize f hm) f (audio f) ss h1).1, ?_⟩⟩
      intro k s hk
      exact ⟨(h5 k s hk).2.2.1, (h5 k s hk).2.2.2.1⟩
    · exact ⟨[], fun h => absurd h hm⟩
  choose S hS using hex
  have hlen : ∀ x ∈ d.files, ∀ s ∈ S x, 0 < s.length ∧ s.length ≤ s.data.length := by
    intro x hx s hs
    obtain ⟨-, -, -, h4, h5⟩ := hS x hx
    obtain ⟨k, hk⟩ := List.mem_iff_getElem?.1 hs
    have := h5 k s hk
    rw [h4 s hs]
    omega
  obtain ⟨fuel, out, xs, h1, h2, h3, h4, h5, h6, h7⟩ := schedule_spec disk cfg d hs hdrop hb hdvd hn hne S (fun x hx => (hS x hx).1) (fun x hx => (hS x hx).2.2.1) hlen order ho orders hor
  refine ⟨fuel, out, xs, h1, h2, ?_⟩
  intro β _ c g hv hst hp hlong
  have hshape : ∀ x ∈ xs, Shaped x ∧ BatchOK (unpack x) := by
    intro x hx
    obtain ⟨b, hb, hc⟩ := collateAll_mem h2 x hx
    obtain ⟨g1, g2⟩ := h7 b hb
    exact ⟨shaped_collateST b g1 (fun s hs => (hlen s.id (g2 s hs).1 s (g2 s hs).2).2) x hc, (h4 x hx).1⟩
  have hhist : ∀ i, ∃ done cur, History (Conv.chunksOf i (xs.map unpack)) done cur := by
    intro i
    by_cases hm : i ∈ d.files
    · exact ⟨[Conv.chunksOf i (xs.map unpack)], [], by simp, by simpa using (h5 i hm).1, .inl rfl⟩
    · rw [h6 i hm]
      exact ⟨[], [], rfl, by simp, .inl rfl⟩
  have hframes : ∀ x ∈ xs, ∀ y ∈ unpack x, c.stride ≤ y.frames.length ∧ (y.sos = true → span c ≤ c.padding + y.frames.length) := by
    intro x hx y hy
    have hmem : y ∈ Conv.chunksOf y.id (xs.map unpack) := by
      unfold Conv.chunksOf
      exact List.mem_filter.2 ⟨List.mem_flatten.2 ⟨unpack x, List.mem_map_of_mem hx, hy⟩, by simp⟩
    have hm : y.id ∈ d.files := by
      by_contra hm
      rw [h6 y.id hm] at hmem
      simp at hmem
    obtain ⟨-, g2, -, g4, g5⟩ := hS y.id hm
    have hst := (h5 y.id hm).1.2.1
    rw [(h5 y.id hm).2] at hmem hst
    obtain ⟨s, hs, hy⟩ := List.mem_map.1 hmem
    obtain ⟨k, hk⟩ := List.mem_iff_getElem?.1 hs
    have hkl := (List.getElem?_eq_some_iff.1 hk).1
    have hq := g5 k s hk
    have hle := (hlen y.id hm s hs).2
    have hfr : y.frames.length = s.length := by
      rw [← hy]
      simp only [List.length_take]
      omega
    obtain ⟨q1, q2⟩ := hlong y.id hm
    refine ⟨by have := q2 k (by omega); omega, fun hys => ?_⟩
    have hk0 : k = 0 := (hst k y (by rw [List.getElem?_map, hk]; exact congrArg some hy)).1 hys
    subst hk0
    simp only [Nat.zero_mul, Nat.sub_zero] at hq
    omega
  have he : (xs.map zeroed).map unpack = xs.map unpack := by
    rw [List.map_map]
    exact List.map_congr_left fun x hx => unpack_zeroed (hshape x hx).1
  obtain ⟨ys, buf, hrun⟩ := runs_loose c hv hst g (xs.map zeroed) (by
      intro x hx
      obtain ⟨x0, h0, rfl⟩ := List.mem_map.1 hx
      rw [unpack_zeroed (hshape x0 h0).1]
      exact ⟨zeroed_wp (hshape x0 h0).1, (hshape x0 h0).2, .inl hp⟩) (by rw [he]; exact hhist) (by
      intro x hx
      obtain ⟨x0, h0, rfl⟩ := List.mem_map.1 hx
      rw [unpack_zeroed (hshape x0 h0).1]
      exact hframes x0 h0)
  rw [← run_zeroed' c hv hp g xs (fun x hx => (hshape x hx).1)] at hrun
  refine ⟨ys, buf, hrun, ?_⟩
  intro f hm
  have hcol : collected f xs = (List.range (((audio f).length + size f - 1) / size f)).flatMap fun k => (audio f).take (min (size f) ((audio f).length - k * size f)) := by
    obtain ⟨-, g2, -, g4, g5⟩ := hS f hm
    unfold collected allFrames
    rw [(h5 f hm).2, List.flatMap_map, ← g2]
    apply flatMap_range
    intro k s hk
    rw [g4 s (List.mem_of_getElem? hk), (g5 k s hk).1]
  rw [← hcol]
  exact run_loose c hv (by omega) hp g xs hshape hhist ys buf hrun f (.inl (h5 f hm).1)

/-- Three files of five, three and seven samples at one sample per second. -/
def exRunsDisk : Disk Nat := fun f => if f = "a" then ([1, 2, 3, 4, 5], 1) else if f = "b" then ([6, 7, 8], 1) else ([9, 10, 11, 12, 13, 14, 15], 1)
/-- In chunks of three seconds: chunks of three and two, three, and three, three and one frames. -/
def exRuns : Dataset Nat := ⟨["a", "b", "c"], 3, none, none, 2, false, false, [("a", 5, 1), ("b", 3, 1), ("c", 7, 1)], [("a", 5), ("b", 3), ("c", 7)]⟩
-- Non-trivial case: a kernel of three frames fits in the first chunks but not in the last ones.
example : Splittable exRuns ∧ exRuns.files.Nodup ∧ exRuns.files ≠ [] := ⟨⟨by decide +kernel, by decide, Or.inr (by decide)⟩, by decide, by decide⟩
example : ∀ f ∈ exRuns.files, processData exRunsDisk exRuns f = chunkSamples ((3 : Nat) : Int) f (exRunsDisk f).1 ∧ (exRunsDisk f).1 ≠ [] := by decide +kernel
example : (⟨3, 1, 1, 0⟩ : Cfg).Valid ∧ (⟨3, 1, 1, 0⟩ : Cfg).stride < (⟨3, 1, 1, 0⟩ : Cfg).kw ∧
    ∀ f ∈ exRuns.files, span ⟨3, 1, 1, 0⟩ ≤ min 3 (exRunsDisk f).1.length ∧ ∀ k < ((exRunsDisk f).1.length + 3 - 1) / 3, 1 ≤ min 3 ((exRunsDisk f).1.length - k * 3) := by decide +kernel

/-- **C161 with drop_last, no call raises**: under the conditions of `C161_runs_partial`, for any number of workers. What comes out is in `C161_drop_partial`. Missing: as there and in `C161_runs_partial`. -/
theorem C161_drop_runs_partial (disk : Disk α) (cfg : LoaderCfg) (d : Dataset α) (hs : Splittable d) (hdrop : cfg.dropLast = true) (hover : cfg.overlapping = true) (hn : d.files.Nodup)
    (audio : String → List α) (size : String → Nat) (hL : ∀ f ∈ d.files, audio f ≠ []) (hsize : ∀ f ∈ d.files, 0 < size f)
    (hf : ∀ f ∈ d.files, processData disk d f = chunkSamples (size f : Int) f (audio f))
    (order : List Nat) (ho : order.Perm (List.range d.files.length)) (orders : List (List String) → List (List String))
    (hor : ∀ ls, List.Forall₂ List.Perm (orders ls) ls) (fuel : Nat) (out : List (List (Sample α))) (e : Ended) (h : loader disk cfg d order orders fuel = .ok (out, e)) :
    ∃ xs, collateAll out = .ok xs ∧
      ∀ (β : Type) [Zero β] (c : Cfg) (g : List α → β), c.Valid → c.stride < c.kw → c.padding = 0 →
        (∀ f ∈ d.files, span c ≤ min (size f) (audio f).length ∧ ∀ k < ((audio f).length + size f - 1) / size f, c.stride ≤ min (size f) ((audio f).length - k * size f)) →
        ∃ ys buf, run c g (fun _ => none) xs = .ok (ys, buf) := by
  classical
  have hex : ∀ f, ∃ ss : List (Sample α), f ∈ d.files → processData disk d f = .ok ss ∧ ss.length = ((audio f).length + size f - 1) / size f ∧ WholeFile f ss ∧
      (∀ s ∈ ss, s.data = audio f) ∧
      ∀ k s, ss[k]? = some s → s.length = min (size f) ((audio f).length - k * size f) ∧ 0 < s.length := by
    intro f
    by_cases hm : f ∈ d.files
    · obtain ⟨ss, h1, h2, h3, -, h5⟩ := C73_tiles (size f) (hsize f hm) f (audio f) (hL f hm)
      refine ⟨ss, fun _ => ⟨by rw [hf f hm, h1], h2, h3, (C74_partial (size f) (hsize f hm) f (audio f) ss h1).1, ?_⟩⟩
      intro k s hk
      exact ⟨(h5 k s hk).2.2.1, (h5 k s hk).2.2.2.1⟩
    · exact ⟨[], fun h => absurd h hm⟩
  choose S hS using hex
  have hlen : ∀ x ∈ d.files, ∀ s ∈ S x, 0 < s.length ∧ s.length ≤ s.data.length := by
    intro x hx s hs
    obtain ⟨-, -, -, h4, h5⟩ := hS x hx
    obtain ⟨k, hk⟩ := List.mem_iff_getElem?.1 hs
    have := h5 k s hk
    rw [h4 s hs]
    omega
  have hf1 := fun x hx => (hS x hx).1
  have hf2 := fun x hx => (hS x hx).2.2.1
  obtain ⟨g1, g2, g3, -, -⟩ := drop_files disk cfg d hs hdrop hover hn S hf1 hf2 order ho orders hor fuel out e h
  obtain ⟨xs, h2, -, -, h4, h5, h6⟩ := C160_drop_last disk cfg d hs hdrop hover hn S hf1 hf2 hlen order ho orders hor fuel out e h
  have hch : ∀ i, Conv.chunksOf i (xs.map unpack) = (ofFile i out.flatten).map Sample.chunk := by
    intro i
    obtain ⟨xs', h7, h8⟩ := collateAll_ok out (fun b hb => (g2 b hb).1) (fun b hb s hs => (drop_lengths hlen g1 g3 b hb s hs).2)
    rw [h2, Except.ok.injEq] at h7
    rw [h7, h8]
    exact chunksOf_collated out (fun b hb => (g2 b hb).2) i
  refine ⟨xs, h2, ?_⟩
  intro β _ c g hv hst hp hlong
  have hshape : ∀ x ∈ xs, Shaped x ∧ BatchOK (unpack x) := by
    intro x hx
    obtain ⟨b, hb, hc⟩ := collateAll_mem h2 x hx
    exact ⟨shaped_collateST b (g2 b hb).1 (fun s hs => (drop_lengths hlen g1 g3 b hb s hs).2) x hc, (h4 x hx).1⟩
  have hhist : ∀ i, ∃ done cur, History (Conv.chunksOf i (xs.map unpack)) done cur := by
    intro i
    by_cases hm : i ∈ d.files
    · rcases h5 i hm with h7 | ⟨h7 | ⟨-, h7⟩, -⟩
      · rw [h7]
        exact ⟨[], [], rfl, by simp, .inl rfl⟩
      · exact ⟨[Conv.chunksOf i (xs.map unpack)], [], by simp, by simpa using h7, .inl rfl⟩
      · exact ⟨[], Conv.chunksOf i (xs.map unpack), by simp, by simp, .inr h7⟩
    · rw [h6 i hm]
      exact ⟨[], [], rfl, by simp, .inl rfl⟩
  have hframes : ∀ x ∈ xs, ∀ y ∈ unpack x, c.stride ≤ y.frames.length ∧ (y.sos = true → span c ≤ c.padding + y.frames.length) := by
    intro x hx y hy
    have hmem : y ∈ Conv.chunksOf y.id (xs.map unpack) := by
      unfold Conv.chunksOf
      exact List.mem_filter.2 ⟨List.mem_flatten.2 ⟨unpack x, List.mem_map_of_mem hx, hy⟩, by simp⟩
    have hm : y.id ∈ d.files := by
      by_contra hm
      rw [h6 y.id hm] at hmem
      simp at hmem
    obtain hz | ⟨hcomp, P, s, e', hpre, -, heq⟩ := h5 y.id hm
    · rw [hz] at hmem
      simp at hmem
    have hst : StartsOnce (Conv.chunksOf y.id (xs.map unpack)) := by
      rcases hcomp with hc | ⟨-, hc⟩
      · exact hc.2.1
      · exact hc.2.1
    obtain ⟨-, k2, -, k4, k5⟩ := hS y.id hm
    obtain ⟨k, hk⟩ := List.mem_iff_getElem?.1 hmem
    have hk0 := hst k y hk
    have hlk : (Conv.chunksOf y.id (xs.map unpack)).map (fun u => u.frames) = (P ++ [s]).map fun t => t.data.take t.length := by
      rw [heq, List.map_append, List.map_append, List.map_map]
      rfl
    have hfr : ((P ++ [s]).map fun t => t.data.take t.length)[k]? = some y.frames := by
      rw [← hlk, List.getElem?_map, hk]
      rfl
    rw [List.getElem?_map] at hfr
    obtain ⟨t, ht, hty⟩ := Option.map_eq_some_iff.1 hfr
    obtain ⟨r, hr⟩ := hpre
    have hk' := (List.getElem?_eq_some_iff.1 ht).1
    have hkS : (S y.id)[k]? = some t := by rw [← hr, List.getElem?_append_left hk']; exact ht
    have hkl := (List.getElem?_eq_some_iff.1 hkS).1
    have hq := k5 k t hkS
    have hle := (hlen y.id hm t (List.mem_of_getElem? hkS)).2
    have hfl : y.frames.length = t.length := by
      rw [← hty]
      simp only [List.length_take]
      omega
    obtain ⟨q1, q2⟩ := hlong y.id hm
    refine ⟨by have := q2 k (by omega); omega, fun hys => ?_⟩
    have hk0 : k = 0 := hk0.1 hys
    subst hk0
    simp only [Nat.zero_mul, Nat.sub_zero] at hq
    omega
  have he : (xs.map zeroed).map unpack = xs.map unpack := by
    rw [List.map_map]
    exact List.map_congr_left fun x hx => unpack_zeroed (hshape x hx).1
  obtain ⟨ys, buf, hrun⟩ := runs_loose c hv hst g (xs.map zeroed) (by
      intro x hx
      obtain ⟨x0, h0, rfl⟩ := List.mem_map.1 hx
      rw [unpack_zeroed (hshape x0 h0).1]
      exact ⟨zeroed_wp (hshape x0 h0).1, (hshape x0 h0).2, .inl hp⟩) (by rw [he]; exact hhist) (by
      intro x hx
      obtain ⟨x0, h0, rfl⟩ := List.mem_map.1 hx
      rw [unpack_zeroed (hshape x0 h0).1]
      exact hframes x0 h0)
  rw [← run_zeroed' c hv hp g xs (fun x hx => (hshape x hx).1)] at hrun
  exact ⟨ys, buf, hrun⟩

-- Non-trivial case: the dataset above with drop_last; one worker cuts `c` off behind its first chunk, in which the kernel fits.
example : Splittable { exRuns with dropLast := true } := ⟨by decide +kernel, by decide, Or.inr (by decide)⟩
example : (loader exRunsDisk ⟨2, 1, false, true, true⟩ { exRuns with dropLast := true } [2, 1, 0] id 0).map (fun r => (r.1.map fun b => b.map fun s => (s.id, s.eos, s.chunkIndex), r.2)) =
    .ok ([[("c", true, 0), ("b", true, 0)]], .returned) := by decide +kernel

end
end DS.Data
