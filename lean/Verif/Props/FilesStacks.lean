import Verif.Props.FromFilesRuns
import Verif.Props.UnpaddedTotal
/-!
# C58 and C161: stacks without padding, by the lengths of the chunks
-/

namespace DS.Conv
section
variable {α : Type} [Zero α]

theorem nOut_further (c : Cfg) (hv : c.Valid) (m n : Nat) (hm : c.kw ≤ m) : nOut c m + n ≤ nOut c (m + n * c.stride) := by
  have h0 := (lt_nOut c hv m 0).2 (by omega)
  have h1 := (lt_nOut c hv m (nOut c m - 1)).1 (by omega)
  have h2 := (lt_nOut c hv (m + n * c.stride) (nOut c m - 1 + n)).2 (by rw [Nat.add_mul]; omega)
  omega

theorem bare_offline (c : Cfg) (hv : c.Valid) (hp : c.padding = 0) (g : List α → α) (x : List α) : (offline c g x).length = nOut c x.length := by
  unfold offline
  rw [conv_length c hv]
  simp [hp, zeros]

theorem chain_cons (l : Layer α) (ls : List (Layer α)) (x : List α) : offlineChain (l :: ls) x = offlineChain ls (l.offline x) := rfl

theorem keeps_jump : ∀ (ls : List (Layer α)), (∀ l ∈ ls, l.Keeps) → 1 ≤ jump ls
  | [], _ => Nat.le_refl 1
  | .conv c g :: ls, h => by
    rw [jump_conv]
    exact Nat.mul_pos (h _ (List.mem_cons_self ..)).1.2.2 (keeps_jump ls fun l hl => h l (List.mem_cons_of_mem _ hl))
  | .act f :: ls, h => by
    rw [jump_act]
    exact keeps_jump ls fun l hl => h l (List.mem_cons_of_mem _ hl)

/-- From `need` frames on, every further `jump` frames give another output. -/
theorem chain_grows (ls : List (Layer α)) (hk : ∀ l ∈ ls, l.Keeps) (x y : List α) (n : Nat) (hx : need ls ≤ x.length) (hy : x.length + n * jump ls ≤ y.length) :
    1 ≤ (offlineChain ls x).length ∧ (offlineChain ls x).length + n ≤ (offlineChain ls y).length := by
  induction ls generalizing x y n with
  | nil =>
    simp only [offlineChain, List.foldl_nil, jump, need] at *
    omega
  | cons l ls ih =>
    have hks : ∀ l' ∈ ls, l'.Keeps := fun l' h => hk l' (List.mem_cons_of_mem _ h)
    have hkl := hk l (List.mem_cons_self ..)
    rw [chain_cons, chain_cons]
    cases l with
    | conv c g =>
      obtain ⟨hv, -, hp⟩ := hkl
      have hpos := need_pos ls
      rw [need_conv, span_eq c hv, hp] at hx
      rw [jump_conv] at hy
      have e1 : need ls ≤ nOut c x.length := by
        have := (lt_nOut c hv x.length (need ls - 1)).2 (by omega)
        omega
      have e2 : nOut c x.length + n * jump ls ≤ nOut c y.length := by
        refine Nat.le_trans (nOut_further c hv x.length (n * jump ls) (by have : 0 ≤ (need ls - 1) * c.stride := Nat.zero_le _; omega)) (nOut_mono c hv ?_)
        rw [Nat.mul_assoc, Nat.mul_comm (jump ls)]
        exact hy
      refine ih hks _ _ n ?_ ?_
      · show need ls ≤ (offline c g x).length
        rw [bare_offline c hv hp]
        exact e1
      · show (offline c g x).length + n * jump ls ≤ (offline c g y).length
        rw [bare_offline c hv hp, bare_offline c hv hp]
        exact e2
    | act f =>
      refine ih hks _ _ n ?_ ?_
      · show need ls ≤ (x.map f).length
        simpa [need_act] using hx
      · show (x.map f).length + n * jump ls ≤ (y.map f).length
        simpa [jump_act] using hy

theorem layer_nil {l : Layer α} (h : l.Keeps) : l.offline [] = [] := by
  cases l with
  | conv c g =>
    obtain ⟨hv, hs, hp⟩ := h
    rw [span_eq c hv] at hs
    refine List.length_eq_zero_iff.1 ?_
    show (offline c g []).length = 0
    rw [bare_offline c hv hp]
    by_contra hc
    have := (lt_nOut c hv ([] : List α).length 0).1 (by omega)
    simp at this
    omega
  | act f => rfl

theorem chain_nil : ∀ (ls : List (Layer α)), (∀ l ∈ ls, l.Keeps) → offlineChain ls [] = []
  | [], _ => rfl
  | l :: ls, h => by
    rw [chain_cons, layer_nil (h l (List.mem_cons_self ..))]
    exact chain_nil ls fun l' hl => h l' (List.mem_cons_of_mem _ hl)

theorem chain_dropLast (ls : List (Layer α)) (hk : ∀ l ∈ ls, l.Keeps) (x : List α) (h : offlineChain ls x ≠ []) : offlineChain ls.dropLast x ≠ [] := by
  rcases List.eq_nil_or_concat ls with hl | ⟨l', a, hl⟩
  · rw [hl] at h ⊢
    exact h
  · rw [List.concat_eq_append] at hl
    subst hl
    rw [List.dropLast_concat]
    intro hc
    apply h
    unfold offlineChain at hc ⊢
    rw [List.foldl_append, hc]
    exact layer_nil (hk a (by simp))

/-- **C58, stacks without padding, by the lengths of the chunks.** If every stream starts with a chunk long enough for one output of the stack, and each later chunk has at least as many frames as the stack takes for one more output, no call raises, whatever the batches are and hold besides. Missing:
shorter chunks (conditions on the calls are in `C58_stack_partial` and `C58_stack_needed_partial`); strides equal to the kernel width (C59). -/
theorem C58_stack_lengths_partial (ls : List (Layer α)) (hk : ∀ l ∈ ls, l.Keeps) (xs : List (ST α)) (hx : Loose xs)
    (hc : ∀ i u us, chunksOf i (xs.map unpack) = u :: us → u.sos = true ∧ need ls ≤ u.frames.length ∧ ∀ v ∈ us, jump ls ≤ v.frames.length) :
    ∃ zs t, chainRun (fresh ls) xs = .ok (zs, t) := by
  have key : ∀ P x Q, xs = P ++ x :: Q → ∀ u ∈ unpack x,
      (chunksOf u.id (P.map unpack) = [] ∧ u.sos = true ∧ collected u.id P = [] ∧ collected u.id (P ++ [x]) = u.frames ∧ need ls ≤ u.frames.length) ∨
      (chunksOf u.id (P.map unpack) ≠ [] ∧ need ls ≤ (collected u.id P).length ∧ (collected u.id P).length + jump ls ≤ (collected u.id (P ++ [x])).length) := by
    intro P x Q he u hu
    subst he
    have hnd := (hx.1 x (by simp)).2.2
    have h1 : chunksOf u.id ([x].map unpack) = [u] := by
      rw [List.map_singleton]
      exact chunksOf_single_mem _ hnd u hu
    have h2 : chunksOf u.id ((P ++ x :: Q).map unpack) = chunksOf u.id (P.map unpack) ++ u :: chunksOf u.id (Q.map unpack) := by
      rw [show P ++ x :: Q = P ++ ([x] ++ Q) by simp, List.map_append, List.map_append, chunksOf_append, chunksOf_append, h1]
      rfl
    have h3 : collected u.id (P ++ [x]) = collected u.id P ++ u.frames := by
      rw [collected_append]
      congr 1
      unfold collected
      rw [h1]
      simp [allFrames]
    cases hP : chunksOf u.id (P.map unpack) with
    | nil =>
      rw [hP] at h2
      have h0 : collected u.id P = [] := by unfold collected; rw [hP]; rfl
      obtain ⟨k1, k2, -⟩ := hc u.id u _ h2
      exact .inl ⟨rfl, k1, h0, by rw [h3, h0]; rfl, k2⟩
    | cons v vs =>
      rw [hP] at h2
      obtain ⟨-, k2, k3⟩ := hc u.id v _ h2
      have k4 := k3 u (by simp)
      have h0 : v.frames.length ≤ (collected u.id P).length := by
        unfold collected
        rw [hP]
        simp only [allFrames, List.flatMap_cons, List.length_append]
        omega
      refine .inr ⟨by simp, by omega, ?_⟩
      rw [h3, List.length_append]
      omega
  refine C58_stack_partial ls hk xs hx ?_ ?_
  · intro P x Q he
    obtain ⟨u, hu⟩ := List.exists_mem_of_ne_nil _ (hx.1 x (by rw [he]; simp)).2.1
    refine ⟨u, hu, ?_⟩
    rcases key P x Q he u hu with ⟨-, -, k3, k4, k5⟩ | ⟨-, k2, k3⟩
    · rw [k3, k4, chain_nil ls hk]
      exact (chain_grows ls hk u.frames u.frames 0 k5 (by omega)).1
    · have := (chain_grows ls hk (collected u.id P) (collected u.id (P ++ [x])) 1 k2 (by omega)).2
      omega
  · intro P x Q he
    by_cases hall : ∀ u ∈ unpack x, u.sos = true
    · exact .inl hall
    · refine .inr (.inr ?_)
      simp only [not_forall] at hall
      obtain ⟨u, hu, hus⟩ := hall
      rcases key P x Q he u hu with ⟨-, k2, -⟩ | ⟨-, k2, -⟩
      · exact absurd k2 hus
      · refine ⟨u, hu, chain_dropLast ls hk _ fun h0 => ?_⟩
        have := (chain_grows ls hk (collected u.id P) (collected u.id P) 0 k2 (by omega)).1
        rw [h0] at this
        simp at this

theorem exTail_only (i : String) (hi : i ≠ "a") : chunksOf i (exTail.map unpack) = [] := by
  unfold chunksOf
  rw [List.filter_eq_nil_iff]
  intro u hu h
  rw [decide_eq_true_eq] at h
  have hall : ∀ u ∈ (exTail.map unpack).flatten, u.id = "a" := by decide +kernel
  exact hi (h ▸ hall u hu)

-- Chunks of three frames and one, for a stack that needs three frames for its first output and one for each further one.
example : Loose exTail ∧ need exBare = 3 ∧ jump exBare = 1 ∧
    ∀ i u us, chunksOf i (exTail.map unpack) = u :: us → u.sos = true ∧ need exBare ≤ u.frames.length ∧ ∀ v ∈ us, jump exBare ≤ v.frames.length := by
  refine ⟨⟨fun x hx => ?_, fun i => ?_⟩, by decide, by decide, ?_⟩
  · have h : ∀ x ∈ exTail, WellPacked x ∧ unpack x ≠ [] ∧ ((unpack x).map (·.id)).Nodup := by decide +kernel
    exact ⟨wp_shaped (h x hx).1, (h x hx).2⟩
  · by_cases hi : i = "a"
    · subst hi
      refine once_get ?_
      decide +kernel
    · rw [exTail_only i hi]
      intro p x q h
      simp at h
  · intro i u us h
    by_cases hi : i = "a"
    · subst hi
      rw [show chunksOf "a" (exTail.map unpack) = [⟨"a", true, false, none, [1, 2, 3]⟩, ⟨"a", false, true, none, [4]⟩] by decide +kernel, List.cons.injEq] at h
      obtain ⟨rfl, rfl⟩ := h
      decide +kernel
    · rw [exTail_only i hi] at h
      cases h

theorem once_complete {cs : List (Chunk α)} (h : Complete cs) : Once cs := by
  intro p x q he
  have hx : cs[p.length]? = some x := by rw [he]; simp
  refine ⟨fun hs => List.length_eq_zero_iff.1 ((h.2.1 _ x hx).1 hs), fun hs => ?_⟩
  have := (h.2.2 _ x hx).1 hs
  rw [he, List.length_append, List.length_cons] at this
  exact List.length_eq_zero_iff.1 (by omega)

end
end DS.Conv

namespace DS.Data
open Conv
section
variable {α : Type} [Zero α]

/-- **C161, stacks, files of several chunks.** For stacks without padding and with strides of at most the kernel widths: whenever no call raises, the outputs for every file are those of the ordinary stack on the frames given (`C161_given_partial`). With strides below the kernel widths no
call raises if the first chunk of every file is long enough for one output of the stack and the others, also the last one, for one more. Missing: the frames of the later chunks; stacks with padding. -/
theorem C161_stacks_partial (disk : Disk α) (cfg : LoaderCfg) (d : Dataset α) (hs : Splittable d) (hdrop : cfg.dropLast = false) (hb : 0 < cfg.batchSize)
    (hdvd : max 1 cfg.numWorkers ∣ cfg.batchSize) (hn : d.files.Nodup) (hne : d.files ≠ [])
    (audio : String → List α) (size : String → Nat) (hL : ∀ f ∈ d.files, audio f ≠ []) (hsize : ∀ f ∈ d.files, 0 < size f)
    (hf : ∀ f ∈ d.files, processData disk d f = chunkSamples (size f : Int) f (audio f))
    (order : List Nat) (ho : order.Perm (List.range d.files.length)) (orders : List (List String) → List (List String))
    (hor : ∀ ls, List.Forall₂ List.Perm (orders ls) ls) :
    ∃ fuel out xs, loader disk cfg d order orders fuel = .ok (out, .returned) ∧ collateAll out = .ok xs ∧
      (∀ (ls : List (Layer α)), (∀ l ∈ ls, l.Bare) → ∀ ys t, chainRun (fresh ls) xs = .ok (ys, t) → ∀ f ∈ d.files,
        collected f ys = offlineChain ls ((List.range (((audio f).length + size f - 1) / size f)).flatMap fun k => (audio f).take (min (size f) ((audio f).length - k * size f)))) ∧
      ∀ (ls : List (Layer α)), (∀ l ∈ ls, l.Keeps) →
        (∀ f ∈ d.files, need ls ≤ min (size f) (audio f).length ∧ ∀ k < ((audio f).length + size f - 1) / size f, jump ls ≤ min (size f) ((audio f).length - k * size f)) →
        ∃ ys t, chainRun (fresh ls) xs = .ok (ys, t) := by
  classical
  have hex : ∀ f, ∃ ss : List (Sample α), f ∈ d.files → processData disk d f = .ok ss ∧ ss.length = ((audio f).length + size f - 1) / size f ∧ WholeFile f ss ∧
      (∀ s ∈ ss, s.data = audio f) ∧
      ∀ k s, ss[k]? = some s → s.length = min (size f) ((audio f).length - k * size f) ∧ 0 < s.length := by
    intro f
    by_cases hm : f ∈ d.files
    · obtain ⟨ss, h1, h2, h3, -, h5⟩ := C73_tiles (size f) (hsize f hm) f (audio f) (hL f hm)
      refine ⟨ss, fun _ => ⟨by rw [hf f hm, h1], h2, h3, (C74_partial (size f) (hsize f hm) f (audio f) ss h1).1, ?_⟩⟩
      intro k s hk
      exact ⟨(h5 k s hk).2.2.1, (h5 k s hk).2.2.2.1⟩
    · exact ⟨[], fun h => absurd h hm⟩
  choose S hS using hex
  have hlen : ∀ x ∈ d.files, ∀ s ∈ S x, 0 < s.length ∧ s.length ≤ s.data.length := by
    intro x hx s hs
    obtain ⟨-, -, -, h4, h5⟩ := hS x hx
    obtain ⟨k, hk⟩ := List.mem_iff_getElem?.1 hs
    have := h5 k s hk
    rw [h4 s hs]
    omega
  obtain ⟨fuel, out, xs, h1, h2, h3, h4, h5, h6, h7⟩ := schedule_spec disk cfg d hs hdrop hb hdvd hn hne S (fun x hx => (hS x hx).1) (fun x hx => (hS x hx).2.2.1) hlen order ho orders hor
  refine ⟨fuel, out, xs, h1, h2, ?_⟩
  have hloose : Loose xs := by
    refine ⟨fun x hx => ?_, fun i => ?_⟩
    · obtain ⟨b, hb, hc⟩ := collateAll_mem h2 x hx
      obtain ⟨g1, g2⟩ := h7 b hb
      exact ⟨shaped_collateST b g1 (fun s hs => (hlen s.id (g2 s hs).1 s (g2 s hs).2).2) x hc, (h4 x hx).1.1, (h4 x hx).1.2.1⟩
    · by_cases hm : i ∈ d.files
      · exact once_complete (h5 i hm).1
      · rw [h6 i hm]
        intro p x q he
        simp at he
  refine ⟨?_, ?_⟩
  · intro ls hl ys t hrun f hm
    rw [C62_unpadded_partial ls hl xs hloose ys t hrun f]
    congr 1
    obtain ⟨-, g2, -, g4, g5⟩ := hS f hm
    unfold collected allFrames
    rw [(h5 f hm).2, List.flatMap_map, ← g2]
    apply flatMap_range
    intro k s hk
    rw [g4 s (List.mem_of_getElem? hk), (g5 k s hk).1]
  · intro ls hl hlong
    refine C58_stack_lengths_partial ls hl xs hloose ?_
    intro i u us hu
    by_cases hm : i ∈ d.files
    · obtain ⟨-, g2, -, g4, g5⟩ := hS i hm
      obtain ⟨q1, q2⟩ := hlong i hm
      have hu0 := ((h5 i hm).1.2.1 0 u (by rw [hu]; rfl)).2 rfl
      rw [(h5 i hm).2] at hu
      cases hSi : S i with
      | nil => rw [hSi] at hu; simp at hu
      | cons s ss =>
        rw [hSi, List.map_cons, List.cons.injEq] at hu
        obtain ⟨rfl, rfl⟩ := hu
        have hfr : ∀ k t, (S i)[k]? = some t → (t.data.take t.length).length = min (size i) ((audio i).length - k * size i) := by
          intro k t hk
          have := (hlen i hm t (List.mem_of_getElem? hk)).2
          rw [List.length_take, ← (g5 k t hk).1]
          omega
        refine ⟨hu0, ?_, ?_⟩
        · have := hfr 0 s (by rw [hSi]; rfl)
          simp only [Nat.zero_mul, Nat.sub_zero] at this
          show need ls ≤ (s.data.take s.length).length
          omega
        · intro v hv
          obtain ⟨t, ht, rfl⟩ := List.mem_map.1 hv
          obtain ⟨k, hk⟩ := List.mem_iff_getElem?.1 ht
          have hk' : (S i)[k + 1]? = some t := by rw [hSi]; exact hk
          have hlt := (List.getElem?_eq_some_iff.1 hk').1
          have := hfr (k + 1) t hk'
          have := q2 (k + 1) (by omega)
          show jump ls ≤ (t.data.take t.length).length
          omega
    · rw [h6 i hm] at hu
      cases hu

/-- Two convolutions with a function that does not keep zeros between them. -/
def exTwoConv : List (Layer Nat) := [.conv ⟨2, 1, 1, 0⟩ List.sum, .act (· + 1), .conv ⟨2, 1, 1, 0⟩ List.sum]
-- Non-trivial case: the stack needs three frames for its first output and one for each further one; the files of `exRuns` have first chunks of three frames and last ones of one, two or three.
example : (∀ l ∈ exTwoConv, l.Keeps) ∧ need exTwoConv = 3 ∧ jump exTwoConv = 1 := by
  refine ⟨?_, by decide, by decide⟩
  intro l hl
  simp only [exTwoConv, List.mem_cons, List.not_mem_nil, or_false] at hl
  rcases hl with rfl | rfl | rfl
  · exact ⟨by decide, by decide, rfl⟩
  · trivial
  · exact ⟨by decide, by decide, rfl⟩
example : ∀ f ∈ exRuns.files, need exTwoConv ≤ min 3 (exRunsDisk f).1.length ∧ ∀ k < ((exRunsDisk f).1.length + 3 - 1) / 3, jump exTwoConv ≤ min 3 ((exRunsDisk f).1.length - k * 3) := by decide +kernel

theorem once_open {cs : List (Chunk α)} (h : Conv.Open cs) : Once cs := by
  intro p x q he
  have hx : cs[p.length]? = some x := by rw [he]; simp
  refine ⟨fun hs => List.length_eq_zero_iff.1 ((h.2.1 _ x hx).1 hs), fun hs => ?_⟩
  rw [h.2.2 x (by rw [he]; simp)] at hs
  cases hs

/-- **C161, stacks, drop_last**, whatever the workers: the outputs for every file are those of the ordinary stack on the frames given for its first chunks, as many as are delivered, whenever no call raises; and none does if the chunks are long enough, as in `C161_stacks_partial`. Missing: as there. -/
theorem C161_stacks_drop_partial (disk : Disk α) (cfg : LoaderCfg) (d : Dataset α) (hs : Splittable d) (hdrop : cfg.dropLast = true) (hover : cfg.overlapping = true) (hn : d.files.Nodup)
    (audio : String → List α) (size : String → Nat) (hL : ∀ f ∈ d.files, audio f ≠ []) (hsize : ∀ f ∈ d.files, 0 < size f)
    (hf : ∀ f ∈ d.files, processData disk d f = chunkSamples (size f : Int) f (audio f))
    (order : List Nat) (ho : order.Perm (List.range d.files.length)) (orders : List (List String) → List (List String))
    (hor : ∀ ls, List.Forall₂ List.Perm (orders ls) ls) (fuel : Nat) (out : List (List (Sample α))) (e : Ended) (h : loader disk cfg d order orders fuel = .ok (out, e)) :
    ∃ xs, collateAll out = .ok xs ∧
      (∀ (ls : List (Layer α)), (∀ l ∈ ls, l.Bare) → ∀ ys t, chainRun (fresh ls) xs = .ok (ys, t) → ∀ f ∈ d.files, ∃ n, n ≤ ((audio f).length + size f - 1) / size f ∧ n = (ofFile f out.flatten).length ∧
        collected f ys = offlineChain ls ((List.range n).flatMap fun k => (audio f).take (min (size f) ((audio f).length - k * size f)))) ∧
      ∀ (ls : List (Layer α)), (∀ l ∈ ls, l.Keeps) →
        (∀ f ∈ d.files, need ls ≤ min (size f) (audio f).length ∧ ∀ k < ((audio f).length + size f - 1) / size f, jump ls ≤ min (size f) ((audio f).length - k * size f)) →
        ∃ ys t, chainRun (fresh ls) xs = .ok (ys, t) := by
  classical
  have hex : ∀ f, ∃ ss : List (Sample α), f ∈ d.files → processData disk d f = .ok ss ∧ ss.length = ((audio f).length + size f - 1) / size f ∧ WholeFile f ss ∧
      (∀ s ∈ ss, s.data = audio f) ∧
      ∀ k s, ss[k]? = some s → s.length = min (size f) ((audio f).length - k * size f) ∧ 0 < s.length := by
    intro f
    by_cases hm : f ∈ d.files
    · obtain ⟨ss, h1, h2, h3, -, h5⟩ := C73_tiles (size f) (hsize f hm) f (audio f) (hL f hm)
      refine ⟨ss, fun _ => ⟨by rw [hf f hm, h1], h2, h3, (C74_partial (size f) (hsize f hm) f (audio f) ss h1).1, ?_⟩⟩
      intro k s hk
      exact ⟨(h5 k s hk).2.2.1, (h5 k s hk).2.2.2.1⟩
    · exact ⟨[], fun h => absurd h hm⟩
  choose S hS using hex
  have hlen : ∀ x ∈ d.files, ∀ s ∈ S x, 0 < s.length ∧ s.length ≤ s.data.length := by
    intro x hx s hs
    obtain ⟨-, -, -, h4, h5⟩ := hS x hx
    obtain ⟨k, hk⟩ := List.mem_iff_getElem?.1 hs
    have := h5 k s hk
    rw [h4 s hs]
    omega
  have hf1 := fun x hx => (hS x hx).1
  have hf2 := fun x hx => (hS x hx).2.2.1
  obtain ⟨g1, g2, g3, -, -⟩ := drop_files disk cfg d hs hdrop hover hn S hf1 hf2 order ho orders hor fuel out e h
  obtain ⟨xs, h2, -, -, h4, h5, h6⟩ := C160_drop_last disk cfg d hs hdrop hover hn S hf1 hf2 hlen order ho orders hor fuel out e h
  have hch : ∀ i, Conv.chunksOf i (xs.map unpack) = (ofFile i out.flatten).map Sample.chunk := by
    intro i
    obtain ⟨xs', h7, h8⟩ := collateAll_ok out (fun b hb => (g2 b hb).1) (fun b hb s hs => (drop_lengths hlen g1 g3 b hb s hs).2)
    rw [h2, Except.ok.injEq] at h7
    rw [h7, h8]
    exact chunksOf_collated out (fun b hb => (g2 b hb).2) i
  refine ⟨xs, h2, ?_⟩
  have hframes : ∀ f ∈ d.files, (Conv.chunksOf f (xs.map unpack)).length ≤ (S f).length ∧
      (Conv.chunksOf f (xs.map unpack)).map (fun u => u.frames) = ((S f).take (Conv.chunksOf f (xs.map unpack)).length).map fun t => t.data.take t.length := by
    intro f hm
    obtain hz | ⟨-, P, s, e', hpre, -, heq⟩ := h5 f hm
    · rw [hz]
      simp
    · have hl : (Conv.chunksOf f (xs.map unpack)).length = (P ++ [s]).length := by rw [heq]; simp
      refine ⟨by rw [hl]; exact hpre.length_le, ?_⟩
      rw [hl, ← List.prefix_iff_eq_take.1 hpre, heq, List.map_append, List.map_append, List.map_map]
      rfl
  have hstart : ∀ f ∈ d.files, StartsOnce (Conv.chunksOf f (xs.map unpack)) ∧ Once (Conv.chunksOf f (xs.map unpack)) := by
    intro f hm
    rcases h5 f hm with h7 | ⟨h7 | ⟨-, h7⟩, -⟩
    · rw [h7]
      refine ⟨fun k c hk => by simp at hk, fun p x q he => by simp at he⟩
    · exact ⟨h7.2.1, once_complete h7⟩
    · exact ⟨h7.2.1, once_open h7⟩
  have hloose : Loose xs := by
    refine ⟨fun x hx => ?_, fun i => ?_⟩
    · obtain ⟨b, hb, hc⟩ := collateAll_mem h2 x hx
      exact ⟨shaped_collateST b (g2 b hb).1 (fun s hs => (drop_lengths hlen g1 g3 b hb s hs).2) x hc, (h4 x hx).1.1, (h4 x hx).1.2.1⟩
    · by_cases hm : i ∈ d.files
      · exact (hstart i hm).2
      · rw [h6 i hm]
        intro p x q he
        simp at he
  have hget : ∀ f ∈ d.files, ∀ k u, (Conv.chunksOf f (xs.map unpack))[k]? = some u → k < ((audio f).length + size f - 1) / size f ∧ u.frames = (audio f).take (min (size f) ((audio f).length - k * size f)) ∧
      u.frames.length = min (size f) ((audio f).length - k * size f) := by
    intro f hm k u hk
    obtain ⟨-, k2, -, k4, k5⟩ := hS f hm
    obtain ⟨q1, q2⟩ := hframes f hm
    have hlt := (List.getElem?_eq_some_iff.1 hk).1
    have hfr : (((S f).take (Conv.chunksOf f (xs.map unpack)).length).map fun t => t.data.take t.length)[k]? = some u.frames := by
      rw [← q2, List.getElem?_map, hk]
      rfl
    rw [List.getElem?_map] at hfr
    obtain ⟨t, ht, hty⟩ := Option.map_eq_some_iff.1 hfr
    rw [List.getElem?_take_of_lt hlt] at ht
    have hle := (hlen f hm t (List.mem_of_getElem? ht)).2
    have hq := (k5 k t ht).1
    have hd := k4 t (List.mem_of_getElem? ht)
    refine ⟨by omega, by rw [← hty, hd, hq], ?_⟩
    rw [← hty, List.length_take]
    omega
  refine ⟨?_, ?_⟩
  · intro ls hl ys t hrun f hm
    refine ⟨(ofFile f out.flatten).length, ?_, rfl, ?_⟩
    · have := (hframes f hm).1
      rw [hch f, List.length_map, (hS f hm).2.1] at this
      exact this
    · rw [C62_unpadded_partial ls hl xs hloose ys t hrun f]
      congr 1
      unfold collected allFrames
      have : (ofFile f out.flatten).length = (Conv.chunksOf f (xs.map unpack)).length := by rw [hch f, List.length_map]
      rw [this]
      apply flatMap_range
      intro k u hk
      exact (hget f hm k u hk).2.1
  · intro ls hl hlong
    refine C58_stack_lengths_partial ls hl xs hloose ?_
    intro i u us hu
    by_cases hm : i ∈ d.files
    · obtain ⟨q1, q2⟩ := hlong i hm
      have hu0 : (Conv.chunksOf i (xs.map unpack))[0]? = some u := by rw [hu]; rfl
      refine ⟨((hstart i hm).1 0 u hu0).2 rfl, ?_, ?_⟩
      · have := (hget i hm 0 u hu0).2.2
        simp only [Nat.zero_mul, Nat.sub_zero] at this
        omega
      · intro v hv
        obtain ⟨k, hk⟩ := List.mem_iff_getElem?.1 hv
        have hk' : (Conv.chunksOf i (xs.map unpack))[k + 1]? = some v := by rw [hu]; exact hk
        have h7 := hget i hm _ v hk'
        have := q2 (k + 1) h7.1
        omega
    · rw [h6 i hm] at hu
      cases hu

-- Two workers: `c` and `a` are delivered whole, `b` as well; the conditions on the lengths are those of the example above.
example : (loader exRunsDisk ⟨2, 2, false, true, true⟩ { exRuns with dropLast := true } [2, 1, 0] id 0).map (fun r => (r.1.map fun b => b.map fun s => (s.id, s.eos, s.chunkIndex))) =
    .ok [[("c", false, 0), ("b", true, 0)], [("c", false, 1), ("a", false, 0)], [("c", true, 2), ("a", true, 1)]] := by decide +kernel

end
end DS.Data
