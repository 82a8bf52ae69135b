import Verif.Props.BatchWidth
import Verif.Props.StreamWork
/-!
# C233: the work of an epoch
-/

namespace DS.Data
open Meta Conv
section
variable {α β : Type} [Zero α] [Zero β]

/-- The lengths of a collated batch are those of its samples. -/
theorem collate_lengths {out : List (List (Sample α))} (hne : ∀ b ∈ out, b ≠ []) {xs : List (ST α)} (h : collateAll out = .ok xs) :
    List.Forall₂ (fun b x => x.md.lengths.length = b.length ∧ ∀ l ∈ x.md.lengths, ∃ s ∈ b, l = (s.length : Int)) out xs := by
  induction out generalizing xs with
  | nil =>
    cases h
    exact .nil
  | cons b bs ih =>
    simp only [collateAll] at h
    obtain ⟨x, h1, h⟩ := bind_inv h
    obtain ⟨ys, h2, h⟩ := bind_inv h
    cases h
    rw [collateST_eq b (hne b (by simp)), Except.ok.injEq] at h1
    subst h1
    have hp : (sortByLength b).Perm b := List.mergeSort_perm _ _
    refine .cons ⟨?_, fun l hl => ?_⟩ (ih (fun c hc => hne c (by simp [hc])) h2)
    · simp only [ofRows, List.length_map]
      exact hp.length_eq
    · simp only [ofRows, List.map_map, List.mem_map, Function.comp_apply] at hl
      obtain ⟨s, hs, rfl⟩ := hl
      exact ⟨s, hp.mem_iff.1 hs, rfl⟩

/-- A call of a convolution whose kernel is one frame evaluates it at every stride-th frame of the batch. -/
theorem pointwise_work (c : Cfg) (hk : c.ks = 1) (hp : c.padding = 0) (g : List α → β) (buf : Buf α) (x : ST α) (hw : 0 < x.width) (hl : x.md.lengths.length = x.rows.length) :
    ∃ o, forward c g buf x = .ok o ∧ o.y.work = x.rows.length * ((x.width - 1) / c.stride + 1) := by
  have hkw : c.kw = 1 := by simp [Cfg.kw, hk]
  have hc : conv1d c g x = .ok (⟨{ x.md with lengths := x.md.lengths.map (outLen c) }, (x.width - 1) / c.stride + 1, List.zipWith maskRow (x.md.lengths.map (outLen c))
      (x.rows.map fun r => (List.range ((x.width - 1) / c.stride + 1)).map fun o => g (taps c (fpad 0 0 r) (o * c.stride)))⟩, tempBuffer c x.md x.rows) := by
    unfold conv1d applyPadding torchConv1d
    rw [if_neg (by omega)]
    simp only [Except.bind_ok', hkw, Nat.mul_zero, Nat.add_zero, if_neg (show ¬ x.width < 1 by omega)]
  have hf : ∃ o, forward c g buf x = .ok o ∧ o.y = ⟨{ x.md with lengths := x.md.lengths.map (outLen c) }, (x.width - 1) / c.stride + 1, List.zipWith maskRow (x.md.lengths.map (outLen c))
      (x.rows.map fun r => (List.range ((x.width - 1) / c.stride + 1)).map fun o => g (taps c (fpad 0 0 r) (o * c.stride)))⟩ := by
    unfold forward preHook
    rw [if_neg (by omega)]
    simp only [Except.bind_ok', hc]
    exact ⟨_, rfl, rfl⟩
  obtain ⟨o, ho, hy⟩ := hf
  refine ⟨o, ho, ?_⟩
  rw [hy]
  · unfold ST.work
    dsimp only
    have hall : ∀ (ls : List Int) (rs : List (List β)) (n : Nat), ls.length = rs.length → (∀ r ∈ rs, r.length = n) → ((List.zipWith maskRow ls rs).map List.length).sum = rs.length * n := by
      intro ls rs n
      induction rs generalizing ls with
      | nil => intro _ _; simp
      | cons r rs ih =>
        intro h1 h2
        cases ls with
        | nil => simp at h1
        | cons l ls =>
          rw [List.zipWith_cons_cons, List.map_cons, List.sum_cons, ih ls (by simpa using h1) (fun q hq => h2 q (by simp [hq])), List.length_cons, Nat.succ_mul]
          simp only [Conv.maskRow, List.length_mapIdx, h2 r (by simp)]
          omega
    rw [hall _ _ ((x.width - 1) / c.stride + 1) (by simpa using hl)]
    · simp
    · intro r hr
      obtain ⟨q, -, rfl⟩ := List.mem_map.1 hr
      simp

theorem pointwise_run (c : Cfg) (hk : c.ks = 1) (hp : c.padding = 0) (g : List α → β) (xs : List (ST α)) (h : ∀ x ∈ xs, 0 < x.width ∧ x.md.lengths.length = x.rows.length) :
    ∀ buf : Buf α, ∃ ys b, run c g buf xs = .ok (ys, b) ∧ ys.map ST.work = xs.map fun x => x.rows.length * ((x.width - 1) / c.stride + 1) := by
  induction xs with
  | nil => exact fun buf => ⟨[], buf, rfl, rfl⟩
  | cons x xs ih =>
    intro buf
    obtain ⟨o, h1, h2⟩ := pointwise_work c hk hp g buf x (h x (by simp)).1 (h x (by simp)).2
    obtain ⟨ys, b, h3, h4⟩ := ih (fun q hq => h q (by simp [hq])) o.buf
    refine ⟨o.y :: ys, b, ?_, by rw [List.map_cons, List.map_cons, h2, h4]⟩
    simp only [run, h1, Except.bind_ok', h3]

/-- C233, exactly, for one file and kernels of one frame. A dataset of one file, without drop_last, and a convolution whose kernel is one frame: no call raises, and the kernel is evaluated once for every stride-th frame of the whole file in every chunk, so in total as often as in the ordinary convolution
of the file times the number of chunks. Missing: that it be as often as in the ordinary convolution; so it is if the file is one chunk. -/
theorem C233_total_partial (disk : Disk α) (cfg : LoaderCfg) (d : Dataset α) (hs : Splittable d) (hdrop : cfg.dropLast = false) (hb : 0 < cfg.batchSize)
    (hdvd : max 1 cfg.numWorkers ∣ cfg.batchSize) (f : String) (hone : d.files = [f])
    (audio : List α) (size : Nat) (hL : audio ≠ []) (hsize : 0 < size) (hf : processData disk d f = chunkSamples (size : Int) f audio)
    (orders : List (List String) → List (List String)) (hor : ∀ ls, List.Forall₂ List.Perm (orders ls) ls)
    (c : Cfg) (hv : c.Valid) (hk : c.ks = 1) (hp : c.padding = 0) (g : List α → β) :
    ∃ fuel out xs ys buf, loader disk cfg d [0] orders fuel = .ok (out, .returned) ∧ collateAll out = .ok xs ∧ run c g (fun _ => none) xs = .ok (ys, buf) ∧
      (ys.map ST.work).sum = (audio.length + size - 1) / size * (offline c g audio).length := by
  obtain ⟨fuel, out, xs, h1, h2, h3, h4, h5, -⟩ := C232_total_partial disk cfg d hs hdrop hb hdvd f hone audio size hL hsize hf orders hor
  have hpos := List.length_pos_of_ne_nil hL
  have hlen := collate_lengths (fun b hb h0 => by have := h4 b hb; rw [h0] at this; simp at this) h2
  obtain ⟨ys, buf, r1, r2⟩ := pointwise_run c hk hp g xs (fun x hx => by
    obtain ⟨b, hb, h6, -⟩ := forall2_mem hlen hx
    rw [(h5 x hx).1, (h5 x hx).2, h6, h4 b hb]
    exact ⟨hpos, rfl⟩) fun _ => none
  refine ⟨fuel, out, xs, ys, buf, h1, h2, r1, ?_⟩
  have hoff : (offline c g audio).length = (audio.length - 1) / c.stride + 1 := by
    have hkw : c.kw = 1 := by simp [Cfg.kw, hk]
    rw [offline, conv_length c hv, nOut, hkw, hp]
    simp only [zeros, List.replicate_zero, List.nil_append, List.append_nil]
    rw [if_neg (by omega)]
  rw [r2, hoff, ← h3]
  clear * - h5
  induction xs with
  | nil => rw [List.map_nil, List.sum_nil, List.length_nil, Nat.zero_mul]
  | cons x xs ih =>
    rw [List.map_cons, List.sum_cons, ih fun q hq => h5 q (by simp [hq]), (h5 x (by simp)).1, (h5 x (by simp)).2, List.length_cons, Nat.one_mul, Nat.add_mul (xs.length) 1, Nat.one_mul]
    omega

/-- **C233 is false of the code.** A file of three frames in chunks of one frame, and a kernel of one frame: it is evaluated nine times; the ordinary convolution evaluates it three times. -/
theorem C233_total_false : (((loader (fun _ => ([(1 : Int), 2, 3], 1)) ⟨1, 1, false, false, false⟩ ⟨["a"], 1, none, none, 1, false, false, [("a", 3, 1)], [("a", 3)]⟩ [0] id 20).bind fun r =>
      (collateAll r.1).bind fun xs => (run ⟨1, 1, 1, 0⟩ List.sum (fun _ => none) xs).map fun q => (q.1.map ST.work).sum) = .ok 9) ∧
    (offline ⟨1, 1, 1, 0⟩ List.sum [(1 : Int), 2, 3]).length = 3 := by
  have h1 : loader (fun _ => ([(1 : Int), 2, 3], 1)) ⟨1, 1, false, false, false⟩ ⟨["a"], 1, none, none, 1, false, false, [("a", 3, 1)], [("a", 3)]⟩ [0] id 20 =
      .ok ([[⟨[1, 2, 3], true, false, 1, 0, 3, "a"⟩], [⟨[1, 2, 3], false, false, 1, 1, 3, "a"⟩], [⟨[1, 2, 3], false, true, 1, 2, 3, "a"⟩]], .returned) := by decide +kernel
  have h2 : ∀ s : Sample Int, collateST [s] = .ok ⟨⟨[s.id], [s.sos], [s.eos], [(s.length : Int)], some [(s.chunkIndex : Int)]⟩, s.data.length, [s.data]⟩ := by
    intro s
    rw [collateST_eq _ (by simp)]
    simp [sortByLength, Meta.ofRows, maxLen, zeros]
  rw [h1]
  simp only [Except.bind, collateAll, h2, Except.bind_ok']
  decide

/-- C233, at most: in a loader's epoch without drop_last a call evaluates the kernel at most once for every sample of the batch and kernel position within the longest of the files of the batch and the padding. Missing: that it be within the chunks; for files of one chunk it is. -/
theorem C233_bound_partial (disk : Disk α) (cfg : LoaderCfg) (d : Dataset α) (hs : Splittable d) (hdrop : cfg.dropLast = false) (hb : 0 < cfg.batchSize)
    (hdvd : max 1 cfg.numWorkers ∣ cfg.batchSize) (hn : d.files.Nodup) (hne : d.files ≠ [])
    (audio : String → List α) (size : String → Nat) (hL : ∀ f ∈ d.files, audio f ≠ []) (hsize : ∀ f ∈ d.files, 0 < size f)
    (hf : ∀ f ∈ d.files, processData disk d f = chunkSamples (size f : Int) f (audio f))
    (order : List Nat) (ho : order.Perm (List.range d.files.length)) (orders : List (List String) → List (List String))
    (hor : ∀ ls, List.Forall₂ List.Perm (orders ls) ls) :
    ∃ fuel out xs, loader disk cfg d order orders fuel = .ok (out, .returned) ∧ collateAll out = .ok xs ∧
      ∀ (c : Cfg) (g : List α → β) (ys : List (ST β)) (buf : Buf α), c.Valid → run c g (fun _ => none) xs = .ok (ys, buf) →
        List.Forall₂ (fun b y => ∃ s ∈ b, y.work ≤ b.length * c.positions (audio s.id).length) out ys := by
  obtain ⟨S, hS⟩ := chunk_samples disk d audio size hL hsize hf
  obtain ⟨fuel, out, xs, h1, h2, -, -, -, -, h7⟩ := schedule_spec disk cfg d hs hdrop hb hdvd hn hne S (fun x hx => (hS x hx).1) (fun x hx => (hS x hx).2.2.1)
    (fun x hx s hs => ⟨((hS x hx).2.2.2 s hs).2.1, ((hS x hx).2.2.2 s hs).2.2.1⟩) order ho orders hor
  have hsrc : ∀ b ∈ out, ∀ s ∈ b, s.data = audio s.id ∧ s.length ≤ (audio s.id).length := fun b hb s hs => by
    obtain ⟨k1, k2⟩ := (h7 b hb).2 s hs
    have := (hS s.id k1).2.2.2 s k2
    exact ⟨this.1, by rw [← this.1]; exact this.2.2.1⟩
  have hw := whole_width audio (fun b hb => (h7 b hb).1) (fun b hb s hs => (hsrc b hb s hs).1) h2
  have hl := collate_lengths (fun b hb => (h7 b hb).1) h2
  refine ⟨fuel, out, xs, h1, h2, fun c g ys buf hv hrun => ?_⟩
  have hle : ∀ x ∈ xs, ∀ l ∈ x.md.lengths, l ≤ (x.width : Int) := by
    clear h2 hrun h7 h1
    induction hw with
    | nil => intro x hx; cases hx
    | @cons b x bs xs h3 _ ih =>
      cases hl with
      | cons h4 h5 =>
        intro z hz
        rcases List.mem_cons.1 hz with rfl | hz
        · intro l hlm
          obtain ⟨s, hsb, rfl⟩ := h4.2 l hlm
          have := h3.2.1 s hsb
          have := (hsrc b (by simp) s hsb).2
          omega
        · exact ih (fun b' hb' => hsrc b' (by simp [hb'])) h5 z hz
  have hwork := C231_call c hv g xs hle ys buf hrun
  clear h2 hrun h7 h1 hl hle hsrc
  induction hw generalizing ys with
  | nil => cases hwork; exact .nil
  | @cons b x bs xs h3 _ ih =>
    cases hwork with
    | cons h4 h5 =>
      obtain ⟨h6, -, s, hsb, h8⟩ := h3
      exact .cons ⟨s, hsb, by rw [← h6, ← h8]; exact h4⟩ (ih _ h5)

-- The conditions on the dataset are those of C232 (examples there); a file of three frames in chunks of one, and a kernel of one frame.
example : Cfg.Valid ⟨1, 1, 1, 0⟩ ∧ ((3 : Nat) + 1 - 1) / 1 * (offline ⟨1, 1, 1, 0⟩ List.sum [(1 : Int), 2, 3]).length = 9 ∧ (offline ⟨1, 1, 1, 0⟩ List.sum [(1 : Int), 2, 3]).length = 3 := by decide

end
end DS.Data
