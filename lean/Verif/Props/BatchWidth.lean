import Verif.Props.FromFilesDrop
/-!
# C232: the width of the loader's batches
-/

namespace DS.Data
open Meta Conv
section
variable {α : Type} [Zero α]

/-- A collated batch is as wide as the longest data in it. -/
theorem collate_width {out : List (List (Sample α))} (hne : ∀ b ∈ out, b ≠ []) {xs : List (ST α)} (h : collateAll out = .ok xs) :
    List.Forall₂ (fun b x => x.width = maxLen (b.map Sample.data) ∧ x.rows.length = b.length) out xs := by
  induction out generalizing xs with
  | nil =>
    cases h
    exact .nil
  | cons b bs ih =>
    simp only [collateAll] at h
    obtain ⟨x, h1, h⟩ := bind_inv h
    obtain ⟨ys, h2, h⟩ := bind_inv h
    cases h
    rw [collateST_eq b (hne b (by simp)), Except.ok.injEq] at h1
    subst h1
    refine .cons ⟨rfl, ?_⟩ (ih (fun c hc => hne c (by simp [hc])) h2)
    rw [List.length_map]
    exact (List.mergeSort_perm _ _).length_eq

/-- If all samples carry the whole file, the batches are as wide as the longest file. -/
theorem whole_width (audio : String → List α) {out : List (List (Sample α))} (hne : ∀ b ∈ out, b ≠ []) (hdata : ∀ b ∈ out, ∀ s ∈ b, s.data = audio s.id)
    {xs : List (ST α)} (h : collateAll out = .ok xs) :
    List.Forall₂ (fun b x => x.rows.length = b.length ∧ (∀ s ∈ b, (audio s.id).length ≤ x.width) ∧ ∃ s ∈ b, x.width = (audio s.id).length) out xs := by
  have h1 := collate_width hne h
  clear h
  induction h1 with
  | nil => exact .nil
  | @cons b x bs xs h2 _ ih =>
    refine .cons ⟨h2.2, fun s hs => ?_, ?_⟩ (ih (fun c hc => hne c (by simp [hc])) fun c hc => hdata c (by simp [hc]))
    · rw [h2.1, ← hdata b (by simp) s hs]
      exact le_maxLen (List.mem_map_of_mem hs)
    · obtain ⟨l, hl, he⟩ := maxLen_attained (ss := b.map Sample.data) (by simpa using hne b (by simp))
      obtain ⟨s, hs, rfl⟩ := List.mem_map.1 hl
      exact ⟨s, hs, by rw [h2.1, ← he, hdata b (by simp) s hs]⟩

/-- The samples of the files. -/
theorem chunk_samples (disk : Disk α) (d : Dataset α) (audio : String → List α) (size : String → Nat) (hL : ∀ f ∈ d.files, audio f ≠ []) (hsize : ∀ f ∈ d.files, 0 < size f)
    (hf : ∀ f ∈ d.files, processData disk d f = chunkSamples (size f : Int) f (audio f)) :
    ∃ S : String → List (Sample α), ∀ f ∈ d.files, processData disk d f = .ok (S f) ∧ (S f).length = ((audio f).length + size f - 1) / size f ∧ WholeFile f (S f) ∧
      ∀ s ∈ S f, s.data = audio f ∧ 0 < s.length ∧ s.length ≤ s.data.length ∧ s.length ≤ size f := by
  classical
  have hex : ∀ f, ∃ ss : List (Sample α), f ∈ d.files → processData disk d f = .ok ss ∧ ss.length = ((audio f).length + size f - 1) / size f ∧ WholeFile f ss ∧
      ∀ s ∈ ss, s.data = audio f ∧ 0 < s.length ∧ s.length ≤ s.data.length ∧ s.length ≤ size f := by
    intro f
    by_cases hm : f ∈ d.files
    · obtain ⟨ss, h1, h2, h3, -, h5⟩ := C73_tiles (size f) (hsize f hm) f (audio f) (hL f hm)
      refine ⟨ss, fun _ => ⟨by rw [hf f hm, h1], h2, h3, fun s hs => ?_⟩⟩
      have hd := (C74_partial (size f) (hsize f hm) f (audio f) ss h1).1 s hs
      obtain ⟨k, hk⟩ := List.mem_iff_getElem?.1 hs
      have h6 := (h5 k s hk).2.2.1
      have h7 := (h5 k s hk).2.2.2.1
      refine ⟨hd, h7, ?_, ?_⟩
      · rw [hd]
        omega
      · omega
    · exact ⟨[], fun h => absurd h hm⟩
  choose S hS using hex
  exact ⟨S, hS⟩

/-- C232, exactly, without drop_last: a batch is as wide as the longest of the files it has samples of, whatever part of them it is at, and has one row per sample. Missing: that it be as wide as its longest chunk; so it is if every
file is one chunk. -/
theorem C232_width_partial (disk : Disk α) (cfg : LoaderCfg) (d : Dataset α) (hs : Splittable d) (hdrop : cfg.dropLast = false) (hb : 0 < cfg.batchSize)
    (hdvd : max 1 cfg.numWorkers ∣ cfg.batchSize) (hn : d.files.Nodup) (hne : d.files ≠ [])
    (audio : String → List α) (size : String → Nat) (hL : ∀ f ∈ d.files, audio f ≠ []) (hsize : ∀ f ∈ d.files, 0 < size f)
    (hf : ∀ f ∈ d.files, processData disk d f = chunkSamples (size f : Int) f (audio f))
    (order : List Nat) (ho : order.Perm (List.range d.files.length)) (orders : List (List String) → List (List String))
    (hor : ∀ ls, List.Forall₂ List.Perm (orders ls) ls) :
    ∃ fuel out xs, loader disk cfg d order orders fuel = .ok (out, .returned) ∧ collateAll out = .ok xs ∧ (∀ b ∈ out, ∀ s ∈ b, s.id ∈ d.files ∧ 0 < s.length ∧ s.length ≤ size s.id) ∧
      List.Forall₂ (fun b x => x.rows.length = b.length ∧ (∀ s ∈ b, (audio s.id).length ≤ x.width) ∧ ∃ s ∈ b, x.width = (audio s.id).length) out xs := by
  obtain ⟨S, hS⟩ := chunk_samples disk d audio size hL hsize hf
  obtain ⟨fuel, out, xs, h1, h2, -, -, -, -, h7⟩ := schedule_spec disk cfg d hs hdrop hb hdvd hn hne S (fun x hx => (hS x hx).1) (fun x hx => (hS x hx).2.2.1)
    (fun x hx s hs => ⟨((hS x hx).2.2.2 s hs).2.1, ((hS x hx).2.2.2 s hs).2.2.1⟩) order ho orders hor
  refine ⟨fuel, out, xs, h1, h2, fun b hb s hs => ?_, whole_width audio (fun b hb => (h7 b hb).1) (fun b hb s hs => ?_) h2⟩
  · obtain ⟨k1, k2⟩ := (h7 b hb).2 s hs
    have := (hS s.id k1).2.2.2 s k2
    exact ⟨k1, this.2.1, this.2.2.2⟩
  · obtain ⟨k1, k2⟩ := (h7 b hb).2 s hs
    exact ((hS s.id k1).2.2.2 s k2).1

/-- C232, exactly, with drop_last. Missing: as in `C232_width_partial`. -/
theorem C232_drop_width_partial (disk : Disk α) (cfg : LoaderCfg) (d : Dataset α) (hs : Splittable d) (hdrop : cfg.dropLast = true) (hover : cfg.overlapping = true) (hn : d.files.Nodup)
    (audio : String → List α) (size : String → Nat) (hL : ∀ f ∈ d.files, audio f ≠ []) (hsize : ∀ f ∈ d.files, 0 < size f)
    (hf : ∀ f ∈ d.files, processData disk d f = chunkSamples (size f : Int) f (audio f))
    (order : List Nat) (ho : order.Perm (List.range d.files.length)) (orders : List (List String) → List (List String))
    (hor : ∀ ls, List.Forall₂ List.Perm (orders ls) ls) (fuel : Nat) (out : List (List (Sample α))) (e : Ended) (h : loader disk cfg d order orders fuel = .ok (out, e)) :
    ∃ xs, collateAll out = .ok xs ∧ (∀ b ∈ out, ∀ s ∈ b, s.id ∈ d.files ∧ 0 < s.length ∧ s.length ≤ size s.id) ∧
      List.Forall₂ (fun b x => x.rows.length = b.length ∧ (∀ s ∈ b, (audio s.id).length ≤ x.width) ∧ ∃ s ∈ b, x.width = (audio s.id).length) out xs := by
  obtain ⟨S, hS⟩ := chunk_samples disk d audio size hL hsize hf
  have hf1 := fun x hx => (hS x hx).1
  have hf2 := fun x hx => (hS x hx).2.2.1
  obtain ⟨g1, g2, g3, -, -⟩ := drop_files disk cfg d hs hdrop hover hn S hf1 hf2 order ho orders hor fuel out e h
  obtain ⟨xs, h2, -⟩ := C160_drop_last disk cfg d hs hdrop hover hn S hf1 hf2 (fun x hx s hs => ⟨((hS x hx).2.2.2 s hs).2.1, ((hS x hx).2.2.2 s hs).2.2.1⟩) order ho orders hor fuel out e h
  have hsrc : ∀ b ∈ out, ∀ s ∈ b, s.id ∈ d.files ∧ s.data = audio s.id ∧ 0 < s.length ∧ s.length ≤ size s.id := by
    intro b hb s hsb
    have hsm : s ∈ out.flatten := List.mem_flatten.2 ⟨b, hb, hsb⟩
    have hx := g3 s hsm
    have hmem : s ∈ ofFile s.id out.flatten := List.mem_filter.2 ⟨hsm, by simp⟩
    rcases g1 s.id hx with h0 | ⟨P, t, t', hp, hm, he⟩
    · rw [h0] at hmem
      cases hmem
    · rw [he] at hmem
      have ht := (hS s.id hx).2.2.2 t (hp.subset (by simp))
      rcases List.mem_append.1 hmem with h1 | h1
      · have := (hS s.id hx).2.2.2 s (hp.subset (List.mem_append_left _ h1))
        exact ⟨hx, this.1, this.2.1, this.2.2.2⟩
      · have hst : s = t' := List.mem_singleton.1 h1
        have h3 : s.data = t.data ∧ s.length = t.length := by
          rw [hst]
          rcases hm with rfl | rfl <;> exact ⟨rfl, rfl⟩
        rw [h3.1, h3.2]
        exact ⟨hx, ht.1, ht.2.1, ht.2.2.2⟩
  exact ⟨xs, h2, fun b hb s hs => ⟨(hsrc b hb s hs).1, (hsrc b hb s hs).2.2⟩, whole_width audio (fun b hb => (g2 b hb).1) (fun b hb s hs => (hsrc b hb s hs).2.1) h2⟩

/-- C232, one file: however short the chunks, each of its batches is as wide as the file, so that all of them together have the square of the length of the file, divided by the length of the chunks. Missing: as in `C232_width_partial`. -/
theorem C232_total_partial (disk : Disk α) (cfg : LoaderCfg) (d : Dataset α) (hs : Splittable d) (hdrop : cfg.dropLast = false) (hb : 0 < cfg.batchSize)
    (hdvd : max 1 cfg.numWorkers ∣ cfg.batchSize) (f : String) (hone : d.files = [f])
    (audio : List α) (size : Nat) (hL : audio ≠ []) (hsize : 0 < size) (hf : processData disk d f = chunkSamples (size : Int) f audio)
    (orders : List (List String) → List (List String)) (hor : ∀ ls, List.Forall₂ List.Perm (orders ls) ls) :
    ∃ fuel out xs, loader disk cfg d [0] orders fuel = .ok (out, .returned) ∧ collateAll out = .ok xs ∧ xs.length = (audio.length + size - 1) / size ∧ (∀ b ∈ out, b.length = 1) ∧
      (∀ x ∈ xs, x.width = audio.length ∧ x.rows.length = 1) ∧ (xs.map ST.width).sum = (audio.length + size - 1) / size * audio.length := by
  have hm : ∀ g ∈ d.files, g = f := fun g hg => by rw [hone] at hg; exact List.mem_singleton.1 hg
  obtain ⟨S, hS⟩ := chunk_samples disk d (fun _ => audio) (fun _ => size) (fun _ _ => hL) (fun _ _ => hsize) (fun g hg => by rw [hm g hg]; exact hf)
  have hff : f ∈ d.files := by rw [hone]; simp
  obtain ⟨fuel, out, h1, h2, h3, h4⟩ := loader_spec disk cfg d hs hdrop hb hdvd (by rw [hone]; simp) (by rw [hone]; simp) S (fun x hx => (hS x hx).1) (fun x hx => (hS x hx).2.2.1)
    [0] (by rw [hone]; exact List.Perm.refl _) orders hor
  have hall : ofFile f out.flatten = out.flatten := ofFile_self fun s hs => hm s.id (h3 s hs)
  have hflat : out.flatten = S f := by rw [← hall]; exact h2 f hff
  have hdata : ∀ b ∈ out, ∀ s ∈ b, s.data = audio ∧ 0 < s.length ∧ s.length ≤ s.data.length := by
    intro b hb s hsb
    have : s ∈ S f := by rw [← hflat]; exact List.mem_flatten.2 ⟨b, hb, hsb⟩
    have := (hS f hff).2.2.2 s this
    exact ⟨this.1, this.2.1, this.2.2.1⟩
  have hlen1 : ∀ b ∈ out, b.length = 1 := by
    intro b hb
    obtain ⟨hne, hnd⟩ := h4 b hb
    match b, hne, hnd with
    | [_], _, _ => rfl
    | s :: t :: l, _, hnd =>
      rw [List.map_cons, List.map_cons, hm s.id (h3 s (List.mem_flatten.2 ⟨_, hb, by simp⟩)), hm t.id (h3 t (List.mem_flatten.2 ⟨_, hb, by simp⟩))] at hnd
      simp at hnd
  obtain ⟨xs, h5, h6⟩ := collateAll_ok out (fun b hb => (h4 b hb).1) (fun b hb s hs => (hdata b hb s hs).2.2)
  have hxl : xs.length = out.length := by simpa using congrArg List.length h6
  have hol : out.length = (audio.length + size - 1) / size := by
    rw [← (hS f hff).2.1, ← hflat]
    clear * - hlen1
    induction out with
    | nil => rfl
    | cons b bs ih => rw [List.flatten_cons, List.length_append, List.length_cons, hlen1 b (by simp), ih fun c hc => hlen1 c (by simp [hc])]; omega
  have hw := whole_width (fun _ => audio) (fun b hb => (h4 b hb).1) (fun b hb s hs => (hdata b hb s hs).1) h5
  refine ⟨fuel, out, xs, h1, h5, hxl.trans hol, hlen1, fun x hx => ?_, ?_⟩
  · obtain ⟨b, hb, h7, -, s, -, h8⟩ := forall2_mem hw hx
    exact ⟨h8, by rw [h7, hlen1 b hb]⟩
  rw [← hol]
  clear * - hw
  induction hw with
  | nil => rw [List.map_nil, List.sum_nil, List.length_nil, Nat.zero_mul]
  | cons h _ ih =>
    obtain ⟨-, -, s, -, h⟩ := h
    rw [List.map_cons, List.sum_cons, ih, h, List.length_cons, Nat.succ_mul]
    omega

/-- **C232 is false of the code.** A file of three frames in chunks of one frame: each of the three batches has all three frames. -/
theorem C232_width_false : ((loader (fun _ => ([(1 : Int), 2, 3], 1)) ⟨1, 1, false, false, false⟩ ⟨["a"], 1, none, none, 1, false, false, [("a", 3, 1)], [("a", 3)]⟩ [0] id 20).bind fun r =>
      (collateAll r.1).map fun xs => xs.map fun x => (x.md.lengths, x.width)) = .ok [([1], 3), ([1], 3), ([1], 3)] := by
  have h1 : loader (fun _ => ([(1 : Int), 2, 3], 1)) ⟨1, 1, false, false, false⟩ ⟨["a"], 1, none, none, 1, false, false, [("a", 3, 1)], [("a", 3)]⟩ [0] id 20 =
      .ok ([[⟨[1, 2, 3], true, false, 1, 0, 3, "a"⟩], [⟨[1, 2, 3], false, false, 1, 1, 3, "a"⟩], [⟨[1, 2, 3], false, true, 1, 2, 3, "a"⟩]], .returned) := by decide +kernel
  have h2 : ∀ s : Sample Int, collateST [s] = .ok ⟨⟨[s.id], [s.sos], [s.eos], [(s.length : Int)], some [(s.chunkIndex : Int)]⟩, s.data.length, [s.data]⟩ := by
    intro s
    rw [collateST_eq _ (by simp)]
    simp [sortByLength, Meta.ofRows, maxLen, zeros]
  rw [h1]
  simp only [Except.bind, collateAll, h2, Except.bind_ok']
  decide

-- Non-trivial cases: the dataset of C82 cut into chunks of one frame, and one file of three frames.
example : Splittable exLoad ∧ exLoad.files.Nodup ∧ exLoad.files ≠ [] := ⟨⟨by decide +kernel, by decide, Or.inr (by decide)⟩, by decide, by decide⟩
example : ∀ f ∈ exLoad.files, processData exLoadDisk exLoad f = chunkSamples ((1 : Nat) : Int) f (exLoadDisk f).1 ∧ (exLoadDisk f).1 ≠ [] := by decide +kernel
example : Splittable (⟨["a"], 1, none, none, 1, false, false, [("a", 3, 1)], [("a", 3)]⟩ : Dataset Nat) ∧
    processData exLoadDisk ⟨["a"], 1, none, none, 1, false, false, [("a", 3, 1)], [("a", 3)]⟩ "a" = chunkSamples ((1 : Nat) : Int) "a" [1, 2, 3] :=
  ⟨⟨by decide +kernel, by decide, Or.inr (by decide)⟩, by decide +kernel⟩

end
end DS.Data
