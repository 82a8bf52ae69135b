import Verif.Props.Branches
/-! # C200: branches with kernels of different widths -/

namespace DS.ConvT
open DS.Tn DS.Conv

theorem keeps_nOut {c : Cfg} (h : Cfg.Keeps c) (n : Nat) : nOut c n = n - 2 * c.padding := by
  obtain ⟨hv, hs, hk⟩ := h
  rw [span_eq c hv] at hk
  unfold nOut
  rw [hk, hs]
  split <;> omega

section
variable {β γ : Type} [Zero β] [Zero γ]

/-- The chunk with its frames mapped. -/
def onFrames (f : β → γ) (x : Chunk β) : Chunk γ := x.set true (x.frames.map f)

theorem packs_map {f : β → γ} (hf : f 0 = 0) {x : ST β} {w : Nat} {cs : List (Chunk β)} (h : Packs x w cs) : Packs (x.map f) w (cs.map (onFrames f)) := by
  obtain ⟨h1, h2, h3, h4, h5⟩ := h
  refine ⟨h1, ?_, h3, ?_, ?_⟩
  · show x.md.rows = _
    rw [h2, List.map_map]
    apply List.map_congr_left
    intro z _
    simp [onFrames, Chunk.set, Chunk.row]
  · intro z hz
    obtain ⟨y, hy, rfl⟩ := List.mem_map.1 hz
    simpa [onFrames, Chunk.set] using h4 y hy
  · show x.rows.map (List.map f) = _
    rw [h5, List.map_map, List.map_map]
    apply List.map_congr_left
    intro z _
    simp [onFrames, Chunk.set, zeros, hf]

theorem unpack_map (f : β → γ) (x : ST β) : unpack (x.map f) = (unpack x).map (onFrames f) := by
  unfold unpack
  show List.zipWith _ x.md.rows (x.rows.map (List.map f)) = _
  rw [List.zipWith_map_right, List.map_zipWith]
  congr 1
  funext r l
  simp [onFrames, Chunk.set, List.map_take]

/-- A first call on a batch in which every stream starts, and every or no stream ends. -/
theorem first_call {c : Cfg} (hc : Cfg.Keeps c) (g : List β → γ) (w : Nat) (cs : List (Chunk β)) (hne : cs ≠ []) (hle : ∀ x ∈ cs, x.frames.length ≤ w) (ht : Tight w cs) (hs : ∀ x ∈ cs, x.sos = true) (e : Bool) (he : ∀ x ∈ cs, x.eos = e) :
    (w + (if e then c.padding else 0) < c.padding + 1 → forward c g (fun _ => none) (pk false w cs) = .error .runtimeError) ∧
    (c.padding + 1 ≤ w + (if e then c.padding else 0) → ∃ o, forward c g (fun _ => none) (pk false w cs) = .ok o ∧
      o.y = pk false (w + (if e then c.padding else 0) - c.padding) (cs.map fun x => x.set false (conv c g (zeros c.padding ++ x.frames ++ (if e then zeros c.padding else []))))) := by
  have hall : allSos cs = true := by
    unfold allSos
    rw [List.all_eq_true]
    exact hs
  have hr : ragged c (fun _ => none) cs = false := by simp [ragged, hall]
  have hst : stacked c (fun _ => none) cs = false := by simp [stacked, hall]
  obtain ⟨w', h1, h2, h3⟩ := forward_pk c hc.1 g (fun _ => none) false w cs hne ⟨hle, by simp, by simp, by simp [hr]⟩ (.inr (.inr (.inr ht.reaches)))
  have hw' : w' = c.padding + w + (if e then c.padding else 0) := by
    obtain ⟨x, hx, h4⟩ := h2 ht
    obtain ⟨y, hy, h5⟩ := ht
    have h6 := h1 y hy
    have h7 := hle x hx
    rw [inp_length, hs _ hx, he _ hx] at h4
    rw [inp_length, hs _ hy, he _ hy] at h6
    simp only [if_true] at h4 h6
    omega
  have hk : c.kw = 2 * c.padding + 1 := by rw [← span_eq c hc.1]; exact hc.2.2
  rw [h3, hst, hr]
  constructor
  · intro h
    rw [if_neg (by simp), if_pos (by omega)]
  · intro h
    rw [if_neg (by simp), if_neg (by omega)]
    refine ⟨_, rfl, ?_⟩
    dsimp only
    rw [keeps_nOut hc]
    have e1 : w' - 2 * c.padding = w + (if e then c.padding else 0) - c.padding := by omega
    rw [e1]
    congr 1
    apply List.map_congr_left
    intro x hx
    have : inp c (fun _ => none) x = zeros c.padding ++ x.frames ++ (if e then zeros c.padding else []) := by
      unfold inp
      rw [hs x hx, he x hx]
      rfl
    rw [this]
    rfl

end

section
variable {α : Type} [AddCommMonoid α] [Mul α]

theorem glue_width {o₁ o₂ : Nat} {y z : STen α} (hy : BCL o₁ y) (hz : BCL o₂ z) (hn : y.t.names = z.t.names) (hw : z.t.shape.getD 2 0 ≠ y.t.shape.getD 2 0) (hc : y.md.chunk = none) (hc' : z.md.chunk = none) :
    glue y z = .error .runtimeError := by
  obtain ⟨⟨f, hf, f1, f2, f3⟩, ⟨wy, hwy⟩, hmy⟩ := hy
  obtain ⟨-, ⟨wz, hwz⟩, -⟩ := hz
  rw [hwy, hwz] at hw
  have hww : wz ≠ wy := hw
  have hnm : namesOK [BATCH, f, LENGTH] = true := by
    unfold namesOK
    cases f with
    | none => decide
    | some g =>
      have g1 : g ≠ "B" := fun h => f1 (by rw [h]; rfl)
      have g2 : g ≠ "L" := fun h => f2 (by rw [h]; rfl)
      have g3 : g ≠ "" := fun h => f3 (by rw [h])
      simp [BATCH, LENGTH, g1, g2, g3, Ne.symm g1, Ne.symm g2, Ne.symm g3]
  have hnm' : ([BATCH, f, LENGTH].filterMap id).Nodup ∧ some "" ∉ [BATCH, f, LENGTH] := by
    unfold namesOK at hnm
    simpa only [Bool.and_eq_true, decide_eq_true_eq, Bool.not_eq_true', List.contains_eq_mem, decide_eq_false_iff_not] using hnm
  have hcat : catTen y.t [z.t] 1 = .error .runtimeError := by
    unfold catTen
    have hd : y.t.ndim = 3 := by simp [Ten.ndim, hwy]
    have e : normDim y.t.ndim 1 = .ok 1 := by rw [hd]; rfl
    rw [e, ok_bind', if_neg (by simp [hwy, hwz, hww])]
  have hwf : ∀ u ∈ [y, z], u.t.WF ∧ posOf u.t.ndim 1 = some 1 ∧ u.t.names[1]? ≠ some BATCH ∧ u.t.names[1]? ≠ some LENGTH := by
    intro u hu
    have hu : u = y ∨ u = z := by simpa using hu
    rcases hu with rfl | rfl
    · refine ⟨?_, by simp [Ten.ndim, hwy, posOf], by simp [hf, f1], by simp [hf, f2]⟩
      exact ⟨by simp [hwy, hf], by rw [hf]; exact hnm'⟩
    · refine ⟨?_, by simp [Ten.ndim, hwz, posOf], by simp [← hn, hf, f1], by simp [← hn, hf, f2]⟩
      exact ⟨by simp [hwz, ← hn, hf], by rw [← hn, hf]; exact hnm'⟩
  have h := (C32_cat_feature_partial y [z] (by simp) 1 1 hwf (by simp [hc, hc'])).2 (by simp)
  simp only [List.map_cons, List.map_nil, hcat, Except.map] at h
  unfold glue
  rw [h]
  rfl

/-- The channels of a concatenation. -/
theorem glue_parts {o₁ o₂ : Nat} {y z w : STen α} (hy : BCL o₁ y) (hz : BCL o₂ z) (hw : BCL (o₁ + o₂) w) (hm : z.md = y.md) (hm' : w.md = y.md) (hs : z.t.shape.getD 2 0 = y.t.shape.getD 2 0) (hs' : w.t.shape.getD 2 0 = y.t.shape.getD 2 0)
    (hv : ∀ b c j, w.t.val [b, c, j] = if c < o₁ then y.t.val [b, c, j] else z.t.val [b, c - o₁, j]) :
    (asBatch (o₁ + o₂) w).map (chans 0 o₁) = asBatch o₁ y ∧ (asBatch (o₁ + o₂) w).map (chans o₁ o₂) = asBatch o₂ z := by
  unfold asBatch ST.map
  dsimp only
  rw [hm, hm', hs, hs']
  constructor
  · congr 1
    unfold rowsOf
    rw [List.map_map]
    apply List.map_congr_left
    intro b _
    simp only [Function.comp_apply, rowOf, List.map_map]
    apply List.map_congr_left
    intro j _
    funext c
    simp only [Function.comp_apply, chans, Nat.zero_add]
    by_cases h : c < o₁
    · rw [if_pos h, if_pos (by omega), if_pos h, hv, if_pos h]
    · rw [if_neg h, if_neg h]
  · congr 1
    unfold rowsOf
    rw [List.map_map]
    apply List.map_congr_left
    intro b _
    simp only [Function.comp_apply, rowOf, List.map_map]
    apply List.map_congr_left
    intro j _
    funext c
    simp only [Function.comp_apply, chans]
    by_cases h : c < o₂
    · rw [if_pos h, if_pos (by omega), if_pos h, hv, if_neg (by omega), Nat.add_sub_cancel_left]
    · rw [if_neg h, if_neg h]

/-- One branch in a first call. -/
theorem branch {k : Kern α} {s n ch : Nat} (hk : k.Fits n) (hn : s + n ≤ ch) {c : Cfg} (hc : Cfg.Keeps c) {x : STen α} (hx : BCL ch x) (hcn : x.md.chunk = none) (hp : WellPacked (asBatch ch x)) (hne : unpack (asBatch ch x) ≠ [])
    (ht : Tight (x.t.shape.getD 2 0) (unpack (asBatch ch x))) (hs : ∀ z ∈ unpack (asBatch ch x), z.sos = true) (e : Bool) (he : ∀ z ∈ unpack (asBatch ch x), z.eos = e) :
    (x.t.shape.getD 2 0 + (if e then c.padding else 0) < c.padding + 1 → forwardT k c (fun _ => none) (part s n x) = .error .runtimeError) ∧
    (c.padding + 1 ≤ x.t.shape.getD 2 0 + (if e then c.padding else 0) → ∃ y b, forwardT k c (fun _ => none) (part s n x) = .ok (y, b) ∧ BCL k.outs y ∧ y.t.names = x.t.names ∧
      asBatch k.outs y = pk false (x.t.shape.getD 2 0 + (if e then c.padding else 0) - c.padding)
        ((unpack (asBatch ch x)).map fun z => z.set false (conv c k.frames (zeros c.padding ++ z.frames.map (chans s n) ++ (if e then zeros c.padding else []))))) := by
  have a := forward_agree c hk (part_bcl hx s n) (b := fun _ => none) (buf := fun _ => none) ⟨by simp, by simp⟩
  have hp' : Packs (asBatch n (part s n x)) (x.t.shape.getD 2 0) ((unpack (asBatch ch x)).map (onFrames (chans s n))) := by
    rw [part_batch hx s n hn]
    exact packs_map (chans_zero s n) hp
  have hcn' : (asBatch n (part s n x)).md.chunk.isSome = false := by
    show x.md.chunk.isSome = false
    rw [hcn]
    rfl
  rw [packs_pk hp', hcn'] at a
  obtain ⟨f1, f2⟩ := first_call hc k.frames (x.t.shape.getD 2 0) ((unpack (asBatch ch x)).map (onFrames (chans s n))) (by simpa using hne) hp'.2.2.2.1
    (by obtain ⟨z, hz, h⟩ := ht; exact ⟨onFrames (chans s n) z, List.mem_map_of_mem hz, by simpa [onFrames, Chunk.set] using h⟩)
    (by intro z hz; obtain ⟨y, hy, rfl⟩ := List.mem_map.1 hz; exact hs y hy) e (by intro z hz; obtain ⟨y, hy, rfl⟩ := List.mem_map.1 hz; exact he y hy)
  constructor
  · intro h
    rw [f1 h] at a
    generalize forwardT k c (fun _ => none) (part s n x) = q at a
    cases a
    rfl
  · intro h
    obtain ⟨o, h1, h2⟩ := f2 h
    rw [h1] at a
    generalize forwardT k c (fun _ => none) (part s n x) = q at a
    cases a with
    | @ok y _ r =>
      obtain ⟨y, b⟩ := y
      obtain ⟨r1, r2, r3, r4⟩ := r
      refine ⟨y, b, rfl, r2, r3, ?_⟩
      dsimp only at r1
      rw [← r1, h2, List.map_map]
      rfl

/-- C200, streams in one piece: if every stream in a batch starts and ends in it, and the batch has at least one frame, the call succeeds, keeps the metadata, and gives for each stream in each half of the channels what the ordinary convolution gives for that stream.
Missing: streams in several chunks (`C200_refused_false`, `C200_silent_false`; with kernels of one width C199). -/
theorem C200_whole_partial (P : Pair α) (h₁ : Cfg.Keeps P.c₁) (h₂ : Cfg.Keeps P.c₂) (hk₁ : P.k₁.Fits P.n) (hk₂ : P.k₂.Fits P.m) (x : STen α) (hx : BCL (P.n + P.m) x) (hcn : x.md.chunk = none)
    (hp : WellPacked (asBatch (P.n + P.m) x)) (hne : unpack (asBatch (P.n + P.m) x) ≠ []) (ht : Tight (x.t.shape.getD 2 0) (unpack (asBatch (P.n + P.m) x))) (hw : 1 ≤ x.t.shape.getD 2 0)
    (hs : ∀ z ∈ unpack (asBatch (P.n + P.m) x), z.sos = true ∧ z.eos = true) :
    ∃ w b, callNarrow P (fun _ => none, fun _ => none) x = .ok (w, b) ∧ BCL (P.k₁.outs + P.k₂.outs) w ∧ w.md = x.md ∧
      ((unpack (asBatch (P.k₁.outs + P.k₂.outs) w)).map fun z => z.frames.map (chans 0 P.k₁.outs)) = ((unpack (asBatch (P.n + P.m) x)).map fun z => offline P.c₁ P.k₁.frames (z.frames.map (chans 0 P.n))) ∧
      ((unpack (asBatch (P.k₁.outs + P.k₂.outs) w)).map fun z => z.frames.map (chans P.k₁.outs P.k₂.outs)) = ((unpack (asBatch (P.n + P.m) x)).map fun z => offline P.c₂ P.k₂.frames (z.frames.map (chans P.n P.m))) := by
  obtain ⟨y, b₁, y1, y2, y3, y4⟩ := (branch (k := P.k₁) (s := 0) hk₁ (by omega) h₁ hx hcn hp hne ht (fun z hz => (hs z hz).1) true (fun z hz => (hs z hz).2)).2 (by rw [if_pos rfl]; omega)
  obtain ⟨z, b₂, z1, z2, z3, z4⟩ := (branch (k := P.k₂) (s := P.n) hk₂ (by omega) h₂ hx hcn hp hne ht (fun z hz => (hs z hz).1) true (fun z hz => (hs z hz).2)).2 (by rw [if_pos rfl]; omega)
  have hmd : ∀ (c : Cfg) (hc : Cfg.Keeps c) (k : Kern α) (s n w : Nat), (pk false w ((unpack (asBatch (P.n + P.m) x)).map fun z => z.set false (conv c k.frames (zeros c.padding ++ z.frames.map (chans s n) ++ zeros c.padding)))).md = x.md := by
    intro c hc k s n w
    have hm : x.md = (pk false (x.t.shape.getD 2 0) (unpack (asBatch (P.n + P.m) x))).md := by
      have hh := packs_pk hp
      have hb : (asBatch (P.n + P.m) x).md.chunk.isSome = false := by
        show x.md.chunk.isSome = false
        rw [hcn]
        rfl
      rw [hb] at hh
      exact congrArg ST.md hh
    rw [hm]
    unfold pk Meta.ofRows
    dsimp only
    simp only [List.map_map]
    congr 1
    apply List.map_congr_left
    intro z _
    show ((conv c k.frames _).length : Int) = (z.frames.length : Int)
    rw [conv_length c hc.1, keeps_nOut hc]
    simp [zeros_length]
    omega
  have my : y.md = x.md := by
    rw [← hmd P.c₁ h₁ P.k₁ 0 P.n]
    exact congrArg ST.md y4
  have mz : z.md = x.md := by
    rw [← hmd P.c₂ h₂ P.k₂ P.n P.m]
    exact congrArg ST.md z4
  have wy : y.t.shape.getD 2 0 = x.t.shape.getD 2 0 := by
    have := congrArg ST.width y4
    simpa [asBatch, pk] using this
  have wz : z.t.shape.getD 2 0 = x.t.shape.getD 2 0 := by
    have := congrArg ST.width z4
    simpa [asBatch, pk] using this
  obtain ⟨w, g1, g2, g3, g4, g5, g6⟩ := glue_ok y2 z2 (y3.trans z3.symm) (mz.trans my.symm) (wz.trans wy.symm) (by rw [my]; exact hcn)
  obtain ⟨p1, p2⟩ := glue_parts y2 z2 g2 (mz.trans my.symm) g4 (wz.trans wy.symm) g5 g6
  refine ⟨w, (b₁, b₂), ?_, g2, g4.trans my, ?_, ?_⟩
  · unfold callNarrow
    have e0 : narrow 0 x 1 0 P.n = .ok (part 0 P.n x) := narrow_part hx 0 P.n (by omega)
    rw [e0, ok_bind', narrow_part hx P.n P.m (by omega), ok_bind']
    dsimp only
    rw [y1, ok_bind']
    dsimp only
    rw [z1, ok_bind']
    dsimp only
    rw [g1]
    rfl
  · have e : ((unpack (asBatch (P.k₁.outs + P.k₂.outs) w)).map fun z => z.frames.map (chans 0 P.k₁.outs)) = (unpack ((asBatch (P.k₁.outs + P.k₂.outs) w).map (chans 0 P.k₁.outs))).map (·.frames) := by
      rw [unpack_map, List.map_map]
      rfl
    rw [e, p1, y4, unpack_pk _ _ _ (by intro q hq; obtain ⟨r, -, rfl⟩ := List.mem_map.1 hq; rfl), List.map_map]
    rfl
  · have e : ((unpack (asBatch (P.k₁.outs + P.k₂.outs) w)).map fun z => z.frames.map (chans P.k₁.outs P.k₂.outs)) = (unpack ((asBatch (P.k₁.outs + P.k₂.outs) w).map (chans P.k₁.outs P.k₂.outs))).map (·.frames) := by
      rw [unpack_map, List.map_map]
      rfl
    rw [e, p2, z4, unpack_pk _ _ _ (by intro q hq; obtain ⟨r, -, rfl⟩ := List.mem_map.1 hq; rfl), List.map_map]
    rfl

/-- C200, first chunks: if every stream in a batch starts in it and none ends, branches with kernels of different widths are never concatenated: the call raises RuntimeError, whatever the frames.
Missing: as for `C200_whole_partial`. -/
theorem C200_first_partial (P : Pair α) (h₁ : Cfg.Keeps P.c₁) (h₂ : Cfg.Keeps P.c₂) (hk₁ : P.k₁.Fits P.n) (hk₂ : P.k₂.Fits P.m) (hd : span P.c₁ ≠ span P.c₂) (x : STen α) (hx : BCL (P.n + P.m) x) (hcn : x.md.chunk = none)
    (hp : WellPacked (asBatch (P.n + P.m) x)) (hne : unpack (asBatch (P.n + P.m) x) ≠ []) (ht : Tight (x.t.shape.getD 2 0) (unpack (asBatch (P.n + P.m) x)))
    (hs : ∀ z ∈ unpack (asBatch (P.n + P.m) x), z.sos = true ∧ z.eos = false) :
    callNarrow P (fun _ => none, fun _ => none) x = .error .runtimeError := by
  have hpd : P.c₁.padding ≠ P.c₂.padding := by
    have := h₁.2.2
    have := h₂.2.2
    omega
  obtain ⟨a1, a2⟩ := branch (k := P.k₁) (s := 0) hk₁ (by omega) h₁ hx hcn hp hne ht (fun z hz => (hs z hz).1) false (fun z hz => (hs z hz).2)
  obtain ⟨a3, a4⟩ := branch (k := P.k₂) (s := P.n) hk₂ (by omega) h₂ hx hcn hp hne ht (fun z hz => (hs z hz).1) false (fun z hz => (hs z hz).2)
  simp only [Bool.false_eq_true, if_false, Nat.add_zero] at a1 a2 a3 a4
  unfold callNarrow
  have e0 : narrow 0 x 1 0 P.n = .ok (part 0 P.n x) := narrow_part hx 0 P.n (by omega)
  rw [e0, ok_bind', narrow_part hx P.n P.m (by omega), ok_bind']
  dsimp only
  by_cases q1 : x.t.shape.getD 2 0 < P.c₁.padding + 1
  · rw [a1 q1]
    rfl
  · obtain ⟨y, b₁, y1, y2, y3, y4⟩ := a2 (by omega)
    rw [y1, ok_bind']
    dsimp only
    by_cases q2 : x.t.shape.getD 2 0 < P.c₂.padding + 1
    · rw [a3 q2]
      rfl
    · obtain ⟨z, b₂, z1, z2, z3, z4⟩ := a4 (by omega)
      rw [z1, ok_bind']
      dsimp only
      have wy : y.t.shape.getD 2 0 = x.t.shape.getD 2 0 - P.c₁.padding := congrArg ST.width y4
      have wz : z.t.shape.getD 2 0 = x.t.shape.getD 2 0 - P.c₂.padding := congrArg ST.width z4
      have my : y.md.chunk = none := congrArg (fun q => q.md.chunk) y4
      have mz : z.md.chunk = none := congrArg (fun q => q.md.chunk) z4
      rw [glue_width y2 z2 (y3.trans z3.symm) (by omega) my mz]
      rfl

end

/-- A pointwise convolution of the first channel, and the sum of three frames of the second one with a zero frame at each end. -/
def exInception : Pair Int :=
  { k₁ := { outs := 1, ins := 1, groups := 1, weight := fun _ _ _ => 1, bias := fun _ => 0 }, c₁ := ⟨1, 1, 1, 0⟩, n := 1
    k₂ := { outs := 1, ins := 1, groups := 1, weight := fun _ _ _ => 1, bias := fun _ => 0 }, c₂ := ⟨3, 1, 1, 1⟩, m := 1 }

/-- **C200 is false of the code.** A pointwise convolution next to one of width 3 with padding 1: on the first chunk of two frames the branches have two outputs and one, and `torch.cat` raises RuntimeError. -/
theorem C200_refused_false : Cfg.Keeps exInception.c₁ ∧ Cfg.Keeps exInception.c₂ ∧ Schedule (exChunks.map (asBatch 2)) ∧ Complete (chunksOf "a" ((exChunks.map (asBatch 2)).map unpack)) ∧
    calls (callNarrow exInception) (fun _ => none, fun _ => none) exChunks = .error .runtimeError :=
  ⟨by decide, by decide, exChunks_schedule.1, exChunks_schedule.2, by rfl⟩

example : ∃ x ∈ exChunks, BCL 2 x ∧ x.md.chunk = none ∧ unpack (asBatch 2 x) ≠ [] ∧ (∀ z ∈ unpack (asBatch 2 x), z.sos = true ∧ z.eos = false) ∧ span exInception.c₁ ≠ span exInception.c₂ :=
  ⟨exChunks[0], by simp [exChunks], exChunks_bcl _ (by simp [exChunks]), by decide, by decide, by decide, by decide⟩

/-- Stream "b" in two chunks of 3 and 2 frames (1, 1), …, (5, 5), each time in a batch with another stream of 3 frames in one piece. -/
def exMixed : List (STen Int) :=
  [⟨{ shape := [2, 2, 3], names := [BATCH, some "F", LENGTH], val := fun ix => if ix.getD 0 0 = 0 then [1, 2, 3].getD (ix.getD 2 0) 0 else 7 }, ⟨["b", "c"], [true, true], [false, true], [3, 3], none⟩⟩,
   ⟨{ shape := [2, 2, 3], names := [BATCH, some "F", LENGTH], val := fun ix => if ix.getD 0 0 = 0 then [4, 5, 0].getD (ix.getD 2 0) 0 else 7 }, ⟨["b", "d"], [false, true], [true, true], [2, 3], none⟩⟩]

theorem exMixed_bcl : ∀ x ∈ exMixed, BCL 2 x := by
  intro x hx
  simp only [exMixed, List.mem_cons, List.not_mem_nil, or_false] at hx
  rcases hx with rfl | rfl
  · exact ⟨⟨some "F", rfl, by decide, by decide, by decide⟩, ⟨3, rfl⟩, by decide⟩
  · exact ⟨⟨some "F", rfl, by decide, by decide, by decide⟩, ⟨3, rfl⟩, by decide⟩

theorem exMixed_complete : ∀ i ∈ ["b", "c", "d"], Complete (chunksOf i ((exMixed.map (asBatch 2)).map unpack)) := by decide

theorem exMixed_schedule : Schedule (exMixed.map (asBatch 2)) := by
  refine ⟨fun x hx => ?_, fun i => ?_⟩
  · simp only [exMixed, List.map_cons, List.map_nil, List.mem_cons, List.not_mem_nil, or_false] at hx
    rcases hx with rfl | rfl
    · exact ⟨⟨by decide, rfl, rfl, by decide, rfl⟩, by decide, by decide⟩
    · refine ⟨⟨by decide, rfl, rfl, by decide, ?_⟩, by decide, by decide⟩
      simp only [asBatch, rowsOf, rowOf, unpack, Meta.rows]
      refine List.cons_eq_cons.2 ⟨?_, List.cons_eq_cons.2 ⟨?_, rfl⟩⟩
      · refine List.cons_eq_cons.2 ⟨rfl, List.cons_eq_cons.2 ⟨rfl, List.cons_eq_cons.2 ⟨?_, rfl⟩⟩⟩
        funext c
        by_cases hc : c < 2 <;> simp [hc]
      · rfl
  by_cases ha : i ∈ ["b", "c", "d"]
  · exact ⟨[chunksOf i ((exMixed.map (asBatch 2)).map unpack)], [], by simp, by simpa using exMixed_complete i ha, .inl rfl⟩
  · refine ⟨[], [], ?_⟩
    have : chunksOf i ((exMixed.map (asBatch 2)).map unpack) = [] := by
      unfold chunksOf
      rw [List.filter_eq_nil_iff]
      intro x hx
      have h : ∀ x ∈ ((exMixed.map (asBatch 2)).map unpack).flatten, x.id ∈ ["b", "c", "d"] := by decide
      simp only [decide_eq_true_eq]
      intro e
      exact ha (e ▸ h x hx)
    rw [this]
    exact ⟨rfl, by simp, .inl rfl⟩

/-- C200 also fails without an exception: `torch.cat` compares sizes but, of two tensors, not the metadata, and the other streams of a batch can make the sizes equal. Of the sums 3, 6, 9, 12, 9 of stream "b" the code gives 3, 6, 0, 9, 12: a zero that is taken for an output in the
first chunk, and the last output cut off. -/
theorem C200_silent_false : Cfg.Keeps exInception.c₁ ∧ Cfg.Keeps exInception.c₂ ∧ Schedule (exMixed.map (asBatch 2)) ∧ Complete (chunksOf "b" ((exMixed.map (asBatch 2)).map unpack)) ∧
    ((calls (callNarrow exInception) (fun _ => none, fun _ => none) exMixed).map fun r => pairs (collected "b" (r.1.map (asBatch 2)))) = .ok [(1, 3), (2, 6), (3, 0), (4, 9), (5, 12)] ∧
    (offline exInception.c₂ exInception.k₂.frames ((collected "b" (exMixed.map (asBatch 2))).map (chans 1 1))).map (· 0) = [3, 6, 9, 12, 9] :=
  ⟨by decide, by decide, exMixed_schedule, exMixed_complete "b" (by simp), by decide +kernel, by decide +kernel⟩

/-- Two streams of 2 frames and 1 frame, each in one piece. -/
def exPieces : STen Int :=
  ⟨{ shape := [2, 2, 2], names := [BATCH, some "F", LENGTH], val := fun ix => if ix.getD 2 0 = 0 then 3 else if ix.getD 0 0 = 0 then 4 else 0 }, ⟨["a", "b"], [true, true], [true, true], [2, 1], none⟩⟩

example : BCL 2 exPieces ∧ unpack (asBatch 2 exPieces) ≠ [] ∧ Tight 2 (unpack (asBatch 2 exPieces)) ∧ (∀ z ∈ unpack (asBatch 2 exPieces), z.sos = true ∧ z.eos = true) ∧
    ((callNarrow exInception (fun _ => none, fun _ => none) exPieces).map fun r => (unpack (asBatch 2 r.1)).map fun z => pairs z.frames) = .ok [[(3, 7), (4, 7)], [(3, 3)]] :=
  ⟨⟨⟨some "F", rfl, by decide, by decide, by decide⟩, ⟨2, rfl⟩, by decide⟩, by decide, by decide, by decide, by decide +kernel⟩

end DS.ConvT
