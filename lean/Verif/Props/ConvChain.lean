import Verif.Props.ConvMore
/-! C62: stacked online convolutions. -/

namespace DS.Conv
open Meta
section
variable {α : Type} [Zero α]

/-- What a layer computes offline for one sequence. -/
def Layer.offline : Layer α → List α → List α
  | .conv c g, x => DS.Conv.offline c g x
  | .act f, x => x.map f

/-- What a stack of layers computes offline for one sequence. -/
def offlineChain (ls : List (Layer α)) (x : List α) : List α := ls.foldl (fun x l => l.offline x) x

/-- Convolutions that torch accepts and zero-preserving pointwise functions. -/
def Layer.OK : Layer α → Prop
  | .conv c _ => c.Valid
  | .act f => f 0 = 0

/-- Strides are at most kernel widths. -/
def Layer.Dense : Layer α → Prop
  | .conv c _ => c.stride ≤ span c
  | .act _ => True

/-- No chunk of a complete sequence, but the last one, ends where the layer would skip frames. -/
def Layer.Clear : Layer α → List (ST α) → Prop
  | .conv c _, xs => ∀ i done cur, History (chunksOf i (xs.map unpack)) done cur → ∀ s ∈ done, DS.Conv.Clear c s
  | .act _, _ => True

/-- A fresh stack: no buffers yet. -/
def fresh (ls : List (Layer α)) : List (Layer α × Buf α) := ls.map fun l => (l, fun _ => none)

/-- `outs` follows the chunks of the sequences `done` and `cur` with the same flags, and each complete sequence is mapped by `f`. -/
def Via (f : List α → List α) (done : List (List (Chunk α))) (cur : List (Chunk α)) (outs : List (Chunk α)) : Prop :=
  ∃ doneO curO, outs = doneO.flatten ++ curO ∧
    List.Forall₂ (fun s so => allFrames so = f (allFrames s) ∧ so.map Chunk.flags = s.map Chunk.flags) done doneO ∧
    curO.map Chunk.flags = cur.map Chunk.flags

/-- A sequence of calls of one layer. -/
def layerRun (l : Layer α) (buf : Buf α) : List (ST α) → Py (List (ST α) × Buf α)
  | [] => .ok ([], buf)
  | x :: xs => do
    let (y, b) ← l.step buf x
    let (ys, b') ← layerRun l b xs
    .ok (y :: ys, b')

/-- Every layer gets only batches in which empty first or last chunks come alone, and no chunk ends inside a gap of a layer whose stride exceeds its kernel width. -/
def Fine : List (Layer α) → List (ST α) → Prop
  | [], _ => True
  | l :: ls, xs => (∀ x ∈ xs, BatchOK (unpack x)) ∧ l.Clear xs ∧ ∀ ys b, layerRun l (fun _ => none) xs = .ok (ys, b) → Fine ls ys

theorem chainRun_nil (xs : List (ST α)) : chainRun [] xs = .ok (xs, []) := by
  induction xs with
  | nil => rfl
  | cons x xs ih => simp [chainRun, chainStep, Except.bind_ok', ih]

theorem chainRun_cons {l : Layer α} {b : Buf α} {s : List (Layer α × Buf α)} {xs zs : List (ST α)} {t : List (Layer α × Buf α)}
    (h : chainRun ((l, b) :: s) xs = .ok (zs, t)) :
    ∃ ys b' t', layerRun l b xs = .ok (ys, b') ∧ chainRun s ys = .ok (zs, t') := by
  induction xs generalizing b s zs t with
  | nil =>
    simp only [chainRun, Except.ok.injEq, Prod.mk.injEq] at h
    exact ⟨[], b, s, rfl, by rw [← h.1]; rfl⟩
  | cons x xs ih =>
    simp only [chainRun] at h
    obtain ⟨⟨z, s1⟩, h1, h⟩ := bind_ok_iff h
    obtain ⟨⟨zs', s2⟩, h2, h⟩ := bind_ok_iff h
    simp only [Except.ok.injEq, Prod.mk.injEq] at h
    obtain ⟨rfl, rfl⟩ := h
    simp only [chainStep] at h1
    obtain ⟨⟨y, b1⟩, h3, h1⟩ := bind_ok_iff h1
    obtain ⟨⟨z', s3⟩, h4, h1⟩ := bind_ok_iff h1
    simp only [Except.ok.injEq, Prod.mk.injEq] at h1
    obtain ⟨rfl, rfl⟩ := h1
    obtain ⟨ys, b', t', h5, h6⟩ := ih h2
    refine ⟨y :: ys, b', t', ?_, ?_⟩
    · simp only [layerRun, h3, Except.bind_ok', h5]
    · simp only [chainRun, h4, Except.bind_ok', h6]

theorem layerRun_conv (c : Cfg) (g : List α → α) (b : Buf α) (xs : List (ST α)) : layerRun (.conv c g) b xs = run c g b xs := by
  induction xs generalizing b with
  | nil => rfl
  | cons x xs ih =>
    simp only [layerRun, run, Layer.step]
    cases forward c g b x with
    | error e => rw [map_error', Except.bind_error', Except.bind_error']
    | ok o => rw [map_ok', Except.bind_ok', Except.bind_ok']; simp only [ih]

theorem layerRun_act (f : α → α) (b : Buf α) (xs : List (ST α)) :
    layerRun (.act f) b xs = .ok (xs.map fun x => { x with rows := x.rows.map (·.map f) }, b) := by
  induction xs generalizing b with
  | nil => rfl
  | cons x xs ih => simp only [layerRun, Layer.step, Except.bind_ok', ih, List.map_cons]

/-- Everything about a chunk but its frames and index. -/
theorem startsOnce_flags {a b : List (Chunk α)} (h : a.map Chunk.flags = b.map Chunk.flags) (hb : StartsOnce b) : StartsOnce a := by
  intro k x hx
  have h1 := congrArg (·[k]?) h
  simp only [List.getElem?_map, hx, Option.map_some] at h1
  cases hy : b[k]? with
  | none => simp [hy] at h1
  | some y =>
    simp only [hy, Option.map_some, Option.some.injEq, Chunk.flags, Prod.mk.injEq] at h1
    rw [h1.2.1]
    exact hb k y hy

theorem complete_flags {a b : List (Chunk α)} (h : a.map Chunk.flags = b.map Chunk.flags) (hb : Complete b) : Complete a := by
  have hl : a.length = b.length := by simpa using congrArg List.length h
  refine ⟨?_, startsOnce_flags h hb.2.1, ?_⟩
  · intro ha
    subst ha
    exact hb.1 (List.length_eq_zero_iff.1 hl.symm)
  · intro k x hx
    have h1 := congrArg (·[k]?) h
    simp only [List.getElem?_map, hx, Option.map_some] at h1
    cases hy : b[k]? with
    | none => simp [hy] at h1
    | some y =>
      simp only [hy, Option.map_some, Option.some.injEq, Chunk.flags, Prod.mk.injEq] at h1
      rw [h1.2.2, hl]
      exact hb.2.2 k y hy

theorem open_flags {a b : List (Chunk α)} (h : a.map Chunk.flags = b.map Chunk.flags) (hb : Open b) : Open a := by
  have hl : a.length = b.length := by simpa using congrArg List.length h
  refine ⟨?_, startsOnce_flags h hb.2.1, ?_⟩
  · intro ha
    subst ha
    exact hb.1 (List.length_eq_zero_iff.1 hl.symm)
  · intro x hx
    obtain ⟨k, hk⟩ := List.getElem?_of_mem hx
    have h1 := congrArg (·[k]?) h
    simp only [List.getElem?_map, hk, Option.map_some] at h1
    cases hy : b[k]? with
    | none => simp [hy] at h1
    | some y =>
      simp only [hy, Option.map_some, Option.some.injEq, Chunk.flags, Prod.mk.injEq] at h1
      rw [h1.2.2]
      exact hb.2.2 y (List.mem_of_getElem? hy)

/-- The outputs of a layer form a history again. -/
theorem via_history {f : List α → List α} {cs : List (Chunk α)} {done : List (List (Chunk α))} {cur outs : List (Chunk α)}
    (h : History cs done cur) (hv : Via f done cur outs) :
    ∃ doneO curO, History outs doneO curO ∧
      List.Forall₂ (fun s so => allFrames so = f (allFrames s) ∧ so.map Chunk.flags = s.map Chunk.flags) done doneO ∧
      curO.map Chunk.flags = cur.map Chunk.flags := by
  obtain ⟨doneO, curO, h1, h2, h3⟩ := hv
  refine ⟨doneO, curO, ⟨h1, ?_, ?_⟩, h2, h3⟩
  · have hc := h.2.1
    clear h h1 h3
    induction h2 with
    | nil => simp
    | cons hab _ ih =>
      intro s hs
      rcases List.mem_cons.1 hs with rfl | hs
      · exact complete_flags hab.2 (hc _ (by simp))
      · exact ih (fun s hs => hc s (by simp [hs])) s hs
  · rcases h.2.2 with h0 | h0
    · subst h0
      exact .inl (by simpa using h3)
    · exact .inr (open_flags h3 h0)

theorem via_comp {f h : List α → List α} {done doneM : List (List (Chunk α))} {cur curM outs : List (Chunk α)}
    (h1 : List.Forall₂ (fun s so => allFrames so = f (allFrames s) ∧ so.map Chunk.flags = s.map Chunk.flags) done doneM)
    (h2 : curM.map Chunk.flags = cur.map Chunk.flags) (h3 : Via h doneM curM outs) : Via (fun x => h (f x)) done cur outs := by
  obtain ⟨doneO, curO, e1, e2, e3⟩ := h3
  refine ⟨doneO, curO, e1, ?_, e3.trans h2⟩
  clear e1 e3 h2
  induction h1 generalizing doneO with
  | nil => cases e2; exact .nil
  | cons hab _ ih =>
    cases e2 with
    | cons hbc e2 => exact .cons ⟨by rw [hbc.1, hab.1], hbc.2.trans hab.2⟩ (ih _ e2)

/-- A pointwise layer on one batch. -/
theorem unpack_act (f : α → α) (x : ST α) :
    unpack ({ x with rows := x.rows.map (·.map f) } : ST α) = (unpack x).map fun y => { y with frames := y.frames.map f } := by
  unfold unpack
  simp only
  rw [List.map_zipWith, List.zipWith_map_right]
  congr 1
  funext r l
  simp [List.map_take]

theorem wellPacked_act {f : α → α} (hf : f 0 = 0) {x : ST α} (hx : WellPacked x) :
    WellPacked ({ x with rows := x.rows.map (·.map f) } : ST α) := by
  unfold WellPacked Packs
  rw [unpack_act]
  obtain ⟨h1, h2, -, h4, h5⟩ := hx
  refine ⟨h1, ?_, rfl, ?_, ?_⟩
  · simp only
    rw [h2, List.map_map]
    apply List.map_congr_left
    intro y _
    simp [Chunk.row]
  · intro z hz
    obtain ⟨y, hy, rfl⟩ := List.mem_map.1 hz
    simpa using h4 y hy
  · simp only
    rw [h5, List.map_map, List.map_map]
    apply List.map_congr_left
    intro y _
    simp [zeros, hf]

theorem via_act {f : α → α} {cs : List (Chunk α)} {done : List (List (Chunk α))} {cur : List (Chunk α)} (h : History cs done cur) :
    Via (·.map f) done cur (cs.map fun y => { y with frames := y.frames.map f }) := by
  refine ⟨done.map (·.map fun y => { y with frames := y.frames.map f }), cur.map fun y => { y with frames := y.frames.map f }, ?_, ?_, ?_⟩
  · rw [h.1, List.map_append, List.map_flatten]
  · clear h
    induction done with
    | nil => exact .nil
    | cons s done ih =>
      refine .cons ⟨?_, ?_⟩ ih
      · simp [allFrames, List.map_flatMap, List.flatMap_map]
      · simp [Chunk.flags, Function.comp_def]
  · simp [Chunk.flags, Function.comp_def]

theorem dense_clear {l : Layer α} (hl : l.OK) (hd : l.Dense) (xs : List (ST α)) : l.Clear xs := by
  cases l with
  | conv c g =>
    intro i done cur _ s _
    refine clear_of_le c hl ?_ s
    have hd : c.stride ≤ span c := hd
    rwa [span_eq c hl] at hd
  | act f => trivial

/-- One layer over a schedule. -/
theorem layer_via {l : Layer α} (hl : l.OK) {xs : List (ST α)} (hclear : l.Clear xs) (hx : Schedule xs) {ys : List (ST α)} {b : Buf α}
    (h : layerRun l (fun _ => none) xs = .ok (ys, b)) :
    (∀ y ∈ ys, WellPacked y ∧ Tight y.width (unpack y)) ∧
    (ys.map fun y => (unpack y).map Chunk.flags) = (xs.map fun x => (unpack x).map Chunk.flags) ∧
    ∀ i done cur, History (chunksOf i (xs.map unpack)) done cur → Via l.offline done cur (chunksOf i (ys.map unpack)) := by
  cases l with
  | conv c g =>
    rw [layerRun_conv] at h
    obtain ⟨h1, h2, h3, h4⟩ := schedule_invG hl hx h
    refine ⟨fun y hy => ⟨h2 y hy, h4 y hy⟩, h3, ?_⟩
    intro i done cur hh
    obtain ⟨doneO, curO, e1, e2, -, e4⟩ := h1.emitted i done cur hh
    refine ⟨doneO, curO, e1, forall2_imp_mem e2 ?_, e4⟩
    rintro s hs so ⟨b1, b2⟩
    exact ⟨by rw [b1, restarts_offline (hclear i done cur hh s hs) (hh.2.1 s hs).1]; rfl, b2⟩
  | act f =>
    rw [layerRun_act] at h
    simp only [Except.ok.injEq, Prod.mk.injEq] at h
    obtain ⟨rfl, -⟩ := h
    refine ⟨?_, ?_, ?_⟩
    · intro y hy
      obtain ⟨x, hxm, rfl⟩ := List.mem_map.1 hy
      obtain ⟨a1, -, u, hu, huw⟩ := hx.1 x hxm
      refine ⟨wellPacked_act hl a1, ?_⟩
      rw [unpack_act]
      exact ⟨_, List.mem_map_of_mem hu, by simpa using huw⟩
    · rw [List.map_map]
      apply List.map_congr_left
      intro x _
      simp only [Function.comp_apply, unpack_act, List.map_map]
      rfl
    · intro i done cur hh
      have := via_act (f := f) hh
      have he : chunksOf i ((xs.map fun x : ST α => { x with rows := x.rows.map (·.map f) }).map unpack) =
          (chunksOf i (xs.map unpack)).map fun y => { y with frames := y.frames.map f } := by
        clear hh this hx hclear
        induction xs with
        | nil => rfl
        | cons x xs ih =>
          simp only [List.map_cons]
          rw [← List.singleton_append, chunksOf_append, ih, ← List.singleton_append (x := unpack x), chunksOf_append, List.map_append]
          congr 1
          simp only [chunksOf, List.flatten_cons, List.flatten_nil, List.append_nil, unpack_act, List.filter_map, Function.comp_def]
      rw [he]
      exact this

/-- A whole stack over a schedule: each stream's complete sequences become what the stack computes for them offline. -/
theorem chain_via (ls : List (Layer α)) (hl : ∀ l ∈ ls, l.OK) (xs : List (ST α)) (hx : Schedule xs) (hfine : Fine ls xs)
    (zs : List (ST α)) (t : List (Layer α × Buf α)) (h : chainRun (fresh ls) xs = .ok (zs, t)) :
    (zs.map fun y => (unpack y).map Chunk.flags) = (xs.map fun x => (unpack x).map Chunk.flags) ∧
    ∀ i done cur, History (chunksOf i (xs.map unpack)) done cur → Via (offlineChain ls) done cur (chunksOf i (zs.map unpack)) := by
  induction ls generalizing xs t with
  | nil =>
    rw [show fresh ([] : List (Layer α)) = [] from rfl, chainRun_nil] at h
    simp only [Except.ok.injEq, Prod.mk.injEq] at h
    obtain ⟨rfl, -⟩ := h
    refine ⟨rfl, fun i done cur hh => ⟨done, cur, hh.1, ?_, rfl⟩⟩
    rw [List.forall₂_same]
    exact fun s _ => ⟨rfl, rfl⟩
  | cons l ls ih =>
    rw [show fresh (l :: ls) = (l, fun _ => none) :: fresh ls from rfl] at h
    obtain ⟨ys, b', t', h1, h2⟩ := chainRun_cons h
    obtain ⟨a1, a2, a3⟩ := layer_via (hl l (by simp)) hfine.2.1 hx h1
    have hfy := hfine.2.2 ys b' h1
    have hsy : ls ≠ [] → Schedule ys := by
      intro hne
      refine ⟨fun y hy => ⟨(a1 y hy).1, ?_, (a1 y hy).2⟩, fun i => ?_⟩
      · cases ls with
        | nil => exact absurd rfl hne
        | cons l' ls' => exact hfy.1 y hy
      · obtain ⟨done, cur, hh⟩ := hx.2 i
        obtain ⟨d, c, h', -⟩ := via_history hh (a3 i done cur hh)
        exact ⟨d, c, h'⟩
    by_cases hne : ls = []
    · subst hne
      rw [show fresh ([] : List (Layer α)) = [] from rfl, chainRun_nil] at h2
      simp only [Except.ok.injEq, Prod.mk.injEq] at h2
      obtain ⟨rfl, -⟩ := h2
      exact ⟨a2, a3⟩
    · obtain ⟨b1, b2⟩ := ih (fun l hl' => hl l (by simp [hl'])) ys (hsy hne) hfy t' h2
      refine ⟨b1.trans a2, ?_⟩
      intro i done cur hh
      obtain ⟨d, c, h', e1, e2⟩ := via_history hh (a3 i done cur hh)
      exact via_comp (f := l.offline) (h := offlineChain ls) e1 e2 (b2 i d c h')

/-- C62 for every schedule in which no layer gets an empty first or last chunk next to other rows, and no chunk that ends inside a gap (there are gaps only if the
stride exceeds the kernel width; see C52). Missing: such batches (see `C62_chain_false`); calls that raise (C58, C59). -/
theorem C62_chain_partial (ls : List (Layer α)) (hl : ∀ l ∈ ls, l.OK) (xs : List (ST α)) (hx : Schedule xs) (hfine : Fine ls xs)
    (zs : List (ST α)) (t : List (Layer α × Buf α)) (h : chainRun (fresh ls) xs = .ok (zs, t))
    (i : String) (hc : Complete (chunksOf i (xs.map unpack))) : collected i zs = offlineChain ls (collected i xs) := by
  obtain ⟨doneO, curO, e1, e2, e3⟩ := (chain_via ls hl xs hx hfine zs t h).2 i [chunksOf i (xs.map unpack)] [] (by simpa [History] using hc)
  unfold collected
  rw [e1]
  cases e2 with
  | cons hab e2 =>
    cases e2
    have : curO = [] := by simpa using e3
    rw [this]
    simpa using hab.1

theorem single_fine (ls : List (Layer α)) (hl : ∀ l ∈ ls, l.OK) (hd : ∀ l ∈ ls, l.Dense) (xs : List (ST α)) (hx : Schedule xs) (hone : ∀ x ∈ xs, (unpack x).length = 1) :
    Fine ls xs := by
  induction ls generalizing xs with
  | nil => trivial
  | cons l ls ih =>
    have hcl := dense_clear (hl l (by simp)) (hd l (by simp)) xs
    refine ⟨fun x hxm => (hx.1 x hxm).2.1, hcl, ?_⟩
    intro ys b h1
    obtain ⟨a1, a2, a3⟩ := layer_via (hl l (by simp)) hcl hx h1
    have hone' : ∀ y ∈ ys, (unpack y).length = 1 := by
      intro y hy
      have hm : (unpack y).map Chunk.flags ∈ ys.map fun y => (unpack y).map Chunk.flags := List.mem_map_of_mem hy
      rw [a2] at hm
      obtain ⟨x, hxm, he⟩ := List.mem_map.1 hm
      have := congrArg List.length he
      simp only [List.length_map] at this
      rw [← this]
      exact hone x hxm
    refine ih (fun l hl' => hl l (by simp [hl'])) (fun l hl' => hd l (by simp [hl'])) ys ⟨fun y hy => ⟨(a1 y hy).1, ?_, (a1 y hy).2⟩, fun i => ?_⟩ hone'
    · have h1 := hone' y hy
      match hu : unpack y, h1 with
      | [u], _ => exact ⟨by simp, by simp, .inl rfl⟩
    · obtain ⟨done, cur, hh⟩ := hx.2 i
      obtain ⟨d, c, h', -⟩ := via_history hh (a3 i done cur hh)
      exact ⟨d, c, h'⟩

/-- C62 for strides up to the kernel widths and batches of one chunk each, any number of streams taking turns in any order: no further condition. Missing: several chunks in a batch (`C62_chain_false`). -/
theorem C62_chain_single_partial (ls : List (Layer α)) (hl : ∀ l ∈ ls, l.OK) (hd : ∀ l ∈ ls, l.Dense) (xs : List (ST α)) (hx : Schedule xs)
    (hone : ∀ x ∈ xs, (unpack x).length = 1)
    (zs : List (ST α)) (t : List (Layer α × Buf α)) (h : chainRun (fresh ls) xs = .ok (zs, t))
    (i : String) (hc : Complete (chunksOf i (xs.map unpack))) : collected i zs = offlineChain ls (collected i xs) :=
  C62_chain_partial ls hl xs hx (single_fine ls hl hd xs hx hone) zs t h i hc

/-- Two convolutions with a pointwise function between them. -/
def exLayers : List (Layer Int) := [.conv ⟨2, 1, 1, 0⟩ exG, .act (fun x => x % 7), .conv ⟨2, 1, 1, 1⟩ exG]

/-- Streams `a` and `b` taking turns. -/
def exTurns : List (ST Int) :=
  [ { md := ⟨["a"], [true], [false], [3], none⟩, width := 3, rows := [[1, 2, 3]] },
    { md := ⟨["b"], [true], [false], [2], none⟩, width := 2, rows := [[5, 6]] },
    { md := ⟨["a"], [false], [true], [1], none⟩, width := 1, rows := [[4]] },
    { md := ⟨["b"], [false], [true], [2], none⟩, width := 2, rows := [[7, 8]] } ]

example : (∀ l ∈ exLayers, l.OK ∧ l.Dense) ∧ (∀ x ∈ exTurns, (unpack x).length = 1) ∧ Complete (chunksOf "a" (exTurns.map unpack)) ∧
    Complete (chunksOf "b" (exTurns.map unpack)) := by
  refine ⟨?_, by decide⟩
  intro l hl
  simp only [exLayers, List.mem_cons, List.not_mem_nil, or_false] at hl
  rcases hl with rfl | rfl | rfl
  · show (⟨2, 1, 1, 0⟩ : Cfg).Valid ∧ (⟨2, 1, 1, 0⟩ : Cfg).stride ≤ span (⟨2, 1, 1, 0⟩ : Cfg); decide
  · exact ⟨(by decide : (0 : Int) % 7 = 0), trivial⟩
  · show (⟨2, 1, 1, 1⟩ : Cfg).Valid ∧ (⟨2, 1, 1, 1⟩ : Cfg).stride ≤ span (⟨2, 1, 1, 1⟩ : Cfg); decide
example : ((chainRun (fresh exLayers) exTurns).map fun r => (collected "a" r.1, collected "b" r.1)) =
    .ok (offlineChain exLayers [1, 2, 3, 4], offlineChain exLayers [5, 6, 7, 8]) := by decide

/-- The schedule of the counterexample: `b` starts, with one frame, next to a longer chunk of `a`. -/
def exShort : List (ST Int) :=
  [ { md := ⟨["a"], [true], [false], [3], none⟩, width := 3, rows := [[1, 2, 3]] },
    { md := ⟨["a", "b"], [false, true], [true, false], [3, 1], none⟩, width := 3, rows := [[4, 5, 6], [7, 0, 0]] },
    { md := ⟨["b"], [false], [true], [2], none⟩, width := 2, rows := [[8, 9]] } ]

/-- **C62 is false of the code.** The first layer has no output yet for the first chunk of `b`, so the second layer receives an empty row
marked as start next to a row of `a`; the mark is lost and with it the second layer's start padding. -/
theorem C62_chain_false :
    Schedule exShort ∧ Complete (chunksOf "b" (exShort.map unpack)) ∧
    ((chainRun (fresh [.conv ⟨2, 1, 1, 0⟩ exG, .conv ⟨2, 1, 1, 1⟩ exG]) exShort).map fun r => collected "b" r.1) = .ok [78 * 10 + 89, 890] ∧
    offlineChain [.conv ⟨2, 1, 1, 0⟩ exG, .conv ⟨2, 1, 1, 1⟩ exG] [7, 8, 9] = [78, 78 * 10 + 89, 890] := by
  refine ⟨⟨by decide, ?_⟩, by decide⟩
  intro i
  by_cases ha : i = "a"
  · subst ha
    exact ⟨[[⟨"a", true, false, none, [1, 2, 3]⟩, ⟨"a", false, true, none, [4, 5, 6]⟩]], [], by decide⟩
  · by_cases hb : i = "b"
    · subst hb
      exact ⟨[[⟨"b", true, false, none, [7]⟩, ⟨"b", false, true, none, [8, 9]⟩]], [], by decide⟩
    · refine ⟨[], [], ?_⟩
      have : chunksOf i (exShort.map unpack) = [] := by
        unfold chunksOf
        rw [List.filter_eq_nil_iff]
        intro x hx
        have : ∀ x ∈ (exShort.map unpack).flatten, x.id = "a" ∨ x.id = "b" := by decide
        rcases this x hx with h | h <;> simp [h, Ne.symm ha, Ne.symm hb]
      rw [this]
      exact ⟨rfl, by simp, .inl rfl⟩

end
end DS.Conv
