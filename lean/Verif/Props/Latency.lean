import Verif.Spec.Latency
import Verif.Props.ConvChain
import Verif.Props.Readme
/-! # C202: when a stack of online convolutions gives its outputs -/

namespace DS.Conv
open Meta
section
variable {α : Type} [Zero α]

/-- What a layer has computed after the frames `x` of a sequence that goes on. -/
def Layer.soFar : Layer α → List α → List α
  | .conv c g, x => DS.Conv.conv c g (zeros c.padding ++ x)
  | .act f, x => x.map f

def soFarChain (ls : List (Layer α)) (x : List α) : List α := ls.foldl (fun x l => l.soFar x) x

/-- `Via` together with the frames of the open sequence. -/
def ViaD (f d : List α → List α) (done : List (List (Chunk α))) (cur : List (Chunk α)) (outs : List (Chunk α)) : Prop :=
  ∃ doneO curO, outs = doneO.flatten ++ curO ∧
    List.Forall₂ (fun s so => allFrames so = f (allFrames s) ∧ so.map Chunk.flags = s.map Chunk.flags) done doneO ∧
    curO.map Chunk.flags = cur.map Chunk.flags ∧ (cur ≠ [] → allFrames curO = d (allFrames cur))

theorem layer_viaD {l : Layer α} (hl : l.OK) (hd : l.Dense) {xs : List (ST α)} (hx : Schedule xs) {ys : List (ST α)} {b : Buf α}
    (h : layerRun l (fun _ => none) xs = .ok (ys, b)) (i : String) (done : List (List (Chunk α))) (cur : List (Chunk α))
    (hh : History (chunksOf i (xs.map unpack)) done cur) : ViaD l.offline l.soFar done cur (chunksOf i (ys.map unpack)) := by
  cases l with
  | conv c g =>
    have hs : c.stride ≤ c.kw := by
      have hd : c.stride ≤ span c := hd
      rwa [span_eq c hl] at hd
    rw [layerRun_conv] at h
    obtain ⟨doneO, curO, e1, e2, e3, e4⟩ := ((C53_schedule c hl hs g xs hx ys b h).2.2 i done cur hh).1
    refine ⟨doneO, curO, e1, e2, e4, fun hne => ?_⟩
    rw [e3, due, if_neg hne]
    rfl
  | act f =>
    obtain ⟨-, -, a3⟩ := layer_via hl (dense_clear hl hd xs) hx h
    rw [layerRun_act] at h
    simp only [Except.ok.injEq, Prod.mk.injEq] at h
    obtain ⟨rfl, -⟩ := h
    have he : chunksOf i ((xs.map fun x : ST α => { x with rows := x.rows.map (·.map f) }).map unpack) =
        (chunksOf i (xs.map unpack)).map fun y => { y with frames := y.frames.map f } := by
      clear hh hx a3
      induction xs with
      | nil => rfl
      | cons x xs ih =>
        simp only [List.map_cons]
        rw [← List.singleton_append, chunksOf_append, ih, ← List.singleton_append (x := unpack x), chunksOf_append, List.map_append]
        congr 1
        simp only [chunksOf, List.flatten_cons, List.flatten_nil, List.append_nil, unpack_act, List.filter_map, Function.comp_def]
    rw [he]
    refine ⟨done.map (·.map fun y => { y with frames := y.frames.map f }), cur.map fun y => { y with frames := y.frames.map f }, ?_, ?_, ?_, ?_⟩
    · rw [hh.1, List.map_append, List.map_flatten]
    · clear hh
      induction done with
      | nil => exact .nil
      | cons s done ih =>
        refine .cons ⟨?_, ?_⟩ ih
        · simp [allFrames, List.map_flatMap, List.flatMap_map, Layer.offline]
        · simp [Chunk.flags, Function.comp_def]
    · simp [Chunk.flags, Function.comp_def]
    · intro _
      simp [allFrames, List.map_flatMap, List.flatMap_map, Layer.soFar]

theorem viaD_via {f d : List α → List α} {done : List (List (Chunk α))} {cur outs : List (Chunk α)} (h : ViaD f d done cur outs) : Via f done cur outs := by
  obtain ⟨a, b, h1, h2, h3, -⟩ := h
  exact ⟨a, b, h1, h2, h3⟩

theorem chain_viaD (ls : List (Layer α)) (hl : ∀ l ∈ ls, l.OK) (hd : ∀ l ∈ ls, l.Dense) (xs : List (ST α)) (hx : Schedule xs) (hfine : Fine ls xs)
    (zs : List (ST α)) (t : List (Layer α × Buf α)) (h : chainRun (fresh ls) xs = .ok (zs, t)) (i : String) (done : List (List (Chunk α))) (cur : List (Chunk α))
    (hh : History (chunksOf i (xs.map unpack)) done cur) : ViaD (offlineChain ls) (soFarChain ls) done cur (chunksOf i (zs.map unpack)) := by
  induction ls generalizing xs t done cur with
  | nil =>
    rw [show fresh ([] : List (Layer α)) = [] from rfl, chainRun_nil] at h
    simp only [Except.ok.injEq, Prod.mk.injEq] at h
    obtain ⟨rfl, -⟩ := h
    refine ⟨done, cur, hh.1, ?_, rfl, fun _ => rfl⟩
    rw [List.forall₂_same]
    exact fun s _ => ⟨rfl, rfl⟩
  | cons l ls ih =>
    rw [show fresh (l :: ls) = (l, fun _ => none) :: fresh ls from rfl] at h
    obtain ⟨ys, b', t', h1, h2⟩ := chainRun_cons h
    obtain ⟨a1, -, a3⟩ := layer_via (hl l (by simp)) hfine.2.1 hx h1
    have hv := layer_viaD (hl l (by simp)) (hd l (by simp)) hx h1 i done cur hh
    have hfy := hfine.2.2 ys b' h1
    by_cases hne : ls = []
    · subst hne
      rw [show fresh ([] : List (Layer α)) = [] from rfl, chainRun_nil] at h2
      simp only [Except.ok.injEq, Prod.mk.injEq] at h2
      obtain ⟨rfl, -⟩ := h2
      exact hv
    · have hsy : Schedule ys := by
        refine ⟨fun y hy => ⟨(a1 y hy).1, ?_, (a1 y hy).2⟩, fun i => ?_⟩
        · cases ls with
          | nil => exact absurd rfl hne
          | cons l' ls' => exact hfy.1 y hy
        · obtain ⟨done, cur, hh⟩ := hx.2 i
          obtain ⟨d, c, h', -⟩ := via_history hh (a3 i done cur hh)
          exact ⟨d, c, h'⟩
      obtain ⟨dM, cM, m1, m2, m3, m4⟩ := hv
      have hhM : History (chunksOf i (ys.map unpack)) dM cM := by
        refine ⟨m1, ?_, ?_⟩
        · have hc := hh.2.1
          clear hh m1 m3 m4
          induction m2 with
          | nil => simp
          | cons hab _ ih =>
            intro s hs
            rcases List.mem_cons.1 hs with rfl | hs
            · exact complete_flags hab.2 (hc _ (by simp))
            · exact ih (fun s hs => hc s (by simp [hs])) s hs
        · rcases hh.2.2 with h0 | h0
          · subst h0
            exact .inl (by simpa using m3)
          · exact .inr (open_flags m3 h0)
      obtain ⟨dO, cO, e1, e2, e3, e4⟩ := ih (fun l hl' => hl l (by simp [hl'])) (fun l hl' => hd l (by simp [hl'])) ys hsy hfy t' h2 dM cM hhM
      obtain ⟨dO', cO', e1', e2', -⟩ := via_comp (f := l.offline) (h := offlineChain ls) m2 m3 ⟨dO, cO, e1, e2, e3⟩
      refine ⟨dO, cO, e1, ?_, e3.trans m3, ?_⟩
      · clear e1 e3 e4 m1 m3 m4 e1' e2' hhM hh
        induction m2 generalizing dO with
        | nil => cases e2; exact .nil
        | cons hab _ ih =>
          cases e2 with
          | cons hbc e2 => exact .cons ⟨by rw [hbc.1, hab.1]; rfl, hbc.2.trans hab.2⟩ (ih _ e2)
      · intro hcur
        have hcM : cM ≠ [] := by
          intro h0
          subst h0
          exact hcur (by simpa using m3.symm)
        rw [e4 hcM, m4 hcur]
        rfl

/-! ### Sequences -/

theorem soFar_prefix {l : Layer α} (hl : l.OK) {x y : List α} (h : x <+: y) : l.soFar x <+: l.soFar y := by
  obtain ⟨r, rfl⟩ := h
  cases l with
  | conv c g =>
    simp only [Layer.soFar]
    rw [← List.append_assoc, List.prefix_iff_eq_take]
    exact (conv_prefix c hl g _ _).symm
  | act f => exact ⟨r.map f, by simp [Layer.soFar]⟩

theorem soFar_offline {l : Layer α} (hl : l.OK) (x : List α) : l.soFar x <+: l.offline x := by
  cases l with
  | conv c g =>
    simp only [Layer.soFar, Layer.offline, DS.Conv.offline]
    rw [List.prefix_iff_eq_take]
    exact (conv_prefix c hl g _ _).symm
  | act f => exact List.prefix_refl _

theorem soFarChain_prefix (ls : List (Layer α)) (hl : ∀ l ∈ ls, l.OK) {x y : List α} (h : x <+: y) : soFarChain ls x <+: offlineChain ls y := by
  induction ls generalizing x y with
  | nil => exact h
  | cons l ls ih =>
    exact ih (fun l hl' => hl l (by simp [hl'])) ((soFar_prefix (hl l (by simp)) h).trans (soFar_offline (hl l (by simp)) y))

theorem soFarChain_length (ls : List (Layer α)) (hl : ∀ l ∈ ls, l.OK) (x : List α) : (soFarChain ls x).length = ready ls x.length := by
  induction ls generalizing x with
  | nil => rfl
  | cons l ls ih =>
    show (soFarChain ls (l.soFar x)).length = _
    rw [ih (fun l hl' => hl l (by simp [hl']))]
    cases l with
    | conv c g => simp [ready, Layer.soFar, conv, zeros_length]
    | act f => simp [ready, Layer.soFar]

theorem le_foldr_max (l : List Nat) (n : Nat) (h : ∀ x ∈ l, x ≤ n) : l.foldr max 0 ≤ n := by
  induction l with
  | nil => simp
  | cons a l ih =>
    simp only [List.foldr_cons]
    have := h a (by simp)
    have := ih fun x hx => h x (by simp [hx])
    omega

theorem mem_le_foldr_max (l : List Nat) (x : Nat) (h : x ∈ l) : x ≤ l.foldr max 0 := by
  induction l with
  | nil => simp at h
  | cons a l ih =>
    simp only [List.foldr_cons]
    rcases List.mem_cons.1 h with rfl | h
    · omega
    · have := ih h
      omega

/-- The first `m` entries of `x` are at most `n`, the next ones up to `L` are beyond. -/
def Cut (x : List Nat) (m L n : Nat) : Prop :=
  m ≤ L ∧ L ≤ x.length ∧ (∀ j, j < m → x.getD j 0 ≤ n) ∧ ∀ j, m ≤ j → j < L → n < x.getD j 0

theorem cut_conv {c : Cfg} (hv : c.Valid) {x : List Nat} {m L n : Nat} (h : Cut x m L n) :
    Cut (offline c (fun ws => ws.foldr max 0) x) (fits c (c.padding + m)).length (fits c (c.padding + L)).length n := by
  obtain ⟨h1, h2, h3, h4⟩ := h
  simp only [fits_eq c hv, List.length_range]
  have hlen : (zeros c.padding ++ x ++ zeros c.padding : List Nat).length = c.padding + x.length + c.padding := by
    simp only [List.length_append, zeros_length]
  have hget : ∀ j, (zeros c.padding ++ x ++ zeros c.padding : List Nat).getD j 0 = if j < c.padding then 0 else x.getD (j - c.padding) 0 := by
    intro j
    by_cases hj : j < c.padding
    · rw [if_pos hj, List.append_assoc, getD_append_left' _ _ _ (by rwa [zeros_length])]
      simp only [List.getD_eq_getElem?_getD, zeros, List.getElem?_replicate, if_pos hj]
      rfl
    · rw [if_neg hj]
      simp only [List.getD_eq_getElem?_getD, zeros]
      rw [List.append_assoc, List.getElem?_append_right (by simp; omega), List.length_replicate, List.getElem?_append]
      split
      · rfl
      · rw [List.getElem?_eq_none (by omega : x.length ≤ j - c.padding), List.getElem?_replicate]
        split <;> rfl
  have hmono1 := nOut_mono c hv (show c.padding + m ≤ c.padding + L by omega)
  have hmono2 := nOut_mono c hv (show c.padding + L ≤ c.padding + x.length + c.padding by omega)
  have hval : ∀ j, j < nOut c (c.padding + x.length + c.padding) → (offline c (fun ws => ws.foldr max 0) x).getD j 0 =
      ((List.range c.ks).map fun i => (zeros c.padding ++ x ++ zeros c.padding : List Nat).getD (j * c.stride + i * c.dil) 0).foldr max 0 := by
    intro j hj
    unfold offline
    rw [conv_eq c hv, hlen, List.getD_eq_getElem?_getD, List.getElem?_map, List.getElem?_range hj]
    rfl
  have hkw : (c.ks - 1) * c.dil + 1 = c.kw := span_eq c hv
  refine ⟨hmono1, ?_, ?_, ?_⟩
  · unfold offline
    rw [conv_length c hv, hlen]
    exact hmono2
  · intro j hj
    rw [hval j (by omega)]
    apply le_foldr_max
    intro v hmem
    obtain ⟨i, hi, rfl⟩ := List.mem_map.1 hmem
    have hi := List.mem_range.1 hi
    have hj := (lt_nOut c hv _ _).1 hj
    have hd : i * c.dil ≤ (c.ks - 1) * c.dil := Nat.mul_le_mul_right _ (by omega)
    rw [hget]
    split
    · omega
    · exact h3 _ (by omega)
  · intro j hj hjL
    rw [hval j (by omega)]
    have hks : 0 < c.ks := hv.1
    have hjL := (lt_nOut c hv _ _).1 hjL
    have hjm : ¬ (j * c.stride + c.kw ≤ c.padding + m) := fun h0 => by
      have := (lt_nOut c hv _ _).2 h0
      omega
    refine Nat.lt_of_lt_of_le ?_ (mem_le_foldr_max _ _ (List.mem_map.2 ⟨c.ks - 1, List.mem_range.2 (by omega), rfl⟩))
    rw [hget, if_neg (by omega)]
    exact h4 _ (by omega) (by omega)

theorem cut_chain (ls : List (Layer α)) (hl : ∀ l ∈ ls, l.OK) {x : List Nat} {m L n : Nat} (h : Cut x m L n) :
    Cut (offlineChain (reach ls) x) (ready ls m) (ready ls L) n := by
  induction ls generalizing x m L with
  | nil => exact h
  | cons l ls ih =>
    cases l with
    | conv c g => exact ih (fun l hl' => hl l (by simp [hl'])) (cut_conv (hl (.conv c g) (by simp)) h)
    | act f =>
      refine ih (fun l hl' => hl l (by simp [hl'])) ?_
      show Cut (x.map id) m L n
      rwa [List.map_id]

/-! ### C202 -/

/-- C202 for strides up to the kernel widths and schedules in which no layer gets an empty first or last chunk next to other rows. `n` frames of the running sequence of stream `i` have come in (after any number of
complete sequences). What came out for it is: `ready ls n` outputs, the first ones that the stack computes offline for the sequence, however it goes on. Missing: batches in which some layer gets an empty first or last
chunk next to other rows (`C202_latency_false`), strides beyond the kernel width (C52). -/
theorem C202_latency_partial (ls : List (Layer α)) (hl : ∀ l ∈ ls, l.OK) (hd : ∀ l ∈ ls, l.Dense) (xs : List (ST α)) (hx : Schedule xs) (hfine : Fine ls xs)
    (zs : List (ST α)) (t : List (Layer α × Buf α)) (h : chainRun (fresh ls) xs = .ok (zs, t))
    (i : String) (done : List (List (Chunk α))) (cur : List (Chunk α)) (hh : History (chunksOf i (xs.map unpack)) done cur) (hcur : cur ≠ []) :
    ∃ out : List α, collected i zs = (done.flatMap fun s => offlineChain ls (allFrames s)) ++ out ∧ out.length = ready ls (allFrames cur).length ∧
      ∀ rest : List α, out <+: offlineChain ls (allFrames cur ++ rest) := by
  obtain ⟨dO, cO, e1, e2, e3, e4⟩ := chain_viaD ls hl hd xs hx hfine zs t h i done cur hh
  refine ⟨soFarChain ls (allFrames cur), ?_, soFarChain_length ls hl _, fun rest => soFarChain_prefix ls hl (List.prefix_append _ _)⟩
  unfold collected
  rw [e1, ← e4 hcur]
  have : allFrames dO.flatten = done.flatMap fun s => offlineChain ls (allFrames s) := by
    clear e1 e3 e4 hh
    induction e2 with
    | nil => rfl
    | cons hab _ ih =>
      simp only [List.flatten_cons, List.flatMap_cons, ← hab.1, ← ih]
      simp [allFrames]
  rw [← this]
  simp [allFrames]

/-- C202: no stack with these kernel sizes, dilations, strides and paddings can do better. Number the frames of a sequence of `N` frames 1, ..., `N`. Of the outputs that are ready after `N` frames, those that are ready after
`n ≤ N` frames depend on no frame after number `n`, and all others depend on a later one. Missing: nothing about the code; this says what `ready` in `C202_latency_partial` means. -/
theorem C202_earliest_partial (ls : List (Layer α)) (hl : ∀ l ∈ ls, l.OK) (n N : Nat) (hn : n ≤ N) :
    ∃ last : Nat → Nat, (∀ j, j < ready ls N → (offlineChain (reach ls) ((List.range N).map (· + 1)))[j]? = some (last j)) ∧
      ∀ j, j < ready ls N → (j < ready ls n ↔ last j ≤ n) := by
  have h0 : Cut ((List.range N).map (· + 1)) n N n := by
    refine ⟨hn, by simp, ?_, ?_⟩
    · intro j hj
      rw [List.getD_eq_getElem?_getD, List.getElem?_map, List.getElem?_range (by omega)]
      exact hj
    · intro j hj hjN
      rw [List.getD_eq_getElem?_getD, List.getElem?_map, List.getElem?_range hjN]
      exact Nat.lt_succ_of_le hj
  obtain ⟨h1, h2, h3, h4⟩ := cut_chain ls hl h0
  refine ⟨fun j => (offlineChain (reach ls) ((List.range N).map (· + 1))).getD j 0, ?_, ?_⟩
  · intro j hj
    show _ = some (List.getD _ j 0)
    rw [List.getD_eq_getElem?_getD, List.getElem?_eq_getElem (by omega)]
    rfl
  · intro j hj
    show _ ↔ List.getD _ j 0 ≤ n
    constructor
    · exact h3 j
    · intro hle
      by_contra hc
      have := h4 j (by omega) hj
      omega

/-- Stream `a` in turn with `b`; `a` goes on. -/
def exLate : List (ST Int) :=
  [ { md := ⟨["a"], [true], [false], [3], none⟩, width := 3, rows := [[1, 2, 3]] },
    { md := ⟨["b"], [true], [false], [2], none⟩, width := 2, rows := [[5, 6]] },
    { md := ⟨["a"], [false], [false], [1], none⟩, width := 1, rows := [[4]] } ]

example : (∀ x ∈ exLate, (unpack x).length = 1) ∧ Open (chunksOf "a" (exLate.map unpack)) ∧ Open (chunksOf "b" (exLate.map unpack)) ∧ ready exLayers 4 = 3 ∧ ready exLayers 2 = 1 ∧
    ((chainRun (fresh exLayers) exLate).map fun r => (collected "a" r.1, collected "b" r.1)) =
      .ok ((offlineChain exLayers [1, 2, 3, 4, 9, 9]).take 3, (offlineChain exLayers [5, 6, 7]).take 1) ∧
    offlineChain (reach exLayers) [1, 2, 3, 4] = [2, 3, 4, 4] := by decide

/-- `C62_chain_false`'s schedule, but `b` does not end. -/
def exShortOpen : List (ST Int) :=
  [ { md := ⟨["a"], [true], [false], [3], none⟩, width := 3, rows := [[1, 2, 3]] },
    { md := ⟨["a", "b"], [false, true], [true, false], [3, 1], none⟩, width := 3, rows := [[4, 5, 6], [7, 0, 0]] },
    { md := ⟨["b"], [false], [false], [2], none⟩, width := 2, rows := [[8, 9]] } ]

/-- **C202 is false of the code.** `b` starts with one frame next to a longer chunk of `a`; the second layer loses its start padding (see `C62_chain_false`). After three frames of `b` two outputs are ready, but
only one comes out, and it is not the first one. -/
theorem C202_latency_false :
    Schedule exShortOpen ∧ Open (chunksOf "b" (exShortOpen.map unpack)) ∧ collected "b" exShortOpen = [7, 8, 9] ∧
    ready [.conv ⟨2, 1, 1, 0⟩ exG, .conv ⟨2, 1, 1, 1⟩ exG] 3 = 2 ∧
    ((chainRun (fresh [.conv ⟨2, 1, 1, 0⟩ exG, .conv ⟨2, 1, 1, 1⟩ exG]) exShortOpen).map fun r => collected "b" r.1) = .ok [78 * 10 + 89] ∧
    (offlineChain [.conv ⟨2, 1, 1, 0⟩ exG, .conv ⟨2, 1, 1, 1⟩ exG] [7, 8, 9]).head? = some 78 := by
  refine ⟨⟨by decide, ?_⟩, by decide⟩
  intro i
  by_cases ha : i = "a"
  · subst ha
    exact ⟨[[⟨"a", true, false, none, [1, 2, 3]⟩, ⟨"a", false, true, none, [4, 5, 6]⟩]], [], by decide⟩
  · by_cases hb : i = "b"
    · subst hb
      exact ⟨[], [⟨"b", true, false, none, [7]⟩, ⟨"b", false, false, none, [8, 9]⟩], by decide⟩
    · refine ⟨[], [], ?_⟩
      have : chunksOf i (exShortOpen.map unpack) = [] := by
        unfold chunksOf
        rw [List.filter_eq_nil_iff]
        intro x hx
        have : ∀ x ∈ (exShortOpen.map unpack).flatten, x.id = "a" ∨ x.id = "b" := by decide
        rcases this x hx with h | h <;> simp [h, Ne.symm ha, Ne.symm hb]
      rw [this]
      exact ⟨rfl, by simp, .inl rfl⟩

end
end DS.Conv
