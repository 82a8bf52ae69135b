import Verif.Props.ConvMem
import Verif.Props.ConvAny
import Verif.Model.Residual
/-! # C159: residual connections -/

namespace DS.Conv
open Meta
section
variable {α : Type} [Zero α]

/-- A convolution whose output is as long as its input: stride 1 and padding of half the kernel, more than one frame wide. -/
def Cfg.Same (c : Cfg) : Prop := c.Valid ∧ c.stride = 1 ∧ 1 ≤ c.padding ∧ span c = 2 * c.padding + 1

theorem nOut_same {c : Cfg} (h : c.Same) (n : Nat) : nOut c n = n - 2 * c.padding := by
  obtain ⟨hv, hs, hp, hk⟩ := h
  rw [span_eq c hv] at hk
  unfold nOut
  rw [hk, hs]
  split <;> omega

theorem eqMeta_lengths {a b : Meta} (ha : a.chunk = none) (h : eqMeta a b = .ok true) : a.lengths = b.lengths := by
  unfold eqMeta at h
  split at h
  · rename_i h1; exact h1.2.2.2.1
  · rw [ha] at h; cases h

/-- The rows of the sum where both operands are valid. -/
theorem addST_ok {f : α → α → α} {y x z : ST α} (h : addST f y x = .ok z) :
    z.md = y.md ∧ eqMeta x.md y.md = .ok true ∧ ∀ (k : Nat) (r s : List α) (l : Nat), y.rows[k]? = some r → x.rows[k]? = some s → l ≤ y.width → l ≤ x.width →
      l ≤ r.length → l ≤ s.length → ∃ t, z.rows[k]? = some t ∧ t.take l = List.zipWith f (r.take l) (s.take l) := by
  unfold addST at h
  split at h
  · rename_i hw
    obtain ⟨same, h1, h2⟩ := bind_ok_iff h
    split at h2
    · rename_i hs
      subst hs
      simp only [Except.ok.injEq] at h2
      subst h2
      refine ⟨rfl, h1, ?_⟩
      intro k r s l hr hs hly hlx hlr hls
      refine ⟨_, by rw [List.getElem?_zipWith, hr, hs], ?_⟩
      apply List.ext_getElem?
      intro j
      by_cases hj : j < l
      · rw [List.getElem?_take_of_lt hj, List.getElem?_zipWith, List.getElem?_take_of_lt hj, List.getElem?_take_of_lt hj, List.getElem?_map,
          List.getElem?_range (by split <;> omega)]
        have e1 : (if y.width = 1 then 0 else j) = j := by split <;> omega
        have e2 : (if x.width = 1 then 0 else j) = j := by split <;> omega
        rw [Option.map_some, e1, e2, List.getElem?_eq_getElem (by omega), List.getElem?_eq_getElem (by omega), List.getD_eq_getElem?_getD,
          List.getD_eq_getElem?_getD, List.getElem?_eq_getElem (by omega), List.getElem?_eq_getElem (by omega)]
        rfl
      · rw [List.getElem?_eq_none (by simp; omega), List.getElem?_eq_none (by simp; omega)]
    · cases h2
  · cases h

theorem rows_kept (c : Cfg) (hk : c.kw > 1) (x : ST α) : forwardRowsAfter c x = x.rows := by
  unfold forwardRowsAfter
  split
  · rfl
  · rename_i h
    apply rowsAfter_eq
    right; left
    have : x.md.allStarting = true := by
      cases hs : x.md.allStarting with
      | true => rfl
      | false => exact absurd ⟨hk, hs⟩ h
    simpa [allStarting] using this

/-- One accepted call: its last chunks carry whole sequences, and their results are right. -/
theorem res_step {c : Cfg} (hc : c.Same) {g : List α → α} {f : α → α → α} {hist : List (List (Chunk α))} {outs : List (List (Chunk α))} {buf : Buf α}
    (hinv : InvG c g hist outs buf) {x : ST α} (hwp : WellPacked x) (hb : BatchOK (unpack x)) (ht : Tight x.width (unpack x)) (hch : x.md.chunk = none)
    (hproto : ∀ i, ∃ done cur, History (chunksOf i (hist ++ [unpack x])) done cur) {z : ST α} {b' : Buf α} (h : resStep c g f buf x = .ok (z, b')) :
    ∃ o, forward c g buf x = .ok o ∧ o.buf = b' ∧ ∀ (k : Nat) (u : Chunk α), (unpack x)[k]? = some u → u.eos = true →
      (∀ done cur, History (chunksOf u.id hist) done cur → (u.sos = true ↔ cur = []) → allFrames cur = []) ∧
      ∃ v, (unpack z)[k]? = some v ∧ v.id = u.id ∧ v.frames = List.zipWith f (offline c g u.frames) u.frames := by
  obtain ⟨hv, hs, hp, hk⟩ := id hc
  rw [span_eq c hv] at hk
  unfold resStep at h
  obtain ⟨o, ho, h⟩ := bind_ok_iff h
  obtain ⟨z', hz, h⟩ := bind_ok_iff h
  simp only [Except.ok.injEq, Prod.mk.injEq] at h
  obtain ⟨rfl, hob⟩ := h
  refine ⟨o, ho, hob, ?_⟩
  have hpre := inv_preOK hinv hb hwp.2.2.2.1 hproto
  generalize hcs : unpack x = cs at *
  have hwp' : Packs x x.width cs := by have := hwp; unfold WellPacked at this; rwa [hcs] at this
  have hxpk := packs_pk hwp'
  rw [hch] at hxpk
  simp only [Option.isSome_none] at hxpk
  have hwidth : WidthOK c x.width cs := .inr (.inr (.inr ht.reaches))
  obtain ⟨w', h1, h2, h3⟩ := forward_pk c hv g buf false x.width cs hb.1 hpre hwidth
  rw [hxpk] at ho
  rw [h3] at ho
  split at ho
  · cases ho
  split at ho
  · cases ho
  simp only [Except.ok.injEq] at ho
  obtain ⟨hm, heq, hrow⟩ := addST_ok hz
  have hoy : o.y = pk false (nOut c w') (cs.map fun x => x.set false (conv c g (inp c buf x))) := by rw [← ho]; rfl
  have hcaller : allSos cs = false → o.caller = x.md := by
    intro hS
    rw [← ho]
    simp only [hS, show decide (c.kw > 1) = true by simp; omega]
    conv_rhs => rw [hxpk]
    rfl
  intro k u hu he
  have hum : u ∈ cs := List.mem_of_getElem? hu
  have hmain : (∀ done cur, History (chunksOf u.id hist) done cur → (u.sos = true ↔ cur = []) → allFrames cur = []) ∧ conv c g (inp c buf u) = offline c g u.frames := by
    cases hus : u.sos with
    | true =>
      refine ⟨?_, ?_⟩
      · intro done cur _ hcur
        rw [hcur.1 rfl]; rfl
      · unfold inp offline; rw [hus, he]; rfl
    | false =>
      have hS : allSos cs = false := by
        unfold allSos
        rw [List.all_eq_false]
        exact ⟨u, hum, by simp [hus]⟩
      have hl : x.md.lengths = o.y.md.lengths := by
        rw [← hcaller hS]
        exact eqMeta_lengths (by rw [hcaller hS]; exact hch) heq
      rw [hoy, hxpk, pk_lengths, pk_lengths, List.map_map] at hl
      have hl' := congrArg (·[k]?) hl
      simp only [List.getElem?_map, hu, Option.map_some, Function.comp_apply, Option.some.injEq, Chunk.set] at hl'
      rw [conv_length c hv, nOut_same hc, inp_length, hus, he] at hl'
      simp only [Bool.false_eq_true, if_false, if_true] at hl'
      have hbuf : ∀ done cur, History (chunksOf u.id hist) done cur → (u.sos = true ↔ cur = []) → allFrames cur = [] ∧ (buf u.id).getD [] = zeros c.padding := by
        intro done cur hh hcur
        have hne : cur ≠ [] := fun h => by rw [hcur.2 h] at hus; cases hus
        have hop := (hinv.opened u.id done cur hh hne).1
        rw [heldAfter_clear c hv _ (by simpa using hne) _ (fun p q _ _ _ => no_gap c hv (by omega) _), flatten_frames] at hop
        have hlen := congrArg List.length hop
        unfold left at hlen
        rw [List.length_drop, nOut_same hc, hs, List.length_append, zeros_length] at hlen
        have h0 : allFrames cur = [] := by
          rw [← List.length_eq_zero_iff]
          omega
        refine ⟨h0, ?_⟩
        rw [hop, h0, List.append_nil]
        unfold left
        rw [nOut_same hc, zeros_length, show c.padding - 2 * c.padding = 0 by omega]
        simp
      refine ⟨fun done cur hh hcur => (hbuf done cur hh (by rw [hus]; exact hcur)).1, ?_⟩
      obtain ⟨d, cu, hh⟩ := hproto u.id
      rw [chunksOf_append, chunksOf_single_mem cs hb.2.1 u hum] at hh
      obtain ⟨d', cu', hh', hsos, -⟩ := history_concat hh
      unfold inp offline
      rw [hus, he, (hbuf d' cu' hh' hsos).2]
      rfl
  refine ⟨hmain.1, ?_⟩
  have hlen : (conv c g (inp c buf u)).length = u.frames.length := by
    rw [hmain.2]; unfold offline
    rw [conv_length c hv, nOut_same hc]
    simp only [List.length_append, zeros_length]; omega
  have hy : o.y.rows[k]? = some (conv c g (inp c buf u) ++ zeros (nOut c w' - (conv c g (inp c buf u)).length)) := by
    rw [hoy]
    simp only [pk, List.getElem?_map, hu, Option.map_some, Chunk.set]
  have hx : (forwardRowsAfter c x)[k]? = some (u.frames ++ zeros (x.width - u.frames.length)) := by
    rw [rows_kept c (by omega), hwp'.2.2.2.2]
    simp only [List.getElem?_map, hu, Option.map_some]
  obtain ⟨t, ht1, ht2⟩ := hrow k _ _ u.frames.length hy hx (by
      rw [← hlen, hoy]
      show _ ≤ nOut c w'
      rw [conv_length c hv]
      exact nOut_mono c hv (h1 u hum)) (hwp'.2.2.2.1 u hum) (by rw [List.length_append, hlen]; omega) (by rw [List.length_append]; omega)
  have hrows : o.y.md.rows = cs.map fun x => (x.set false (conv c g (inp c buf x))).row := by
    rw [hoy]
    have := ofRows_rows false ((cs.map fun x => x.set false (conv c g (inp c buf x))).map Chunk.row) (by
      intro r hr
      simp only [List.map_map, List.mem_map] at hr
      obtain ⟨w, -, rfl⟩ := hr
      rfl)
    rw [List.map_map] at this
    unfold pk
    dsimp only
    rw [List.map_map]
    exact this
  refine ⟨⟨u.id, u.sos, u.eos, none, t.take u.frames.length⟩, ?_, rfl, ?_⟩
  · unfold unpack
    rw [List.getElem?_zipWith, hm, hrows, List.getElem?_map, hu, ht1]
    simp only [Option.map_some, Chunk.row, Chunk.set, hlen]
    simp
  · show t.take u.frames.length = _
    rw [ht2, ← hlen, List.take_left' rfl, hlen, List.take_left' rfl, hmain.2]

theorem res_run {c : Cfg} (hc : c.Same) {g : List α → α} {f : α → α → α} (xs : List (ST α)) :
    ∀ {hist : List (List (Chunk α))} {outs : List (List (Chunk α))} {buf : Buf α} (_ : InvG c g hist outs buf)
    (_ : ∀ x ∈ xs, WellPacked x ∧ BatchOK (unpack x) ∧ Tight x.width (unpack x)) (_ : ∀ x ∈ xs, x.md.chunk = none)
    (_ : ∀ i, ∃ done cur, History (chunksOf i (hist ++ xs.map unpack)) done cur)
    (_ : ∀ i done cur, History (chunksOf i hist) done cur → ∀ s ∈ done, ∀ y ∈ s.dropLast, y.frames = [])
    {zs : List (ST α)} {buf' : Buf α} (_ : resRun c g f buf xs = .ok (zs, buf')),
    (∀ i done cur, History (chunksOf i (hist ++ xs.map unpack)) done cur → ∀ s ∈ done, ∀ y ∈ s.dropLast, y.frames = []) ∧
      List.Forall₂ (fun x z => ∀ (k : Nat) (u : Chunk α), (unpack x)[k]? = some u → u.eos = true →
        ∃ v, (unpack z)[k]? = some v ∧ v.id = u.id ∧ v.frames = List.zipWith f (offline c g u.frames) u.frames) xs zs := by
  induction xs with
  | nil =>
    intro hist outs buf _ _ _ _ hall zs buf' hrun
    simp only [resRun, Except.ok.injEq, Prod.mk.injEq] at hrun
    obtain ⟨rfl, rfl⟩ := hrun
    simp only [List.map_nil, List.append_nil]
    exact ⟨hall, .nil⟩
  | cons x xs ih =>
    intro hist outs buf hinv hx hch hproto hall zs buf' hrun
    simp only [resRun] at hrun
    obtain ⟨⟨z, b⟩, h1, hrun⟩ := bind_ok_iff hrun
    obtain ⟨⟨zs', b'⟩, h2, hrun⟩ := bind_ok_iff hrun
    simp only [Except.ok.injEq, Prod.mk.injEq] at hrun
    obtain ⟨rfl, rfl⟩ := hrun
    obtain ⟨hw, hb, ht⟩ := hx x (by simp)
    have hproto1 : ∀ i, ∃ done cur, History (chunksOf i (hist ++ [unpack x])) done cur := by
      intro i
      obtain ⟨d, cu, h⟩ := hproto i
      rw [List.map_cons, List.append_cons, chunksOf_append] at h
      exact history_prefix _ _ ⟨d, cu, h⟩
    obtain ⟨o, ho, rfl, hlast⟩ := res_step hc hinv hw hb ht (hch x (by simp)) hproto1 h1
    obtain ⟨w', outc, -, -, -, hinv'⟩ := inv_step hc.1 hinv hw hb (.inr (.inr (.inr ht.reaches))) hproto1 ho
    have := ih hinv' (fun y hy => hx y (by simp [hy])) (fun y hy => hch y (by simp [hy])) (by
        simpa only [List.map_cons, List.append_assoc, List.singleton_append] using hproto) (by
        intro i done cur hh s hs y hy
        by_cases hi : ∃ u ∈ unpack x, u.id = i
        · obtain ⟨u, hu, rfl⟩ := hi
          rw [chunksOf_append, chunksOf_single_mem _ hb.2.1 u hu] at hh
          obtain ⟨d', cu', hh', hsos, h | h⟩ := history_concat hh
          · obtain ⟨he, rfl, rfl⟩ := h
            rcases List.mem_append.1 hs with hs | hs
            · exact hall _ _ _ hh' s hs y hy
            · rw [List.mem_singleton.1 hs, List.dropLast_concat] at hy
              obtain ⟨k, hk⟩ := List.mem_iff_getElem?.1 hu
              have := (hlast k u hk he).1 d' cu' hh' hsos
              rw [allFrames, List.flatMap_eq_nil_iff] at this
              exact this y hy
          · obtain ⟨-, rfl, -⟩ := h
            exact hall _ _ _ hh' s hs y hy
        · rw [chunksOf_append, chunksOf_single_not _ i (fun u hu h => hi ⟨u, hu, h⟩), List.append_nil] at hh
          exact hall i done cur hh s hs y hy) h2
    simp only [List.append_assoc, List.singleton_append] at this
    rw [List.map_cons]
    exact ⟨this.1, .cons (fun k u hu he => (hlast k u hu he).2) this.2⟩

/-- **C159, the part that holds.** A residual block around a convolution that keeps the length (stride 1, padding of half the kernel), without chunk indices. (1) If a schedule of calls is
accepted, then every sequence that has ended came with all its frames in its last chunk, and (2) the block gives for that chunk what it gives offline. (3) A batch of whole sequences is accepted,
whatever is buffered. So the block accepts sequences that are not cut into pieces, and no others.
Missing: sequences in several chunks: either some call raises, or the schedule never gets to the end of the sequence. -/
theorem C159_residual_partial (c : Cfg) (hc : c.Same) (g : List α → α) (f : α → α → α) :
    (∀ (xs : List (ST α)), Schedule xs → (∀ x ∈ xs, x.md.chunk = none) → ∀ zs buf, resRun c g f (fun _ => none) xs = .ok (zs, buf) →
      (∀ i done cur, History (chunksOf i (xs.map unpack)) done cur → ∀ s ∈ done, ∀ y ∈ s.dropLast, y.frames = []) ∧
      List.Forall₂ (fun x z => ∀ (k : Nat) (u : Chunk α), (unpack x)[k]? = some u → u.eos = true →
        ∃ v, (unpack z)[k]? = some v ∧ v.id = u.id ∧ v.frames = List.zipWith f (offline c g u.frames) u.frames) xs zs) ∧
    (∀ (buf : Buf α) (x : ST α), WellPacked x → BatchOK (unpack x) → Tight x.width (unpack x) → x.md.chunk = none → 1 ≤ x.width →
      (∀ u ∈ unpack x, u.sos = true ∧ u.eos = true) → ∃ z b', resStep c g f buf x = .ok (z, b')) := by
  refine ⟨?_, ?_⟩
  · intro xs hs hch zs buf hrun
    have := res_run hc xs (inv_init c g) hs.1 hch (by simpa using hs.2) (by
      intro i done cur hh s hs
      have h1 := hh.1
      have : chunksOf i ([] : List (List (Chunk α))) = [] := rfl
      rw [this] at h1
      have h2 := (List.append_eq_nil_iff.1 h1.symm).1
      rw [List.flatten_eq_nil_iff] at h2
      exact absurd (h2 s hs) (hh.2.1 s hs).1) hrun
    simpa using this
  · intro buf x hx hb ht hch hw hall
    obtain ⟨hv, hs, hp, hk⟩ := id hc
    rw [span_eq c hv] at hk
    have hxpk := packs_pk hx
    rw [hch] at hxpk
    simp only [Option.isSome_none] at hxpk
    obtain ⟨w', h1, h2, h3⟩ := forward_any c hv g buf false x.width (unpack x) hb.1 hx.2.2.2.1 (.inr (.inr (.inr ht.reaches)))
    have hS : allSos (unpack x) = true := by
      unfold allSos
      rw [List.all_eq_true]
      exact fun u hu => (hall u hu).1
    have hM : ¬ Mixes c (unpack x) := fun h => by
      obtain ⟨-, u, hu, h⟩ := h
      rw [(hall u hu).1] at h; cases h
    have hin : ∀ u ∈ unpack x, (input c buf (unpack x) u).length = u.frames.length + 2 * c.padding := by
      intro u hu
      unfold input heard
      simp only [hM, false_and, if_false, (hall u hu).1, (hall u hu).2, if_true, List.length_append, zeros_length, List.length_nil]
      omega
    have hw' : w' = x.width + 2 * c.padding := by
      obtain ⟨u, hu, hl⟩ := h2 ht
      obtain ⟨u', hu', hl'⟩ := ht
      have a1 := h1 u' hu'
      rw [hin u' hu', hl'] at a1
      rw [hin u hu] at hl
      have := hx.2.2.2.1 u hu
      omega
    rw [← hxpk] at h3
    have hst : stacked c buf (unpack x) = false := by simp [stacked, hS]
    simp only [hst, hS, Bool.false_and, Bool.false_eq_true, if_false, Bool.not_true, Bool.and_false, Bool.not_false, if_true] at h3
    rw [if_neg (by omega)] at h3
    unfold resStep
    rw [h3]
    simp only [Except.bind_ok']
    unfold addST
    rw [if_pos (.inl (by
      show nOut c w' = x.width
      rw [nOut_same hc]; omega))]
    dsimp only
    have heq : ∀ m : Meta, m.chunk = none → eqMeta m m = .ok true := fun m hm => by
      unfold eqMeta
      rw [if_pos ⟨rfl, rfl, rfl, rfl, hm, hm⟩]
    rw [heq _ rfl]
    exact ⟨_, _, rfl⟩

/-- **C159 for convolutions of one frame** (kernel size 1, stride 1, no padding). Every call on a batch of chunks without chunk indices and with at least one frame is accepted, whatever is buffered,
and gives for each chunk what the block gives offline for its frames.
Missing: wider kernels, for which sequences in several chunks fail (`C159_residual_false`, `C159_residual_partial`). -/
theorem C159_pointwise_partial (c : Cfg) (hv : c.Valid) (hc : c.Pointwise) (g : List α → α) (f : α → α → α) (buf : Buf α) (x : ST α) (hx : WellPacked x) (hb : BatchOK (unpack x))
    (ht : Tight x.width (unpack x)) (hch : x.md.chunk = none) (hw : 1 ≤ x.width) :
    ∃ z b', resStep c g f buf x = .ok (z, b') ∧ ∀ (k : Nat) (u : Chunk α), (unpack x)[k]? = some u →
      (unpack z)[k]? = some ⟨u.id, u.sos, u.eos, none, List.zipWith f (offline c g u.frames) u.frames⟩ := by
  obtain ⟨hc1, hc2, hc3⟩ := id hc
  have hkw : c.kw = 1 := by simp [Cfg.kw, hc1]
  have hxpk := packs_pk hx
  rw [hch] at hxpk
  simp only [Option.isSome_none] at hxpk
  obtain ⟨w', h1, h2, h3⟩ := forward_any c hv g buf false x.width (unpack x) hb.1 hx.2.2.2.1 (.inr (.inr (.inr ht.reaches)))
  have hM : ¬ Mixes c (unpack x) := fun h => by
    have := h.1
    rw [span_eq c hv] at this
    omega
  have hn : ∀ n, nOut c n = n := by
    intro n
    unfold nOut
    rw [hkw, hc2]
    split <;> omega
  have hhe : ∀ u, heard c buf (unpack x) u = u := by
    intro u
    unfold heard
    simp only [hM, false_and, if_false]
  have hin : ∀ u, input c buf (unpack x) u = u.frames := by
    intro u
    unfold input
    rw [hhe, hc3]
    simp [hM, zeros]
  have hoff : ∀ l : List α, offline c g l = conv c g l := by
    intro l
    unfold offline
    rw [hc3]
    simp [zeros]
  have hw' : w' = x.width := by
    obtain ⟨u, hu, hl⟩ := h2 ht
    obtain ⟨u', hu', hl'⟩ := ht
    have a1 := h1 u' hu'
    rw [hin u', hl'] at a1
    rw [hin u] at hl
    have := hx.2.2.2.1 u hu
    omega
  subst hw'
  rw [← hxpk] at h3
  have hst : stacked c buf (unpack x) = false := by simp [stacked, hkw]
  simp only [hst, hkw, Bool.false_and, Bool.false_eq_true, if_false, hhe, hin, hn, gt_iff_lt, Nat.lt_irrefl, decide_false, Bool.not_false, if_true] at h3
  rw [if_neg (by omega)] at h3
  have hlen : ∀ u : Chunk α, (conv c g u.frames).length = u.frames.length := fun u => by rw [conv_length c hv, hn]
  cases hr : resStep c g f buf x with
  | error e =>
    exfalso
    unfold resStep at hr
    rw [h3] at hr
    simp only [Except.bind_ok'] at hr
    unfold addST at hr
    rw [if_pos (.inl rfl)] at hr
    dsimp only at hr
    unfold eqMeta at hr
    rw [if_pos ⟨rfl, rfl, rfl, rfl, rfl, rfl⟩] at hr
    cases hr
  | ok r =>
    obtain ⟨z, b'⟩ := r
    refine ⟨z, b', rfl, ?_⟩
    unfold resStep at hr
    rw [h3] at hr
    simp only [Except.bind_ok'] at hr
    obtain ⟨z', hz, hr⟩ := bind_ok_iff hr
    simp only [Except.ok.injEq, Prod.mk.injEq] at hr
    obtain ⟨rfl, -⟩ := hr
    obtain ⟨hm, -, hrow⟩ := addST_ok hz
    intro k u hu
    have hum : u ∈ unpack x := List.mem_of_getElem? hu
    obtain ⟨t, ht1, ht2⟩ := hrow k (conv c g u.frames ++ zeros (x.width - (conv c g u.frames).length)) (u.frames ++ zeros (x.width - u.frames.length)) u.frames.length (by
        simp only [pk, List.getElem?_map, hu, Option.map_some, Chunk.set]) (by
        rw [((C103_frames_partial c x).2 (.inl hc3)).2, hx.2.2.2.2]
        simp only [List.getElem?_map, hu, Option.map_some]) (hx.2.2.2.1 u hum) (hx.2.2.2.1 u hum) (by rw [List.length_append, hlen]; omega) (by rw [List.length_append]; omega)
    have hrows : z'.md.rows = (unpack x).map fun x => (x.set false (conv c g x.frames)).row := by
      rw [hm]
      have := ofRows_rows false (((unpack x).map fun x => x.set false (conv c g x.frames)).map Chunk.row) (by
        intro r hr
        simp only [List.map_map, List.mem_map] at hr
        obtain ⟨w, -, rfl⟩ := hr
        rfl)
      rw [List.map_map] at this
      unfold pk
      dsimp only
      rw [List.map_map]
      exact this
    rw [hoff]
    conv_lhs => unfold unpack
    rw [List.getElem?_zipWith, hrows, List.getElem?_map, hu, ht1]
    simp only [Option.map_some, Chunk.row, Chunk.set, hlen, Int.toNat_natCast, ht2]
    rw [← hlen u, List.take_left' rfl, hlen u, List.take_left' rfl]
    simp

example : Cfg.Pointwise ⟨1, 1, 1, 0⟩ ∧
    ((resRun ⟨1, 1, 1, 0⟩ (fun w : List Int => 10 * w.foldl (· + ·) 0) (· + ·) (fun _ => none)
      [ { md := ⟨["a", "b"], [true, false], [false, true], [3, 2], none⟩, width := 3, rows := [[1, 2, 3], [4, 5, 0]] },
        { md := ⟨["a"], [false], [true], [1], none⟩, width := 1, rows := [[4]] } ]).map
        fun r => r.1.map fun z => (z.md.lengths, z.rows)) = .ok [([3, 2], [[11, 22, 33], [44, 55, 0]]), ([1], [[44]])] := by
  refine ⟨⟨rfl, rfl, rfl⟩, by decide⟩

/-! The block with a kernel of three frames and one frame of padding, the kernel being the sum. -/

/-- `[1, 2, 3, 4, 5]` as `[1, 2]`, `[3, 4]`, `[5]`. -/
def exRes : List (ST Int) :=
  [ { md := ⟨["a"], [true], [false], [2], none⟩, width := 2, rows := [[1, 2]] },
    { md := ⟨["a"], [false], [false], [2], none⟩, width := 2, rows := [[3, 4]] },
    { md := ⟨["a"], [false], [true], [1], none⟩, width := 1, rows := [[5]] } ]

/-- **C159 is false of the code.** Offline the block gives `[4, 8, 12, 16, 14]` for `[1, 2, 3, 4, 5]`. Streamed as `[1, 2, 3]` first it raises RuntimeError, the widths being 2 and 3. Streamed as
`[1, 2]`, `[3, 4]`, `[5]` the first call broadcasts the one frame of the convolution, the second call adds the outputs for frames 1 and 2 to frames 2 and 3 without complaint (9, 13 instead of 8, 12),
and the last call raises AttributeError. -/
theorem C159_residual_false :
    let c : Cfg := ⟨3, 1, 1, 1⟩
    let g : List Int → Int := fun w => w.foldl (· + ·) 0
    List.zipWith (· + ·) (offline c g [1, 2, 3, 4, 5]) [1, 2, 3, 4, 5] = [4, 8, 12, 16, 14] ∧
    ((resStep c g (· + ·) (fun _ => none) { md := ⟨["a"], [true], [false], [3], none⟩, width := 3, rows := [[1, 2, 3]] }).map fun r => r.1.rows) = .error .runtimeError ∧
    ((resRun c g (· + ·) (fun _ => none) (exRes.take 2)).map fun r => r.1.map fun z => (z.md.lengths, z.rows)) = .ok [([1], [[4, 5]]), ([2], [[9, 13]])] ∧
    ((resRun c g (· + ·) (fun _ => none) exRes).map fun r => r.1.map fun z => z.rows) = .error .attributeError := by decide

/-- C159: the sum is refused with RuntimeError if the widths cannot be broadcast, and if the metadata are found to differ. -/
theorem C159_refused (f : α → α → α) (y x : ST α) :
    (y.width ≠ x.width → y.width ≠ 1 → x.width ≠ 1 → addST f y x = .error .runtimeError) ∧
    (y.width = x.width → Meta.eqMeta x.md y.md = .ok false → addST f y x = .error .runtimeError) := by
  constructor
  · intro h1 h2 h3
    simp [addST, h1, h2, h3]
  · intro h1 h2
    simp only [addST, h1, true_or, if_true, h2]
    rfl

example : addST (· + ·) (⟨⟨["a"], [true], [true], [3], none⟩, 3, [[1, 2, 3]]⟩ : ST Int) ⟨⟨["a"], [true], [true], [2], none⟩, 2, [[1, 2]]⟩ = .error .runtimeError :=
  (C159_refused _ _ _).1 (by decide) (by decide) (by decide)

/-- Two whole sequences in one batch. -/
example : Cfg.Same ⟨3, 1, 1, 1⟩ ∧
    ((resRun ⟨3, 1, 1, 1⟩ (fun w : List Int => w.foldl (· + ·) 0) (· + ·) (fun _ => none)
      [ { md := ⟨["a", "b"], [true, true], [true, true], [3, 2], none⟩, width := 3, rows := [[1, 2, 3], [4, 5, 0]] } ]).map
        fun r => r.1.map fun z => (z.md.lengths, z.rows)) = .ok [([3, 2], [[4, 8, 8], [13, 14, 0]])] := by
  refine ⟨⟨⟨by decide, by decide, by decide⟩, by decide, by decide, by decide⟩, by decide⟩

end
end DS.Conv
