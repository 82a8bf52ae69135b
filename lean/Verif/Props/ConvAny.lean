import Verif.Props.ConvMem
/-! One call of an online convolution, exactly, for every content of the buffer: C96, C102, C103, C106, C107. -/

namespace DS.Conv
open Meta
section
variable {α β γ : Type} [Zero α] [Zero β] [Zero γ]

/-- The buffers are used: the kernel sees more than one frame and some chunk of the batch does not start. -/
def Mixes (c : Cfg) (cs : List (Chunk α)) : Prop := 1 < span c ∧ ∃ x ∈ cs, x.sos = false

/-- The frames held for two chunks of the batch differ in number. -/
def Uneven (buf : Buf α) (cs : List (Chunk α)) : Prop := ∃ x ∈ cs, ∃ y ∈ cs, ((buf x.id).getD []).length ≠ ((buf y.id).getD []).length

open Classical in
/-- The chunk as the convolution sees it: in a batch whose buffers have different lengths the flags of empty chunks are not seen. -/
noncomputable def heard (c : Cfg) (buf : Buf α) (cs : List (Chunk α)) (x : Chunk α) : Chunk α :=
  if Mixes c cs ∧ Uneven buf cs ∧ x.frames = [] then ⟨x.id, false, false, x.index, []⟩ else x

open Classical in
/-- What the kernel sees of a chunk, for any buffer: start padding if the chunk is (seen as) a start, then, if the buffers are used, whatever is held for its id, the frames, and end padding. -/
noncomputable def input (c : Cfg) (buf : Buf α) (cs : List (Chunk α)) (x : Chunk α) : List α :=
  (if (heard c buf cs x).sos then zeros c.padding else []) ++ (if Mixes c cs then (buf x.id).getD [] else []) ++ x.frames ++
    (if (heard c buf cs x).eos then zeros c.padding else [])

theorem mixes_iff (c : Cfg) (hv : c.Valid) (cs : List (Chunk α)) : (decide (c.kw > 1) && !(allSos cs)) = true ↔ Mixes c cs := by
  unfold Mixes
  rw [span_eq c hv]
  unfold allSos
  simp [List.all_eq_false]

theorem uneven_iff (buf : Buf α) (cs : List (Chunk α)) : sameLengths (cs.map fun x => buf x.id) = false ↔ Uneven buf cs := by
  unfold Uneven
  constructor
  · intro h
    cases cs with
    | nil => simp [sameLengths] at h
    | cons a as =>
      unfold sameLengths at h
      rw [List.all_eq_false] at h
      obtain ⟨b, hb, hne⟩ := h
      obtain ⟨x, hx, rfl⟩ := List.mem_map.1 hb
      exact ⟨x, hx, a, by simp, by simpa [bufLen] using hne⟩
  · rintro ⟨x, hx, y, hy, hne⟩
    unfold sameLengths
    rw [← Bool.not_eq_true, List.all_eq_true]
    intro h
    have h1 := h (buf x.id) (List.mem_map_of_mem (f := fun x : Chunk α => buf x.id) hx)
    have h2 := h (buf y.id) (List.mem_map_of_mem (f := fun x : Chunk α => buf x.id) hy)
    simp only [beq_iff_eq, bufLen] at h1 h2
    exact hne (by rw [h1, h2])

theorem ragged_iff (c : Cfg) (hv : c.Valid) (buf : Buf α) (cs : List (Chunk α)) : ragged c buf cs = true ↔ Mixes c cs ∧ Uneven buf cs := by
  unfold ragged
  rw [Bool.and_eq_true, mixes_iff c hv, Bool.not_eq_true', uneven_iff]

theorem stacked_iff (c : Cfg) (hv : c.Valid) (buf : Buf α) (cs : List (Chunk α)) : stacked c buf cs = true ↔ Mixes c cs ∧ ¬ Uneven buf cs := by
  unfold stacked
  rw [Bool.and_eq_true, mixes_iff c hv, ← uneven_iff, Bool.not_eq_false]

theorem held_iff (c : Cfg) (hv : c.Valid) (buf : Buf α) (cs : List (Chunk α)) (x : Chunk α) :
    held c buf cs x = open Classical in if Mixes c cs then (buf x.id).getD [] else [] := by
  unfold held
  by_cases h : Mixes c cs
  · rw [if_pos h, if_pos ((mixes_iff c hv cs).2 h)]
  · rw [if_neg h, if_neg (fun h' => h ((mixes_iff c hv cs).1 h'))]

theorem any_le (c : Cfg) (buf : Buf α) (w : Nat) (cs : List (Chunk α)) (hne : cs ≠ []) (hw : ∀ x ∈ cs, x.frames.length ≤ w) :
    (∀ x ∈ cs, (held c buf cs x ++ x.frames).length ≤ anyWidth c buf w cs) ∧
    (Tight w cs → ∃ x ∈ cs, (held c buf cs x ++ x.frames).length = anyWidth c buf w cs) := by
  unfold anyWidth
  by_cases hr : ragged c buf cs = true
  · rw [if_pos hr]
    have := max_nat_spec cs (fun x => held c buf cs x ++ x.frames) hne
    exact ⟨this.1, fun _ => this.2⟩
  · rw [if_neg hr]
    by_cases hs : stacked c buf cs = true
    · rw [if_pos hs]
      unfold stacked at hs
      rw [Bool.and_eq_true] at hs
      have hlen : ∀ x ∈ cs, (held c buf cs x).length = bufLen ((cs.map fun x => buf x.id).head?.getD none) := by
        intro x hx
        unfold held
        rw [if_pos hs.1]
        have := List.all_eq_true.1 hs.2 (buf x.id) (List.mem_map_of_mem (f := fun x : Chunk α => buf x.id) hx)
        simpa [bufLen] using this
      refine ⟨?_, ?_⟩
      · intro x hx
        rw [List.length_append, hlen x hx]
        have := hw x hx
        omega
      · rintro ⟨x, hx, hxw⟩
        refine ⟨x, hx, ?_⟩
        rw [List.length_append, hlen x hx]
        omega
    · rw [if_neg hs]
      have hh : ∀ x, held c buf cs x = [] := by
        intro x
        unfold held
        rw [if_neg]
        intro h
        unfold ragged at hr
        unfold stacked at hs
        rw [h] at hr hs
        cases hsame : sameLengths (cs.map fun x => buf x.id) <;> simp [hsame] at hr hs
      simp only [hh, List.nil_append]
      exact ⟨hw, fun h => h⟩

/-- `WidthOK` for any buffer. -/
theorem width_any {c : Cfg} {buf : Buf α} {w : Nat} {cs : List (Chunk α)} (b : Bool) (h : WidthOK c w cs) :
    WidthOK c (anyWidth c buf w cs) (cs.map fun x => x.set b (held c buf cs x ++ x.frames)) := by
  unfold WidthOK at h ⊢
  rw [allSos_set, allEos_set]
  rcases h with h1 | h1 | h1 | h1
  · exact .inl h1
  · exact .inr (.inl h1)
  · exact .inr (.inr (.inl h1))
  · cases hS : allSos cs with
    | false => exact .inr (.inl rfl)
    | true =>
      obtain ⟨x, hx, hxw⟩ := h1
      have hw' : anyWidth c buf w cs = w := by
        unfold anyWidth ragged stacked
        rw [hS]; simp
      have hp' : held c buf cs x = [] := by
        unfold held
        rw [hS]; simp
      exact .inr (.inr (.inr ⟨_, List.mem_map_of_mem hx, by rw [hw', hp']; exact hxw⟩))

/-- The chunks as the convolution sees them. -/
def seen (c : Cfg) (buf : Buf α) (cs : List (Chunk α)) : List (Chunk α) := if ragged c buf cs then cs.map Chunk.quiet else cs

theorem allSos_quiet {cs : List (Chunk α)} (h : allSos cs = false) : allSos (cs.map Chunk.quiet) = false := by
  unfold allSos at h ⊢
  rw [List.all_eq_false] at h ⊢
  obtain ⟨y, hy, h⟩ := h
  refine ⟨y.quiet, List.mem_map_of_mem hy, ?_⟩
  unfold Chunk.quiet
  split
  · simp
  · exact h

theorem seen_ids (c : Cfg) (buf : Buf α) (cs : List (Chunk α)) (f : String → Option (List α)) : ((seen c buf cs).map fun x => f x.id) = cs.map fun x => f x.id := by
  unfold seen
  split
  · rw [List.map_map]
    exact List.map_congr_left fun x _ => by simp only [Function.comp_apply, quiet_id]
  · rfl

theorem seen_allSos (c : Cfg) (buf : Buf α) (cs : List (Chunk α)) : allSos (seen c buf cs) = allSos cs := by
  unfold seen
  split
  · rename_i hr
    have : allSos cs = false := by
      unfold ragged at hr
      simp only [Bool.and_eq_true, Bool.not_eq_true'] at hr
      exact hr.1.2
    rw [this]
    exact allSos_quiet this
  · rfl

theorem seen_ragged (c : Cfg) (buf : Buf α) (cs : List (Chunk α)) : ragged c buf (seen c buf cs) = ragged c buf cs := by
  unfold ragged
  rw [seen_allSos, seen_ids]

theorem seen_stacked (c : Cfg) (buf : Buf α) (cs : List (Chunk α)) : stacked c buf (seen c buf cs) = stacked c buf cs := by
  unfold stacked
  rw [seen_allSos, seen_ids]

theorem seen_heard (c : Cfg) (hv : c.Valid) (buf : Buf α) (cs : List (Chunk α)) : seen c buf cs = cs.map (heard c buf cs) := by
  unfold seen
  split
  · rename_i hr
    have := (ragged_iff c hv buf cs).1 hr
    apply List.map_congr_left
    intro x _
    unfold heard Chunk.quiet
    by_cases h : x.frames = []
    · rw [if_pos h, if_pos ⟨this.1, this.2, h⟩, h]
    · rw [if_neg h, if_neg (fun h' => h h'.2.2)]
  · rename_i hr
    conv_lhs => rw [← List.map_id cs]
    apply List.map_congr_left
    intro x _
    unfold heard
    rw [if_neg (fun h => hr ((ragged_iff c hv buf cs).2 ⟨h.1, h.2.1⟩))]
    rfl

theorem heard_id (c : Cfg) (buf : Buf α) (cs : List (Chunk α)) (x : Chunk α) : (heard c buf cs x).id = x.id ∧ (heard c buf cs x).index = x.index ∧ (heard c buf cs x).frames = x.frames := by
  unfold heard
  split
  · rename_i h; exact ⟨rfl, rfl, h.2.2.symm⟩
  · exact ⟨rfl, rfl, rfl⟩

theorem seen_held (c : Cfg) (buf : Buf α) (cs : List (Chunk α)) (x : Chunk α) : held c buf (seen c buf cs) x = held c buf cs x := by
  unfold held
  rw [seen_allSos]

theorem full_any (c : Cfg) (hv : c.Valid) (buf : Buf α) (cs : List (Chunk α)) (b : Bool) (x : Chunk α) :
    full c ((heard c buf cs x).set b (held c buf cs (heard c buf cs x) ++ (heard c buf cs x).frames)) = input c buf cs x := by
  have h := heard_id c buf cs x
  have hh : held c buf cs (heard c buf cs x) = held c buf cs x := by unfold held; rw [h.1]
  rw [hh, h.2.2, held_iff c hv]
  unfold full input Chunk.set
  simp [List.append_assoc]

theorem prepared (c : Cfg) (hv : c.Valid) (buf : Buf α) (b b' : Bool) (w : Nat) (cs : List (Chunk α)) (hne : cs ≠ []) (hw : ∀ x ∈ cs, x.frames.length ≤ w) :
    preHook c buf (pk b w cs) = preHook c buf (pk b w (seen c buf cs)) := by
  unfold seen
  split
  · rename_i hr
    exact (preHook_quiet c buf b w cs hw hr).symm
  · rfl

/-- One call, for any buffer: exact behaviour. -/
theorem forward_any (c : Cfg) (hv : c.Valid) (g : List α → β) (buf : Buf α) (b : Bool) (w : Nat) (cs : List (Chunk α)) (hne : cs ≠ [])
    (hw : ∀ x ∈ cs, x.frames.length ≤ w) (hwidth : WidthOK c w cs) :
    ∃ w', (∀ x ∈ cs, (input c buf cs x).length ≤ w') ∧ (Tight w cs → ∃ x ∈ cs, (input c buf cs x).length = w') ∧
      forward c g buf (pk b w cs) =
        if stacked c buf cs && cs.any (fun x => (buf x.id).isNone) then .error .typeError
        else if w' < c.kw then .error .runtimeError
        else
          let y : ST β := pk (b && !(ragged c buf cs)) (nOut c w') (cs.map fun x => (heard c buf cs x).set (b && !(ragged c buf cs)) (conv c g (input c buf cs x)))
          .ok { y := y, buf := postHook buf y.md (items c (fun x => full c (x.set (b && !(ragged c buf cs)) (held c buf cs x ++ x.frames))) (cs.map (heard c buf cs))),
                caller := if !(decide (c.kw > 1) && !(allSos cs)) then y.md else (pk b w cs).md } := by
  have hsne : seen c buf cs ≠ [] := by rw [seen_heard c hv]; simpa using hne
  have hsw : ∀ x ∈ seen c buf cs, x.frames.length ≤ w := by
    rw [seen_heard c hv]
    intro x hx
    obtain ⟨y, hy, rfl⟩ := List.mem_map.1 hx
    rw [(heard_id c buf cs y).2.2]
    exact hw y hy
  have hst : Tight w cs → Tight w (seen c buf cs) := by
    rintro ⟨x, hx, hxw⟩
    rw [seen_heard c hv]
    exact ⟨_, List.mem_map_of_mem hx, by rw [(heard_id c buf cs x).2.2]; exact hxw⟩
  have hswid : WidthOK c w (seen c buf cs) := by
    by_cases hr : ragged c buf cs = true
    · refine .inr (.inl ?_)
      rw [seen_allSos]
      unfold ragged at hr
      simp only [Bool.and_eq_true, Bool.not_eq_true'] at hr
      exact hr.1.2
    · unfold seen
      rw [if_neg hr]
      exact hwidth
  have hz : ragged c buf (seen c buf cs) = true → ∀ x ∈ seen c buf cs, x.frames = [] → x.sos = false ∧ x.eos = false := by
    rw [seen_ragged]
    intro hr x hx hf
    unfold seen at hx
    rw [if_pos hr] at hx
    obtain ⟨y, hy, rfl⟩ := List.mem_map.1 hx
    rw [quiet_frames] at hf
    unfold Chunk.quiet
    rw [if_pos hf]
    exact ⟨rfl, rfl⟩
  have hle := any_le c buf w (seen c buf cs) hsne hsw
  have hpre := preHook_any c hv buf b w (seen c buf cs) hsne hsw hz
  rw [seen_ragged, seen_stacked, seen_allSos] at hpre
  have hany : (seen c buf cs).any (fun x => (buf x.id).isNone) = cs.any (fun x => (buf x.id).isNone) := by
    have := congrArg (fun l => l.any Option.isNone) (seen_ids c buf cs buf)
    simpa [List.any_map, Function.comp_def] using this
  rw [hany] at hpre
  obtain ⟨w', h1, h2, h3⟩ := conv1d_pk c hv g (b && !(ragged c buf cs)) (anyWidth c buf w (seen c buf cs))
    ((seen c buf cs).map fun x => x.set (b && !(ragged c buf cs)) (held c buf (seen c buf cs) x ++ x.frames)) (by simpa using hsne) (by
      intro x hx
      obtain ⟨y, hy, rfl⟩ := List.mem_map.1 hx
      exact hle.1 y hy) (width_any _ hswid)
  have hmap : ((seen c buf cs).map fun x => x.set (b && !(ragged c buf cs)) (held c buf (seen c buf cs) x ++ x.frames)) =
      cs.map fun x => (heard c buf cs x).set (b && !(ragged c buf cs)) (held c buf cs (heard c buf cs x) ++ (heard c buf cs x).frames) := by
    simp only [seen_held]
    rw [seen_heard c hv, List.map_map]
    rfl
  refine ⟨w', ?_, ?_, ?_⟩
  · intro x hx
    rw [hmap] at h1
    have := h1 _ (List.mem_map_of_mem hx)
    rwa [full_any c hv] at this
  · intro ht
    obtain ⟨x, hx, hxw⟩ := hle.2 (hst ht)
    obtain ⟨y, hy, hyw⟩ := h2 ⟨_, List.mem_map_of_mem hx, hxw⟩
    rw [hmap] at hy
    obtain ⟨z, hz, rfl⟩ := List.mem_map.1 hy
    rw [full_any c hv] at hyw
    exact ⟨z, hz, hyw⟩
  · unfold forward
    rw [prepared c hv buf b b w cs hne hw, hpre]
    by_cases hs : (stacked c buf cs && cs.any (fun x => (buf x.id).isNone)) = true
    · rw [if_pos hs, if_pos hs, Except.bind_error']
    · rw [if_neg hs, if_neg hs, Except.bind_ok']
      simp only
      rw [h3]
      by_cases hk : w' < c.kw
      · rw [if_pos hk, if_pos hk, Except.bind_error']
      · rw [if_neg hk, if_neg hk, Except.bind_ok']
        rw [hmap]
        simp only [List.map_map]
        have e1 : ((fun x : Chunk α => x.set (b && !(ragged c buf cs)) (conv c g (full c x))) ∘ fun x : Chunk α =>
              (heard c buf cs x).set (b && !(ragged c buf cs)) (held c buf cs (heard c buf cs x) ++ (heard c buf cs x).frames)) =
            fun x : Chunk α => (heard c buf cs x).set (b && !(ragged c buf cs)) (conv c g (input c buf cs x)) := by
          funext x
          simp only [Function.comp_apply, full_any c hv]
          unfold Chunk.set
          cases (b && !(ragged c buf cs)) <;> rfl
        have e2 : items c (full c) (cs.map fun x => (heard c buf cs x).set (b && !(ragged c buf cs)) (held c buf cs (heard c buf cs x) ++ (heard c buf cs x).frames)) =
            items c (fun x => full c (x.set (b && !(ragged c buf cs)) (held c buf cs x ++ x.frames))) (cs.map (heard c buf cs)) := by
          unfold items
          rw [List.filterMap_map, List.filterMap_map]
          rfl
        rw [e1, e2]

/-! ### What a call gives if it does not raise -/

theorem call_any (c : Cfg) (hv : c.Valid) (g : List α → β) (buf : Buf α) (x : ST α) (hx : WellPacked x) (hne : unpack x ≠ [])
    (hnd : ((unpack x).map (·.id)).Nodup) (hwid : WidthOK c x.width (unpack x)) (o : Out α β) (ho : forward c g buf x = .ok o) :
    WellPacked o.y ∧
      List.Forall₂ (fun y z => z.id = y.id ∧ z.sos = (heard c buf (unpack x) y).sos ∧ z.eos = (heard c buf (unpack x) y).eos ∧
        z.frames = conv c g (input c buf (unpack x) y)) (unpack x) (unpack o.y) ∧
      (∀ y ∈ unpack x, o.buf y.id = if (heard c buf (unpack x) y).eos then none else if 1 < span c then
        some ((input c buf (unpack x) y).drop ((fits c (input c buf (unpack x) y).length).length * c.stride)) else buf y.id) ∧
      ∀ i, (∀ y ∈ unpack x, y.id ≠ i) → o.buf i = buf i := by
  obtain ⟨w', h1, -, h3⟩ := forward_any c hv g buf x.md.chunk.isSome x.width (unpack x) hne hx.2.2.2.1 hwid
  rw [← packs_pk hx, ho] at h3
  rw [span_eq c hv]
  by_cases hc1 : (stacked c buf (unpack x) && (unpack x).any (fun x => (buf x.id).isNone)) = true
  · rw [if_pos hc1] at h3
    exact absurd h3 (by simp)
  by_cases hc2 : w' < c.kw
  · rw [if_neg hc1, if_pos hc2] at h3
    exact absurd h3 (by simp)
  · rw [if_neg hc1, if_neg hc2] at h3
    simp only [Except.ok.injEq] at h3
    subst h3
    set b := (x.md.chunk.isSome && !ragged c buf (unpack x)) with hb
    have hidx : ∀ z ∈ (unpack x).map (fun y => (heard c buf (unpack x) y).set b (conv c g (input c buf (unpack x) y))), z.index.isSome = b := by
      intro z hz
      obtain ⟨u, hu, rfl⟩ := List.mem_map.1 hz
      have hi := packs_index hx u hu
      simp only [Chunk.set]
      cases hbb : b with
      | false => simp
      | true =>
        rw [hbb] at hb
        have := (Bool.and_eq_true _ _ ▸ hb.symm : _ ∧ _).1
        simp [(heard_id c buf (unpack x) u).2.1, hi, this]
    have hup := unpack_pk b (nOut c w') _ hidx
    refine ⟨?_, ?_, ?_⟩
    · show Packs _ _ _
      rw [hup]
      refine pk_packs hidx ?_
      intro z hz
      obtain ⟨u, hu, rfl⟩ := List.mem_map.1 hz
      show (conv c g (input c buf (unpack x) u)).length ≤ _
      rw [conv_length c hv]
      exact nOut_mono c hv (h1 u hu)
    · dsimp only
      rw [hup, List.forall₂_map_right_iff, List.forall₂_same]
      exact fun u _ => ⟨(heard_id c buf (unpack x) u).1, rfl, rfl, rfl⟩
    · have hids : ((unpack x).map (heard c buf (unpack x))).map (·.id) = (unpack x).map (·.id) := by
        rw [List.map_map]
        exact List.map_congr_left fun u _ => (heard_id c buf (unpack x) u).1
      obtain ⟨p1, p2⟩ := postHook_pk c buf ((unpack x).map (heard c buf (unpack x))) (fun u => full c (u.set b (held c buf (unpack x) u ++ u.frames)))
        (pk b (nOut c w') ((unpack x).map (fun y => (heard c buf (unpack x) y).set b (conv c g (input c buf (unpack x) y))))).md
        (by rw [pk_ids, List.map_map, List.map_map]; rfl) (by rw [pk_eos, List.map_map, List.map_map]; rfl) (by rw [hids]; exact hnd)
      refine ⟨?_, ?_⟩
      · intro u hu
        have := p1 _ (List.mem_map_of_mem hu)
        rw [(heard_id c buf (unpack x) u).1, full_any c hv] at this
        dsimp only
        rw [this]
        congr 2
        unfold left
        rw [fits_eq c hv, List.length_range]
      · intro i hi
        refine p2 i ?_
        intro z hz
        obtain ⟨u, hu, rfl⟩ := List.mem_map.1 hz
        rw [(heard_id c buf (unpack x) u).1]
        exact hi u hu

/-! ### C106 -/

/-- **C106, exactly.** One call on any zero-padded batch of chunks with different ids, whatever is buffered. It raises TypeError if the buffers are used (some row does not start and the kernel sees more than
one frame), have the same length, and one of them is missing; otherwise it raises RuntimeError if the kernel fits nowhere. Otherwise each chunk gives the kernel outputs of start padding, the frames held for its
id, its own frames and end padding, where held frames count in front of every chunk of a batch in which some row does not start: a chunk that restarts its id in such a batch begins with the start padding
and the frames left of the abandoned sequence, and its stream goes on from there. In a batch in which all rows start nothing is put in front.
Missing: a restart in a batch with running streams as if nothing was buffered. -/
theorem C106_exact_partial (c : Cfg) (hv : c.Valid) (g : List α → β) (buf : Buf α) (x : ST α) (hx : WellPacked x) (hne : unpack x ≠ [])
    (hnd : ((unpack x).map (·.id)).Nodup) (ht : Tight x.width (unpack x)) :
    (Mixes c (unpack x) ∧ ¬ Uneven buf (unpack x) ∧ (∃ y ∈ unpack x, buf y.id = none) → forward c g buf x = .error .typeError) ∧
    (¬ (Mixes c (unpack x) ∧ ¬ Uneven buf (unpack x) ∧ ∃ y ∈ unpack x, buf y.id = none) →
      (∀ y ∈ unpack x, (input c buf (unpack x) y).length < span c) → forward c g buf x = .error .runtimeError) ∧
    (¬ (Mixes c (unpack x) ∧ ¬ Uneven buf (unpack x) ∧ ∃ y ∈ unpack x, buf y.id = none) →
      (∃ y ∈ unpack x, span c ≤ (input c buf (unpack x) y).length) → ∃ o, forward c g buf x = .ok o ∧ WellPacked o.y ∧
      List.Forall₂ (fun y z => z.id = y.id ∧ z.sos = (heard c buf (unpack x) y).sos ∧ z.eos = (heard c buf (unpack x) y).eos ∧
        z.frames = conv c g (input c buf (unpack x) y)) (unpack x) (unpack o.y) ∧
      (∀ y ∈ unpack x, o.buf y.id = if (heard c buf (unpack x) y).eos then none else if 1 < span c then
        some ((input c buf (unpack x) y).drop ((fits c (input c buf (unpack x) y).length).length * c.stride)) else buf y.id) ∧
      ∀ i, (∀ y ∈ unpack x, y.id ≠ i) → o.buf i = buf i) := by
  obtain ⟨w', h1, h2, h3⟩ := forward_any c hv g buf x.md.chunk.isSome x.width (unpack x) hne hx.2.2.2.1 (.inr (.inr (.inr ht.reaches)))
  rw [← packs_pk hx] at h3
  have hcond : (stacked c buf (unpack x) && (unpack x).any (fun x => (buf x.id).isNone)) = true ↔
      (Mixes c (unpack x) ∧ ¬ Uneven buf (unpack x) ∧ ∃ y ∈ unpack x, buf y.id = none) := by
    rw [Bool.and_eq_true, stacked_iff c hv, List.any_eq_true, and_assoc]
    simp only [Option.isNone_iff_eq_none]
  rw [span_eq c hv]
  refine ⟨?_, ?_, ?_⟩
  · intro h
    rw [h3, if_pos (hcond.2 h)]
  · intro h hs
    obtain ⟨y, hy, hyw⟩ := h2 ht
    have := hs y hy
    rw [h3, if_neg (fun h' => h (hcond.1 h')), if_pos (by omega)]
  · rintro h ⟨y, hy, hyw⟩
    have := h1 y hy
    rw [if_neg (fun h' => h (hcond.1 h')), if_neg (by omega)] at h3
    refine ⟨_, h3, ?_⟩
    have := call_any c hv g buf x hx hne hnd (.inr (.inr (.inr ht.reaches))) _ h3
    rw [span_eq c hv] at this
    exact this

/-- The restart of `exRestart`: a chunk of `a` that starts next to a running `b`, with 3 still held for `a`. -/
example : let buf : Buf Int := fun i => if i = "a" then some [3] else if i = "b" then some [6] else none
    let x : ST Int := { md := ⟨["a", "b"], [true, false], [false, false], [2, 2], none⟩, width := 2, rows := [[7, 8], [6, 5]] }
    WellPacked x ∧ Tight x.width (unpack x) ∧ ((unpack x).map (·.id)).Nodup ∧ Mixes ⟨2, 1, 1, 1⟩ (unpack x) ∧
    ((forward ⟨2, 1, 1, 1⟩ exG buf x).map fun o => ((unpack o.y).map (·.frames), o.buf "a")) = .ok ([[3, 37, 78], [66, 65]], some [8]) := by
  refine ⟨by decide, by decide, by decide, ⟨by decide, by decide⟩, by decide⟩

/-! ### C102 -/

/-- **C102, exactly.** The second branch finds, in place of the metadata of the chunk, those of the first branch's output, unless the kernel of the first branch is wider than 1 and some row does not start its stream.
Missing: the lengths of the chunk in the other cases. -/
theorem C102_second_partial (c₁ : Cfg) (g₁ : List α → β) (b₁ : Buf α) (c₂ : Cfg) (g₂ : List α → γ) (b₂ : Buf α) (x : ST α) (o₁ : Out α β) (o₂ : Out α γ) :
    (¬ (c₁.kw > 1 ∧ ∃ s ∈ x.md.sos, s = false) →
      (parallel c₁ g₁ b₁ c₂ g₂ b₂ x = .ok (o₁, o₂) ↔ forward c₁ g₁ b₁ x = .ok o₁ ∧ forward c₂ g₂ b₂ { x with md := o₁.y.md } = .ok o₂)) ∧
    ((c₁.kw > 1 ∧ ∃ s ∈ x.md.sos, s = false) →
      (parallel c₁ g₁ b₁ c₂ g₂ b₂ x = .ok (o₁, o₂) ↔ forward c₁ g₁ b₁ x = .ok o₁ ∧ forward c₂ g₂ b₂ x = .ok o₂)) := by
  refine ⟨fun h => ?_, fun h => C102_parallel_partial c₁ g₁ b₁ c₂ g₂ b₂ x (.inl h) o₁ o₂⟩
  have key : ∀ o : Out α β, forward c₁ g₁ b₁ x = .ok o → o.caller = o.y.md := by
    intro o ho
    refine (C61_metadata_partial c₁ g₁ b₁ x o ho).2.2.2.2.2 ?_
    by_cases hk : c₁.kw > 1
    · refine .inr ?_
      intro s hs
      cases s with
      | true => rfl
      | false => exact absurd ⟨hk, false, hs, rfl⟩ h
    · exact .inl (by omega)
  unfold parallel
  constructor
  · intro hp
    obtain ⟨p₁, h1, hp⟩ := bind_ok_iff hp
    obtain ⟨p₂, h2, hp⟩ := bind_ok_iff hp
    simp only [Except.ok.injEq, Prod.mk.injEq] at hp
    obtain ⟨rfl, rfl⟩ := hp
    rw [key _ h1] at h2
    exact ⟨h1, h2⟩
  · rintro ⟨h1, h2⟩
    rw [h1, Except.bind_ok', key _ h1]
    simp [h2, Except.bind_ok']

example : let x : ST Int := { md := ⟨["a"], [true], [false], [3], none⟩, width := 3, rows := [[1, 2, 3]] }
    ((parallel ⟨2, 1, 1, 0⟩ exG (fun _ => none) ⟨2, 1, 1, 0⟩ exG (fun _ => none) x).map fun o => o.2.y.rows) =
      (forward ⟨2, 1, 1, 0⟩ exG (fun _ => none) { x with md := { x.md with lengths := [2] } }).map fun o => o.y.rows := by decide

/-! ### C103 -/

/-- **C103, exactly.** On any zero-padded batch, `torch.conv1d` leaves the frames of its argument alone, unless the layer pads, some rows start and some do not, and there is room for the padding in all rows: then
the frames of the starting rows are moved right by the padding. Missing: leaving the starting rows alone in that case. -/
theorem C103_exact_partial (c : Cfg) (x : ST α) (hx : WellPacked x) :
    (c.padding > 0 ∧ (∃ y ∈ unpack x, y.sos = true) ∧ (∃ y ∈ unpack x, y.sos = false) ∧
        (∀ y ∈ unpack x, (if y.sos then c.padding else 0) + y.frames.length + (if y.eos then c.padding else 0) ≤ x.width) →
      rowsAfter c x = (unpack x).map fun y => (if y.sos then zeros c.padding else []) ++ y.frames ++
        zeros (x.width - (if y.sos then c.padding else 0) - y.frames.length)) ∧
    (¬ (c.padding > 0 ∧ (∃ y ∈ unpack x, y.sos = true) ∧ (∃ y ∈ unpack x, y.sos = false) ∧
        ∀ y ∈ unpack x, (if y.sos then c.padding else 0) + y.frames.length + (if y.eos then c.padding else 0) ≤ x.width) → rowsAfter c x = x.rows) := by
  have hpk := packs_pk hx
  set cs := unpack x with hcs
  set b := x.md.chunk.isSome
  have hsos : (∃ y ∈ cs, y.sos = false) ↔ allSos cs = false := by unfold allSos; simp [List.all_eq_false]
  have hany : (∃ y ∈ cs, y.sos = true) ↔ (pk b x.width cs).md.anyStarting = true := by
    rw [pk_anyStarting]
    simp
  constructor
  · rintro ⟨hp, h1, h2, h3⟩
    have hne : cs ≠ [] := by obtain ⟨y, hy, -⟩ := h1; exact List.ne_nil_of_mem hy
    obtain ⟨n, hn, -, z, hz, hzn⟩ := maxLength_map hne (fun y => (full c y).length)
    have hall : allSos cs = false := hsos.1 h2
    have hnw : n ≤ x.width := by
      rw [← hzn, full_length]
      exact h3 z hz
    unfold rowsAfter
    rw [hpk, if_pos hp]
    simp only
    have e1 : ({ (pk b x.width cs).md with lengths := padLengths c.padding (pk b x.width cs).md } : Meta).allStarting = false := by
      show (pk b x.width cs).md.allStarting = false
      rw [pk_allStarting, hall]
    have e2 : ({ (pk b x.width cs).md with lengths := padLengths c.padding (pk b x.width cs).md } : Meta).maxLength = .ok (n : Int) := by
      unfold maxLength
      rw [padLengths_pk]
      exact hn
    rw [e1, e2]
    simp only [Bool.false_and, Bool.false_eq_true, if_false]
    rw [if_neg (show ¬ ((n : Int) - ((pk b x.width cs).width : Int) > 0) by show ¬ ((n : Int) - (x.width : Int) > 0); omega)]
    unfold shiftStarting
    have e3 : ({ (pk b x.width cs).md with lengths := padLengths c.padding (pk b x.width cs).md } : Meta).anyStarting = true := hany.1 h1
    rw [e1, e3]
    simp only [Bool.not_false, Bool.and_self, if_true]
    show List.zipWith _ (cs.map fun y => y.frames ++ zeros (x.width - y.frames.length)) (pk b x.width cs).md.sos = _
    rw [pk_sos, zipWith_map_same]
    apply List.map_congr_left
    intro y hy
    have := h3 y hy
    have hwid : (pk b x.width cs).width = x.width := rfl
    rw [hwid]
    cases hys : y.sos with
    | false => simp
    | true =>
      rw [hys] at this
      simp only [if_true] at this ⊢
      rw [roll_zeros _ _ _ (by omega)]
      congr 2
      omega
  · intro h
    by_cases hp : c.padding > 0
    · by_cases h1 : ∃ y ∈ cs, y.sos = true
      · by_cases h2 : ∃ y ∈ cs, y.sos = false
        · have hall : allSos cs = false := hsos.1 h2
          have hne : cs ≠ [] := by obtain ⟨y, hy, -⟩ := h1; exact List.ne_nil_of_mem hy
          obtain ⟨n, hn, hle, -⟩ := maxLength_map hne (fun y => (full c y).length)
          have h3 : ∃ y ∈ cs, x.width < (full c y).length := by
            by_contra hc
            push Not at hc
            refine h ⟨hp, h1, h2, fun y hy => ?_⟩
            have := hc y hy
            rwa [full_length] at this
          obtain ⟨y, hy, hyw⟩ := h3
          have hny := hle y hy
          unfold rowsAfter
          rw [hpk, if_pos hp]
          simp only
          have e1 : ({ (pk b x.width cs).md with lengths := padLengths c.padding (pk b x.width cs).md } : Meta).allStarting = false := by
            show (pk b x.width cs).md.allStarting = false
            rw [pk_allStarting, hall]
          have e2 : ({ (pk b x.width cs).md with lengths := padLengths c.padding (pk b x.width cs).md } : Meta).maxLength = .ok (n : Int) := by
            unfold maxLength
            rw [padLengths_pk]
            exact hn
          rw [e1, e2]
          simp only [Bool.false_and, Bool.false_eq_true, if_false]
          rw [if_pos (show ((n : Int) - ((pk b x.width cs).width : Int) > 0) by show ((n : Int) - (x.width : Int) > 0); omega)]
        · refine rowsAfter_eq c x (.inr (.inl ?_))
          rw [hpk, pk_sos]
          intro s hs
          obtain ⟨y, hy, rfl⟩ := List.mem_map.1 hs
          cases hys : y.sos with
          | true => rfl
          | false => exact absurd ⟨y, hy, hys⟩ h2
      · refine rowsAfter_eq c x (.inr (.inr ?_))
        rw [hpk, pk_sos]
        intro s hs
        obtain ⟨y, hy, rfl⟩ := List.mem_map.1 hs
        cases hys : y.sos with
        | false => rfl
        | true => exact absurd ⟨y, hy, hys⟩ h1
    · exact rowsAfter_eq c x (.inl (by omega))

example : WellPacked ({ md := ⟨["a", "b"], [true, false], [false, false], [2, 3], none⟩, width := 3, rows := [[1, 2, 0], [4, 5, 6]] } : ST Int) := by decide

/-! ### C107 -/

/-- **C107, exactly.** After a refused call the length of each row in the caller's metadata is as before if the kernel is wider than 1 and some row does not start; otherwise it has grown by the padding if the row
starts, and by the padding if the row ends. Missing: unchanged lengths in the second case. -/
theorem C107_lengths_partial (c : Cfg) (x : ST α) (k : Nat) (l : Int) (s e : Bool) (hl : x.md.lengths[k]? = some l) (hs : x.md.sos[k]? = some s) (he : x.md.eos[k]? = some e) :
    ((c.kw > 1 ∧ ∃ s ∈ x.md.sos, s = false) → (forwardMetaAfterRaise c x).lengths[k]? = some l) ∧
    (¬ (c.kw > 1 ∧ ∃ s ∈ x.md.sos, s = false) →
      (forwardMetaAfterRaise c x).lengths[k]? = some (l + (if s then (c.padding : Int) else 0) + (if e then (c.padding : Int) else 0))) := by
  have hiff : (c.kw > 1 ∧ x.md.allStarting = false) ↔ (c.kw > 1 ∧ ∃ s ∈ x.md.sos, s = false) := by
    unfold allStarting
    simp [List.all_eq_false]
  unfold forwardMetaAfterRaise
  refine ⟨fun h => ?_, fun h => ?_⟩
  · rw [if_pos (hiff.2 h)]
    exact hl
  · rw [if_neg (fun h' => h (hiff.1 h'))]
    unfold metaAfterRaise
    split
    · show (padLengths c.padding x.md)[k]? = _
      unfold padLengths
      split
      · rename_i ha
        rw [Bool.and_eq_true] at ha
        unfold allStarting allEnding at ha
        rw [List.all_eq_true, List.all_eq_true] at ha
        have h1 : s = true := by simpa using ha.1 s (List.mem_of_getElem? hs)
        have h2 : e = true := by simpa using ha.2 e (List.mem_of_getElem? he)
        rw [List.getElem?_map, hl, h1, h2]
        simp
        omega
      · split
        · unfold addWhere
          rw [List.getElem?_zipWith, List.getElem?_zipWith, hl, hs, he]
          cases s <;> cases e <;> simp
        · rename_i ha
          simp only [Bool.or_eq_true, not_or, Bool.not_eq_true] at ha
          unfold anyStarting anyEnding at ha
          rw [List.any_eq_false, List.any_eq_false] at ha
          have h1 : s = false := by simpa using ha.1 s (List.mem_of_getElem? hs)
          have h2 : e = false := by simpa using ha.2 e (List.mem_of_getElem? he)
          rw [hl, h1, h2]
          simp
    · rename_i hp
      have : c.padding = 0 := by omega
      rw [hl, this]
      simp

example : let x : ST Int := { md := ⟨["a", "b"], [true, true], [false, true], [1, 1], none⟩, width := 1, rows := [[7], [8]] }
    ((forward ⟨5, 1, 1, 1⟩ exG (fun _ => none) x).map fun o => o.y.rows) = .error .runtimeError ∧ (forwardMetaAfterRaise ⟨5, 1, 1, 1⟩ x).lengths = [2, 3] := by decide

end
end DS.Conv
