import Verif.Props.ConvAct
/-! C114: chunks at least as long as the receptive field. -/

namespace DS.Conv
open Meta
section
variable {α β : Type} [Zero α] [Zero β]

/-- The receptive field of a stack: how many input frames one output frame looks at. -/
def field : List (Layer α) → Nat
  | [] => 1
  | .conv c _ :: ls => span c + (field ls - 1) * c.stride
  | .act _ :: ls => field ls

/-- How many frames the first chunk of a sequence must have so that every layer gives an output (the start padding counts). -/
def need : List (Layer α) → Nat
  | [] => 1
  | .conv c _ :: ls => max 1 (span c + (need ls - 1) * c.stride - c.padding)
  | .act _ :: ls => need ls

/-- The total stride of a stack: input frames per output frame. -/
def jump : List (Layer α) → Nat
  | [] => 1
  | .conv c _ :: ls => c.stride * jump ls
  | .act _ :: ls => jump ls

/-- How many frames the last chunk of a sequence (if it is not also the first one) must have (the end padding counts). -/
def rest : List (Layer α) → Nat
  | [] => 1
  | .conv c _ :: ls => max 1 (c.stride * rest ls - c.padding)
  | .act _ :: ls => rest ls

/-- The number of frames by the position of the chunk in its sequence: `n1` for a first chunk, `n3` for a last one, `n2` for those in between. -/
def atLeast (n1 n2 n3 : Nat) (u : Chunk β) : Nat := if u.sos = true then n1 else if u.eos = true then n3 else n2

/-- Strides below the kernel width (or kernel width 1). -/
def Overlapping : List (Layer α) → Prop
  | [] => True
  | .conv c _ :: ls => (c.stride < span c ∨ span c = 1 ∧ c.stride = 1) ∧ Overlapping ls
  | .act _ :: ls => Overlapping ls

theorem field_pos : ∀ ls : List (Layer α), 1 ≤ field ls
  | [] => Nat.le_refl 1
  | .conv c _ :: ls => by unfold field span; omega
  | .act _ :: ls => field_pos ls

theorem field_conv (c : Cfg) (g : List α → α) (ls : List (Layer α)) : field (.conv c g :: ls) = span c + (field ls - 1) * c.stride := by
  rw [field]

theorem need_pos : ∀ ls : List (Layer α), 1 ≤ need ls
  | [] => Nat.le_refl 1
  | .conv c _ :: ls => by unfold need; omega
  | .act _ :: ls => need_pos ls

theorem need_conv (c : Cfg) (g : List α → α) (ls : List (Layer α)) : need (.conv c g :: ls) = max 1 (span c + (need ls - 1) * c.stride - c.padding) := by
  rw [need]

theorem need_act (f : α → α) (ls : List (Layer α)) : need (.act f :: ls) = need ls := by
  rw [need]

theorem jump_conv (c : Cfg) (g : List α → α) (ls : List (Layer α)) : jump (.conv c g :: ls) = c.stride * jump ls := by
  rw [jump]

theorem jump_act (f : α → α) (ls : List (Layer α)) : jump (.act f :: ls) = jump ls := by
  rw [jump]

theorem jump_pos : ∀ (ls : List (Layer α)) (clean : Bool), StackOK clean ls → 1 ≤ jump ls
  | [], _, _ => Nat.le_refl 1
  | .conv c _ :: ls, _, h => by
    have := jump_pos ls true h.2.2
    have h1 := h.1.2.2
    rw [jump_conv]
    exact Nat.mul_pos h1 this
  | .act _ :: ls, _, h => by
    rw [jump_act]
    rcases h with h | h
    · exact jump_pos ls true h.2.2
    · exact jump_pos ls false h

theorem rest_pos : ∀ ls : List (Layer α), 1 ≤ rest ls
  | [] => Nat.le_refl 1
  | .conv c _ :: ls => by unfold rest; omega
  | .act _ :: ls => rest_pos ls

theorem rest_conv (c : Cfg) (g : List α → α) (ls : List (Layer α)) : rest (.conv c g :: ls) = max 1 (c.stride * rest ls - c.padding) := by
  rw [rest]

theorem rest_act (f : α → α) (ls : List (Layer α)) : rest (.act f :: ls) = rest ls := by
  rw [rest]

theorem rest_le_jump : ∀ (ls : List (Layer α)) (clean : Bool), StackOK clean ls → rest ls ≤ jump ls
  | [], _, _ => Nat.le_refl 1
  | .conv c _ :: ls, _, h => by
    have h1 := rest_le_jump ls true h.2.2
    have h2 := jump_pos ls true h.2.2
    have h3 : c.stride * rest ls ≤ c.stride * jump ls := Nat.mul_le_mul_left _ h1
    have h4 : 1 ≤ c.stride * jump ls := Nat.mul_pos h.1.2.2 h2
    rw [rest_conv, jump_conv]
    omega
  | .act _ :: ls, _, h => by
    rw [rest_act, jump_act]
    rcases h with h | h
    · exact rest_le_jump ls true h.2.2
    · exact rest_le_jump ls false h

theorem field_act (f : α → α) (ls : List (Layer α)) : field (.act f :: ls) = field ls := by
  rw [field]

theorem run_append {c : Cfg} {g : List α → β} {x : ST α} {o : Out α β} : ∀ (xs : List (ST α)) (b : Buf α) (ys : List (ST β)) (buf : Buf α),
    run c g b xs = .ok (ys, buf) → forward c g buf x = .ok o → run c g b (xs ++ [x]) = .ok (ys ++ [o.y], o.buf) := by
  intro xs
  induction xs with
  | nil =>
    intro b ys buf hr ho
    simp only [run, Except.ok.injEq, Prod.mk.injEq] at hr
    obtain ⟨rfl, rfl⟩ := hr
    simp [run, ho, Except.bind_ok']
  | cons z zs ihz =>
    intro b ys buf hr ho
    simp only [run] at hr
    obtain ⟨oz, hoz, hr⟩ := bind_ok_iff hr
    obtain ⟨⟨ys', b'⟩, hr', hr⟩ := bind_ok_iff hr
    simp only [Except.ok.injEq, Prod.mk.injEq] at hr
    obtain ⟨rfl, rfl⟩ := hr
    have := ihz oz.buf ys' b' hr' ho
    simp only [List.cons_append, run, hoz, Except.bind_ok', this]

theorem left_length {c : Cfg} (hv : c.Valid) (f : List α) (h : c.kw ≤ f.length) : c.kw - c.stride ≤ (left c f).length := by
  have hs := hv.2.2
  unfold left nOut
  rw [if_neg (by omega), List.length_drop, Nat.add_mul]
  have := Nat.div_mul_le_self (f.length - c.kw) c.stride
  omega

/-- A later chunk finds enough frames in the buffer. -/
theorem later_input {c : Cfg} (hv : c.Valid) (hle : c.stride ≤ c.kw) {g : List α → β} {n1 n2 n3 : Nat} (h1 : c.kw ≤ c.padding + n1) {xs : List (ST α)} {x : ST α} (hx : Schedule (xs ++ [x]))
    {ys : List (ST β)} {buf : Buf α} (hrun : run c g (fun _ => none) xs = .ok (ys, buf))
    (hlong : ∀ z ∈ xs ++ [x], ∀ u ∈ unpack z, atLeast n1 n2 n3 u ≤ u.frames.length) (u : Chunk α) (hu : u ∈ unpack x) (hsos : u.sos = false) :
    c.kw - c.stride + (if u.eos = true then c.padding + n3 else n2) ≤ (inp c buf u).length := by
  obtain ⟨hinv, -⟩ := schedule_inv hv hle (schedule_prefix hx) hrun
  obtain ⟨a1, a2, a3⟩ := hx.1 x (by simp)
  obtain ⟨d, cur, h⟩ := hx.2 u.id
  rw [List.map_append, chunksOf_append, List.map_singleton, chunksOf_single_mem _ a2.2.1 u hu] at h
  obtain ⟨d', cur', h', hsos', -⟩ := history_concat h
  have hcur : cur' ≠ [] := fun hc => by rw [hsos'.2 hc] at hsos; simp at hsos
  have hopen := (hinv.opened u.id d' cur' h' hcur).1
  have hopn : Open cur' := by
    rcases h'.2.2 with h0 | h0
    · exact absurd h0 hcur
    · exact h0
  obtain ⟨v, vs, rfl⟩ := List.exists_cons_of_ne_nil hcur
  have hv1 : v.sos = true := (hopn.2.1 0 v rfl).2 rfl
  have hmem : v ∈ chunksOf u.id (xs.map unpack) := by rw [h'.1]; simp
  unfold chunksOf at hmem
  obtain ⟨l, hl, hul⟩ := List.mem_flatten.1 (List.mem_filter.1 hmem).1
  obtain ⟨w, hw, rfl⟩ := List.mem_map.1 hl
  have hvl := hlong w (by simp [hw]) v hul
  rw [atLeast, if_pos hv1] at hvl
  have hul' := hlong x (by simp) u hu
  rw [atLeast, if_neg (by simp [hsos])] at hul'
  have hb := left_length hv (zeros c.padding ++ allFrames (v :: vs)) (by
    simp only [allFrames, List.flatMap_cons, List.length_append, zeros_length]
    omega)
  rw [← hopen] at hb
  unfold inp
  rw [if_neg (show ¬(u.sos = true) by simp [hsos])]
  split at hul' <;> rename_i he
  · rw [if_pos he, if_pos he]
    simp only [List.length_append, zeros_length]
    omega
  · rw [if_neg he, if_neg he]
    simp only [List.length_append, List.length_nil]
    omega

theorem nOut_later {c : Cfg} (hv : c.Valid) {n2 n : Nat} (h2 : c.stride ≤ n2) (hle : c.stride ≤ c.kw) (h : c.kw - c.stride + n2 ≤ n) : n2 / c.stride ≤ nOut c n := by
  have hs := hv.2.2
  unfold nOut
  rw [if_neg (by omega)]
  have h3 : (n2 - c.stride) / c.stride ≤ (n - c.kw) / c.stride := Nat.div_le_div_right (by omega)
  have h4 : n2 / c.stride = (n2 - c.stride) / c.stride + 1 := Nat.div_eq_sub_div hs h2
  omega

/-- One convolution over a schedule of chunks that are long enough (`n1` frames for first chunks, `n3` for last ones, `n2` for the others): no call raises, and the outputs are long enough. -/
theorem run_field {c : Cfg} (hv : c.Valid) (hs : c.stride < c.kw ∨ c.kw = 1 ∧ c.stride = 1) (g : List α → β) (n1 n2 n3 : Nat) (hn0 : 1 ≤ n1) (hn : c.kw ≤ c.padding + n1) (hn2 : c.stride ≤ n2) (hn3 : c.stride ≤ c.padding + n3) (hn4 : 1 ≤ n3)
    (xs : List (ST α)) (hx : Schedule xs) (hlong : ∀ x ∈ xs, ∀ u ∈ unpack x, atLeast n1 n2 n3 u ≤ u.frames.length) :
    ∃ ys buf, run c g (fun _ => none) xs = .ok (ys, buf) ∧
      ∀ y ∈ ys, ∀ v ∈ unpack y, atLeast (nOut c (c.padding + n1)) (n2 / c.stride) ((c.padding + n3) / c.stride) v ≤ v.frames.length := by
  have hk1 : 1 ≤ c.kw := by
    have := hv.1
    unfold Cfg.kw
    omega
  have hst := hv.2.2
  have hle : c.stride ≤ c.kw := by omega
  obtain ⟨m, hm⟩ : ∃ m, xs.length = m := ⟨_, rfl⟩
  induction m generalizing xs with
  | zero =>
    rw [List.length_eq_zero_iff.1 hm]
    exact ⟨[], _, rfl, by simp⟩
  | succ m ih =>
    obtain ⟨xs, x, rfl⟩ : ∃ l a, xs = l ++ [a] := by
      rcases List.eq_nil_or_concat xs with h | ⟨l, a, h⟩
      · simp [h] at hm
      · exact ⟨l, a, by rw [h, List.concat_eq_append]⟩
    obtain ⟨ys, buf, hrun, hout⟩ := ih xs (schedule_prefix hx) (fun z hz => hlong z (by simp [hz])) (by simpa using hm)
    have hno : (stacked c buf (unpack x) && (unpack x).any (fun y => (buf y.id).isNone)) = false := by
      rcases hs with hs | hs
      · exact no_missing hv hs hx hrun (.inr fun z hz y hy h0 => by
          have := hlong z (by simp [hz]) y hy
          rw [h0, atLeast] at this
          split at this
          · simp at this; omega
          · split at this <;> simp at this <;> omega)
      · unfold stacked
        rw [hs.1]
        rfl
    obtain ⟨w', h1, -, -, h3⟩ := next_call (g := g) hv hx hrun
    obtain ⟨a1, a2, a3⟩ := hx.1 x (by simp)
    have hfirst : ∀ u ∈ unpack x, u.sos = true → c.padding + n1 ≤ (inp c buf u).length := by
      intro u hu hsos
      have := hlong x (by simp) u hu
      rw [atLeast, if_pos hsos] at this
      unfold inp
      rw [if_pos hsos]
      simp only [List.length_append, zeros_length]
      omega
    have hlater : ∀ u ∈ unpack x, u.sos = false → c.kw - c.stride + (if u.eos = true then c.padding + n3 else n2) ≤ (inp c buf u).length :=
      fun u hu hsos => later_input hv hle hn hx hrun hlong u hu hsos
    obtain ⟨o, ho⟩ := (h3 hno).2 (by
      obtain ⟨u, hu⟩ := List.exists_mem_of_ne_nil _ a2.1
      have e1 := h1 u hu
      cases hsos : u.sos with
      | true =>
        have e2 := hfirst u hu hsos
        omega
      | false =>
        have e2 := hlater u hu hsos
        split at e2 <;> omega)
    refine ⟨_, _, run_append xs _ ys buf hrun ho, ?_⟩
    intro y hy v hvm
    rcases List.mem_append.1 hy with hy | hy
    · exact hout y hy v hvm
    · rw [List.mem_singleton] at hy
      subst hy
      obtain ⟨hinv, -⟩ := schedule_inv hv hle (schedule_prefix hx) hrun
      have hpre := inv_preOK hinv.general a2 a1.2.2.2.1 (by simpa using hx.2)
      have ho' := ho
      rw [packs_pk a1] at ho'
      obtain ⟨b', w'', e1, hb', h2, -⟩ := forward_ok c hv g buf _ x.width (unpack x) a2.1 hpre (.inr (.inr (.inr a3.reaches))) a2.2.1 o ho'
      have hidx : ∀ z ∈ (unpack x).map (fun z : Chunk α => z.set b' (conv c g (inp c buf z))), z.index.isSome = b' := by
        intro z hz
        obtain ⟨y, hy, rfl⟩ := List.mem_map.1 hz
        have hiy := packs_index a1 y hy
        simp only [Chunk.set]
        cases hbb : b' with
        | false => simp
        | true =>
          rw [hbb] at hb'
          have := (Bool.and_eq_true _ _ ▸ hb'.symm : _ ∧ _).1
          simp [hiy, this]
      rw [e1, unpack_pk _ _ _ hidx] at hvm
      obtain ⟨u, hu, rfl⟩ := List.mem_map.1 hvm
      show (if u.sos = true then nOut c (c.padding + n1) else if u.eos = true then (c.padding + n3) / c.stride else n2 / c.stride) ≤ (conv c g (inp c buf u)).length
      rw [conv_length c hv]
      cases hsos : u.sos with
      | true => exact nOut_mono c hv (hfirst u hu hsos)
      | false =>
        have := hlater u hu hsos
        cases he : u.eos with
        | true =>
          rw [he] at this
          exact nOut_later hv hn3 hle this
        | false =>
          rw [he] at this
          exact nOut_later hv hn2 hle this

end

section
variable {α : Type} [Zero α]

theorem chainRun_cons_ok {l : Layer α} {b b' : Buf α} {s t' : List (Layer α × Buf α)} {xs ys zs : List (ST α)}
    (h1 : layerRun l b xs = .ok (ys, b')) (h2 : chainRun s ys = .ok (zs, t')) : chainRun ((l, b) :: s) xs = .ok (zs, (l, b') :: t') := by
  induction xs generalizing b s ys zs with
  | nil =>
    simp only [layerRun, Except.ok.injEq, Prod.mk.injEq] at h1
    obtain ⟨rfl, rfl⟩ := h1
    simp only [chainRun, Except.ok.injEq, Prod.mk.injEq] at h2 ⊢
    exact ⟨h2.1, by rw [h2.2]⟩
  | cons x xs ih =>
    simp only [layerRun] at h1
    obtain ⟨⟨y, b1⟩, h3, h1⟩ := bind_ok_iff h1
    obtain ⟨⟨ys', b2⟩, h4, h1⟩ := bind_ok_iff h1
    simp only [Except.ok.injEq, Prod.mk.injEq] at h1
    obtain ⟨rfl, rfl⟩ := h1
    simp only [chainRun] at h2
    obtain ⟨⟨z, s1⟩, h5, h2⟩ := bind_ok_iff h2
    obtain ⟨⟨zs', s2⟩, h6, h2⟩ := bind_ok_iff h2
    simp only [Except.ok.injEq, Prod.mk.injEq] at h2
    obtain ⟨rfl, rfl⟩ := h2
    have := ih h4 h6
    simp only [chainRun, chainStep, h3, Except.bind_ok', h5, this]

/-- Non-empty chunks and distinct ids are all a batch needs. -/
theorem batchOK_of {cs : List (Chunk α)} (hne : cs ≠ []) (hnd : (cs.map (·.id)).Nodup) (h : ∀ u ∈ cs, 1 ≤ u.frames.length) : BatchOK cs := by
  refine ⟨hne, hnd, .inr ?_⟩
  intro u hu h0
  have := h u hu
  rw [h0] at this
  simp at this

theorem batch_flags {cs ds : List (Chunk α)} (h : ds.map Chunk.flags = cs.map Chunk.flags) (hb : BatchOK cs) (hl : ∀ u ∈ ds, 1 ≤ u.frames.length) : BatchOK ds := by
  refine batchOK_of ?_ ?_ hl
  · intro h0
    subst h0
    exact hb.1 (by simpa using h.symm)
  · have := congrArg (List.map fun f : String × Bool × Bool => f.1) h
    simp only [List.map_map] at this
    have h1 : ds.map (·.id) = cs.map (·.id) := this
    rw [h1]
    exact hb.2.1

/-- The whole stack: every layer runs through, and no layer gets an empty chunk. -/
theorem stack_field (ls : List (Layer α)) (clean : Bool) (hl : StackOK clean ls) (ho : Overlapping ls) (xs : List (ST α)) (hx : ScheduleUp xs) (hcl : clean = true → ∀ x ∈ xs, WellPacked x)
    (hlong : ∀ x ∈ xs, ∀ u ∈ unpack x, atLeast (need ls) (jump ls) (rest ls) u ≤ u.frames.length) :
    Fine ls xs ∧ ∃ zs t, chainRun (fresh ls) xs = .ok (zs, t) ∧ ∀ z ∈ zs, ∀ v ∈ unpack z, 1 ≤ v.frames.length := by
  induction ls generalizing xs clean with
  | nil => exact ⟨trivial, xs, [], chainRun_nil xs, fun z hz v hv => by have := hlong z hz v hv; simpa [need, jump, rest, atLeast] using this⟩
  | cons l ls ih =>
    have key : ∃ ys b, layerRun l (fun _ => none) xs = .ok (ys, b) ∧ Overlapping ls ∧ ∀ y ∈ ys, ∀ v ∈ unpack y, atLeast (need ls) (jump ls) (rest ls) v ≤ v.frames.length := by
      cases l with
      | conv c g =>
        obtain ⟨h1, h3, h4⟩ := hl
        obtain ⟨o1, o2⟩ := ho
        rw [span_eq c h1] at o1
        have hf : c.kw + (need ls - 1) * c.stride ≤ c.padding + need (.conv c g :: ls) := by
          rw [need_conv, span_eq c h1]
          omega
        have hst := h1.2.2
        have hn1 : need ls ≤ nOut c (c.padding + need (.conv c g :: ls)) := by
          have h5 := need_pos ls
          unfold nOut
          rw [if_neg (by omega)]
          have : need ls - 1 ≤ (c.padding + need (.conv c g :: ls) - c.kw) / c.stride := by
            rw [Nat.le_div_iff_mul_le hst]
            omega
          omega
        have hn2 : jump (.conv c g :: ls) / c.stride = jump ls := by
          rw [jump_conv, Nat.mul_div_cancel_left _ hst]
        have hj : c.stride ≤ jump (.conv c g :: ls) := by
          rw [jump_conv]
          exact Nat.le_mul_of_pos_right _ (jump_pos ls true h4)
        have hr : c.stride * rest ls ≤ c.padding + rest (.conv c g :: ls) := by
          rw [rest_conv]
          omega
        have hr1 : c.stride ≤ c.stride * rest ls := Nat.le_mul_of_pos_right _ (rest_pos ls)
        have hn3 : rest ls ≤ (c.padding + rest (.conv c g :: ls)) / c.stride := by
          rw [Nat.le_div_iff_mul_le hst, Nat.mul_comm]
          exact hr
        have hup : ∀ v : Chunk α, atLeast (nOut c (c.padding + need (.conv c g :: ls))) (jump (.conv c g :: ls) / c.stride) ((c.padding + rest (.conv c g :: ls)) / c.stride) v ≤ v.frames.length →
            atLeast (need ls) (jump ls) (rest ls) v ≤ v.frames.length := by
          intro v h
          rw [hn2] at h
          unfold atLeast at h ⊢
          split at h <;> rename_i h0
          · rw [if_pos h0]; omega
          · rw [if_neg h0]
            split at h <;> rename_i h6
            · rw [if_pos h6]; omega
            · rw [if_neg h6]; exact h
        have hs : c.stride < c.kw ∨ c.kw = 1 ∧ c.stride = 1 := by
          have h6 := h1.2.2
          omega
        rcases h3 with hc | hp
        · obtain ⟨ys, b, e1, e2⟩ := run_field h1 hs g _ _ _ (need_pos _) (Nat.le_trans (Nat.le_add_right _ _) hf) hj (Nat.le_trans hr1 hr) (rest_pos _) xs ⟨fun x hm => ⟨hcl hc x hm, (hx.1 x hm).2⟩, hx.2⟩ hlong
          exact ⟨ys, b, by rw [layerRun_conv]; exact e1, o2, fun y hy v hv => hup v (e2 y hy v hv)⟩
        · obtain ⟨u1, u2⟩ := up_zeroed hx
          obtain ⟨ys, b, e1, e2⟩ := run_field h1 hs g _ _ _ (need_pos _) (Nat.le_trans (Nat.le_add_right _ _) hf) hj (Nat.le_trans hr1 hr) (rest_pos _) (xs.map zeroed) u1 (by
            intro x hm
            obtain ⟨x0, h0, rfl⟩ := List.mem_map.1 hm
            rw [unpack_zeroed (hx.1 x0 h0).1]
            exact hlong x0 h0)
          refine ⟨ys, b, ?_, o2, fun y hy v hv => hup v (e2 y hy v hv)⟩
          rw [layerRun_conv, run_zeroed c h1 hp g xs (fun x hm => (hx.1 x hm).1)]
          exact e1
      | act f =>
        refine ⟨_, _, layerRun_act f _ xs, ho, ?_⟩
        intro y hy v hvm
        obtain ⟨x, hxm, rfl⟩ := List.mem_map.1 hy
        rw [unpack_act] at hvm
        obtain ⟨u, hu, rfl⟩ := List.mem_map.1 hvm
        have := hlong x hxm u hu
        rw [need_act, jump_act, rest_act] at this
        simpa [atLeast] using this
    obtain ⟨ys, b, e1, e2, e3⟩ := key
    have hclear : l.Clear xs := by
      cases l with
      | conv c g =>
        refine dense_clear (l := .conv c g) hl.1 ?_ xs
        have := ho.1
        show c.stride ≤ span c
        omega
      | act f => trivial
    obtain ⟨⟨clean', k1, k2⟩, a1, a2, a3⟩ := layer_up hl hclear hx hcl e1
    have hb : ∀ y ∈ ys, BatchOK (unpack y) := by
      intro y hy
      obtain ⟨k, hk⟩ := List.getElem?_of_mem hy
      have h1 := congrArg (·[k]?) a2
      simp only [List.getElem?_map, hk, Option.map_some] at h1
      cases hxk : xs[k]? with
      | none => simp [hxk] at h1
      | some x =>
        simp only [hxk, Option.map_some, Option.some.injEq] at h1
        refine batch_flags h1 (hx.1 x (List.mem_of_getElem? hxk)).2.1 fun u hu => Nat.le_trans ?_ (e3 y hy u hu)
        unfold atLeast
        split
        · exact need_pos ls
        · split
          · exact rest_pos ls
          · exact jump_pos ls clean' k1
    have hsy : ScheduleUp ys := by
      refine ⟨fun y hy => ⟨(a1 y hy).1, hb y hy, (a1 y hy).2⟩, fun i => ?_⟩
      obtain ⟨done, cur, hh⟩ := hx.2 i
      obtain ⟨d, c, h', -⟩ := via_history hh (a3 i done cur hh)
      exact ⟨d, c, h'⟩
    obtain ⟨f1, zs, t, f2, f3⟩ := ih clean' k1 e2 ys hsy k2 e3
    refine ⟨⟨fun x hm => (hx.1 x hm).2.1, hclear, ?_⟩, zs, _, chainRun_cons_ok e1 f2, f3⟩
    intro ys' b' h'
    rw [e1] at h'
    simp only [Except.ok.injEq, Prod.mk.injEq] at h'
    rw [← h'.1]
    exact f1

/-- **C114.** For every stack of convolutions with strides below the kernel widths (and pointwise functions; those with `f 0 ≠ 0` not directly before a convolution with padding), and every schedule in which the first chunk of each
sequence is long enough for one output of the stack and every later chunk has at least as many frames as the total stride of the stack (last chunks may be shorter by what the end padding gives): no call raises, no output chunk is empty, and each stream's outputs are its offline output. -/
theorem C114_total_stride (ls : List (Layer α)) (hl : StackOK true ls) (ho : Overlapping ls) (xs : List (ST α)) (hx : Schedule xs)
    (hlong : ∀ x ∈ xs, ∀ u ∈ unpack x, atLeast (need ls) (jump ls) (rest ls) u ≤ u.frames.length) :
    ∃ zs t, chainRun (fresh ls) xs = .ok (zs, t) ∧ (∀ z ∈ zs, ∀ v ∈ unpack z, v.frames ≠ []) ∧
      ∀ i, Complete (chunksOf i (xs.map unpack)) → collected i zs = offlineChain ls (collected i xs) := by
  obtain ⟨h1, zs, t, h2, h3⟩ := stack_field ls true hl ho xs ⟨fun x hm => ⟨wp_shaped (hx.1 x hm).1, (hx.1 x hm).2⟩, hx.2⟩ (fun _ x hm => (hx.1 x hm).1) hlong
  refine ⟨zs, t, h2, ?_, fun i hc => C113_pointwise_partial ls hl xs hx h1 zs t h2 i hc⟩
  intro z hz v hv h0
  have := h3 z hz v hv
  rw [h0] at this
  simp at this

theorem need_le_field : ∀ ls : List (Layer α), need ls ≤ field ls
  | [] => Nat.le_refl 1
  | .conv c g :: ls => by
    have h1 := need_le_field ls
    have h2 : (need ls - 1) * c.stride ≤ (field ls - 1) * c.stride := Nat.mul_le_mul_right _ (by omega)
    have h3 : 1 ≤ span c := by unfold span; omega
    rw [need_conv, field_conv]
    omega
  | .act f :: ls => by rw [need_act, field_act]; exact need_le_field ls

theorem jump_le_field : ∀ (ls : List (Layer α)) (clean : Bool), StackOK clean ls → Overlapping ls → jump ls ≤ field ls
  | [], _, _, _ => Nat.le_refl 1
  | .conv c g :: ls, _, h, ho => by
    have h1 := jump_le_field ls true h.2.2 ho.2
    have h3 : c.stride ≤ span c := by have := ho.1; omega
    have h4 := field_pos ls
    have h5 : c.stride * jump ls ≤ c.stride * field ls := Nat.mul_le_mul_left _ h1
    have h6 : c.stride * field ls = c.stride + (field ls - 1) * c.stride := by
      rw [Nat.sub_mul, Nat.one_mul, Nat.mul_comm (field ls)]
      have : c.stride * 1 ≤ c.stride * field ls := Nat.mul_le_mul_left _ h4
      omega
    rw [jump_conv, field_conv]
    omega
  | .act f :: ls, _, h, ho => by
    rw [jump_act, field_act]
    rcases h with h | h
    · exact jump_le_field ls true h.2.2 ho
    · exact jump_le_field ls false h ho

/-- **C114**, in terms of the receptive field only: chunks of at least as many frames as the receptive field of the stack. -/
theorem C114_receptive_field (ls : List (Layer α)) (hl : StackOK true ls) (ho : Overlapping ls) (xs : List (ST α)) (hx : Schedule xs)
    (hlong : ∀ x ∈ xs, ∀ u ∈ unpack x, field ls ≤ u.frames.length) :
    ∃ zs t, chainRun (fresh ls) xs = .ok (zs, t) ∧ (∀ z ∈ zs, ∀ v ∈ unpack z, v.frames ≠ []) ∧
      ∀ i, Complete (chunksOf i (xs.map unpack)) → collected i zs = offlineChain ls (collected i xs) := by
  refine C114_total_stride ls hl ho xs hx fun x hm u hu => Nat.le_trans ?_ (hlong x hm u hu)
  unfold atLeast
  split
  · exact need_le_field ls
  · split
    · exact Nat.le_trans (rest_le_jump ls true hl) (jump_le_field ls true hl ho)
    · exact jump_le_field ls true hl ho

end

/-- The receptive field counts: with a field of `n`, an offline input of `n` frames gives one output. -/
example : field exLayers = 3 ∧ (offlineChain ([.conv ⟨3, 2, 2, 0⟩ exG, .conv ⟨2, 1, 1, 0⟩ exG] : List (Layer Int)) [1, 2, 3, 4, 5, 6, 7]).length = 1 ∧
    field ([.conv ⟨3, 2, 2, 0⟩ exG, .conv ⟨2, 1, 1, 0⟩ exG] : List (Layer Int)) = 7 := by decide

/-- Two streams whose chunks have at least three frames, in batches of changing composition. -/
def exLong : List (ST Int) :=
  [ { md := ⟨["a"], [true], [false], [3], none⟩, width := 3, rows := [[1, 2, 3]] },
    { md := ⟨["a", "b"], [false, true], [true, false], [4, 3], none⟩, width := 4, rows := [[4, 5, 6, 7], [7, 8, 9, 0]] },
    { md := ⟨["b"], [false], [true], [3], none⟩, width := 3, rows := [[1, 8, 9]] } ]

theorem exLong_schedule : Schedule exLong := by
  refine ⟨by decide, ?_⟩
  intro i
  by_cases ha : i = "a"
  · subst ha
    exact ⟨[[⟨"a", true, false, none, [1, 2, 3]⟩, ⟨"a", false, true, none, [4, 5, 6, 7]⟩]], [], by decide⟩
  · by_cases hb : i = "b"
    · subst hb
      exact ⟨[[⟨"b", true, false, none, [7, 8, 9]⟩, ⟨"b", false, true, none, [1, 8, 9]⟩]], [], by decide⟩
    · refine ⟨[], [], ?_⟩
      have : chunksOf i (exLong.map unpack) = [] := by
        unfold chunksOf
        rw [List.filter_eq_nil_iff]
        intro x hx
        have : ∀ x ∈ (exLong.map unpack).flatten, x.id = "a" ∨ x.id = "b" := by decide
        rcases this x hx with h | h <;> simp [h, Ne.symm ha, Ne.symm hb]
      rw [this]
      exact ⟨rfl, by simp, .inl rfl⟩

example : (∀ x ∈ exLong, ∀ u ∈ unpack x, field exLayers ≤ u.frames.length) ∧ Complete (chunksOf "a" (exLong.map unpack)) ∧ Complete (chunksOf "b" (exLong.map unpack)) := by decide
example : StackOK true exLayers ∧ Overlapping exLayers :=
  ⟨⟨by decide, .inl rfl, .inl ⟨rfl, rfl, by decide, .inl rfl, trivial⟩⟩, .inl (by decide), .inl (by decide), trivial⟩
example : ((chainRun (fresh exLayers) exLong).map fun r => (collected "a" r.1, collected "b" r.1)) =
    .ok (offlineChain exLayers [1, 2, 3, 4, 5, 6, 7], offlineChain exLayers [7, 8, 9, 1, 8, 9]) := by decide

/-- Short later chunks: two convolutions with strides 2 and 1, first chunks of at least 4 frames, later ones of at least 2, last ones of at least 1. -/
def exStrided : List (Layer Int) := [.conv ⟨3, 1, 2, 1⟩ exG, .conv ⟨2, 1, 1, 0⟩ exG]

example : need exStrided = 4 ∧ jump exStrided = 2 ∧ rest exStrided = 1 ∧ field exStrided = 5 := by decide
example : StackOK true exStrided ∧ Overlapping exStrided :=
  ⟨⟨by decide, .inl rfl, by decide, .inl rfl, trivial⟩, .inl (by decide), .inl (by decide), trivial⟩
example : ((chainRun (fresh exStrided) [{ md := ⟨["a"], [true], [false], [4], none⟩, width := 4, rows := [[1, 2, 3, 4]] },
      { md := ⟨["b", "a"], [true, false], [false, false], [5, 2], none⟩, width := 5, rows := [[1, 2, 3, 4, 5], [5, 6, 0, 0, 0]] },
      { md := ⟨["a", "b"], [false, false], [true, true], [1, 3], none⟩, width := 3, rows := [[7, 0, 0], [6, 7, 8]] }]).map fun r => (collected "a" r.1, collected "b" r.1)) =
    .ok (offlineChain exStrided [1, 2, 3, 4, 5, 6, 7], offlineChain exStrided [1, 2, 3, 4, 5, 6, 7, 8]) := by decide

/-- The layers of torchaudio's `Wav2Letter` for waveforms as published (the class is not part of this repository; examples/wav2letter.py uses it), over integers. -/
def wav2letter (g : Nat → List Int → Int) (relu logSoftmax : Int → Int) : List (Layer Int) :=
  [.conv ⟨250, 1, 160, 45⟩ (g 0), .act relu, .conv ⟨48, 1, 2, 23⟩ (g 1), .act relu, .conv ⟨7, 1, 1, 3⟩ (g 2), .act relu, .conv ⟨7, 1, 1, 3⟩ (g 3), .act relu, .conv ⟨7, 1, 1, 3⟩ (g 4), .act relu,
    .conv ⟨7, 1, 1, 3⟩ (g 5), .act relu, .conv ⟨7, 1, 1, 3⟩ (g 6), .act relu, .conv ⟨7, 1, 1, 3⟩ (g 7), .act relu, .conv ⟨7, 1, 1, 3⟩ (g 8), .act relu, .conv ⟨32, 1, 1, 16⟩ (g 9), .act relu,
    .conv ⟨1, 1, 1, 0⟩ (g 10), .act relu, .conv ⟨1, 1, 1, 0⟩ (g 11), .act logSoftmax]

/-- For that network first chunks need 15565 frames, later ones 320 and last ones 115 (the example draws sizes of at least 16000, but the last piece of a sequence can be shorter). -/
example (g : Nat → List Int → Int) (relu logSoftmax : Int → Int) : need (wav2letter g relu logSoftmax) = 15565 ∧ jump (wav2letter g relu logSoftmax) = 320 ∧
    rest (wav2letter g relu logSoftmax) = 115 := by
  refine ⟨?_, ?_, ?_⟩ <;> simp [wav2letter, need, jump, rest, span]

end DS.Conv
