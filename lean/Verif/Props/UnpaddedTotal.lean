import Verif.Props.Unpadded
import Verif.Props.Latency
import Verif.Props.ConvField
/-! C58 and C202 for stacks without padding: which calls raise, and when the outputs come. -/

namespace DS.Conv
open Meta
section
variable {α β : Type} [Zero α] [Zero β]

/-- In every call some stream of the batch gets a new output, where `f` says what there is for the frames received. -/
def Lively (f : List α → List β) (xs : List (ST α)) : Prop :=
  ∀ P x Q, xs = P ++ x :: Q → ∃ u ∈ unpack x, (f (collected u.id P)).length < (f (collected u.id (P ++ [x]))).length

/-- In every call all streams start, or all have had a chunk before, or there was already something for one of them. -/
def Warm (f : List α → List β) (xs : List (ST α)) : Prop :=
  ∀ P x Q, xs = P ++ x :: Q → (∀ u ∈ unpack x, u.sos = true) ∨ (∀ u ∈ unpack x, chunksOf u.id (P.map unpack) ≠ []) ∨ ∃ u ∈ unpack x, f (collected u.id P) ≠ []

theorem once_prefix {p q : List (Chunk α)} (h : Once (p ++ q)) : Once p := by
  intro a x b he
  obtain ⟨h1, h2⟩ := h a x (b ++ q) (by rw [he]; simp)
  exact ⟨h1, fun hx => (List.append_eq_nil_iff.1 (h2 hx)).1⟩

theorem loose_prefix {P Q : List (ST α)} (h : Loose (P ++ Q)) : Loose P := by
  refine ⟨fun x hx => h.1 x (by simp [hx]), fun i => ?_⟩
  have := h.2 i
  rw [List.map_append, chunksOf_append] at this
  exact once_prefix this

theorem collected_append (i : String) (P Q : List (ST α)) : collected i (P ++ Q) = collected i P ++ collected i Q := by
  unfold collected
  rw [List.map_append, chunksOf_append, allFrames_append]

theorem collected_one {x : ST α} (hnd : ((unpack x).map (·.id)).Nodup) {u : Chunk α} (hu : u ∈ unpack x) : collected u.id [x] = u.frames := by
  unfold collected
  rw [List.map_singleton, chunksOf_single_mem _ hnd u hu, allFrames_single]

theorem collected_zeroed {xs : List (ST α)} (h : ∀ x ∈ xs, Shaped x) (i : String) : collected i (xs.map zeroed) = collected i xs := by
  unfold collected
  rw [List.map_map]
  congr 2
  exact List.map_congr_left fun x hx => unpack_zeroed (h x hx)

theorem offline_unpadded {c : Cfg} (hp : c.padding = 0) (g : List α → β) (x : List α) : offline c g x = conv c g x := by
  unfold offline
  simp [hp, zeros]

theorem left_ne {c : Cfg} (hv : c.Valid) (hs : c.stride < span c) (x : List α) (h : x ≠ []) : left c x ≠ [] := by
  intro h0
  have hx : 0 < x.length := List.length_pos_iff.2 h
  rw [span_eq c hv] at hs
  by_cases hk : c.kw ≤ x.length
  · have := left_length hv x hk
    rw [h0] at this
    simp at this
    omega
  · unfold left nOut at h0
    rw [if_pos (by omega)] at h0
    simp at h0
    exact h h0

/-- One more call of a convolution without padding. -/
theorem next_unpadded {c : Cfg} (hv : c.Valid) (hs : c.stride < span c) (hp : c.padding = 0) (g : List α → β) {P : List (ST α)} {x : ST α}
    (hx : ∀ z ∈ P ++ [x], WellPacked z ∧ unpack z ≠ [] ∧ ((unpack z).map (·.id)).Nodup) (ho : ∀ i, Once (chunksOf i ((P ++ [x]).map unpack)))
    {ys : List (ST β)} {buf : Buf α} (hr : run c g (fun _ => none) P = .ok (ys, buf))
    (hl : ∃ u ∈ unpack x, (conv c g (collected u.id P)).length < (conv c g (collected u.id (P ++ [x]))).length)
    (hw : (∀ u ∈ unpack x, u.sos = true) ∨ (∀ u ∈ unpack x, chunksOf u.id (P.map unpack) ≠ []) ∨ ∃ u ∈ unpack x, collected u.id P ≠ []) : ∃ o, forward c g buf x = .ok o := by
  obtain ⟨-, -, -, hB⟩ := run_once c hv (Nat.le_of_lt hs) hp g P [] (fun _ => none) (fun z hz => hx z (by simp [hz]))
    (by
      intro i
      have := ho i
      rw [List.map_append, chunksOf_append] at this
      rw [List.nil_append]
      exact once_prefix this) (by intro i _; simp [chunksOf, allFrames, left]) ys buf hr
  rw [List.nil_append] at hB
  obtain ⟨a1, a2, a3⟩ := hx x (by simp)
  obtain ⟨w', h1, -, h3⟩ := forward_any c hv g buf x.md.chunk.isSome x.width (unpack x) a2 a1.2.2.2.1 (.inl hp)
  rw [← packs_pk a1] at h3
  have hopen : ∀ u ∈ unpack x, (u.sos = true → chunksOf u.id (P.map unpack) = []) ∧ (buf u.id).getD [] = left c (collected u.id P) ∧
      (1 < span c → chunksOf u.id (P.map unpack) ≠ [] → (buf u.id).isSome = true) := by
    intro u hu
    have hou := ho u.id
    rw [List.map_append, chunksOf_append, List.map_singleton, chunksOf_single_mem _ a3 u hu] at hou
    obtain ⟨e1, e2⟩ := once_mid hou
    exact ⟨e1, hB u.id e2⟩
  have hst : ¬ (stacked c buf (unpack x) && (unpack x).any (fun x => (buf x.id).isNone)) = true := by
    intro h
    rw [Bool.and_eq_true, stacked_iff c hv, List.any_eq_true] at h
    obtain ⟨⟨hm, hu⟩, v, hv', hn⟩ := h
    rcases hw with hw | hw | ⟨u, hu', hne⟩
    · obtain ⟨-, y, hy, hys⟩ := hm
      rw [hw y hy] at hys
      cases hys
    · have := (hopen v hv').2.2 hm.1 (hw v hv')
      rw [Option.isNone_iff_eq_none.1 hn] at this
      cases this
    · refine hu ⟨u, hu', v, hv', ?_⟩
      rw [(hopen u hu').2.1, Option.isNone_iff_eq_none.1 hn]
      have := List.length_pos_iff.2 (left_ne hv hs _ hne)
      simp
      exact left_ne hv hs _ hne
  obtain ⟨u, hu, hgrow⟩ := hl
  have hin : c.kw ≤ (input c buf (unpack x) u).length := by
    have hi : input c buf (unpack x) u = left c (collected u.id P) ++ u.frames := by
      rw [input_unpadded hp]
      congr 1
      by_cases hm : Mixes c (unpack x)
      · rw [if_pos hm]
        exact (hopen u hu).2.1
      · rw [if_neg hm]
        by_cases hk : 1 < span c
        · have hsos : u.sos = true := by
            by_contra hc
            exact hm ⟨hk, u, hu, by simpa using hc⟩
          unfold collected
          rw [(hopen u hu).1 hsos]
          exact (left_none c).symm
        · have := hv.2.2
          omega
    rw [hi]
    rw [collected_append, collected_one a3 hu, conv_left c hv g _ _ (dense_gap (Nat.le_of_lt hs) _), List.length_append] at hgrow
    have : 0 < (conv c g (left c (collected u.id P) ++ u.frames)).length := by omega
    rw [conv_length c hv, lt_nOut c hv] at this
    omega
  have := h1 u hu
  rw [if_neg hst, if_neg (by omega)] at h3
  exact ⟨_, h3⟩

theorem run_total {c : Cfg} (hv : c.Valid) (hs : c.stride < span c) (hp : c.padding = 0) (g : List α → β) {xs : List (ST α)} (hx : Loose xs)
    (hl : Lively (offline c g) xs) (hw : Warm id xs) : ∃ ys buf, run c g (fun _ => none) xs = .ok (ys, buf) := by
  obtain ⟨n, hn⟩ : ∃ n, xs.length = n := ⟨_, rfl⟩
  induction n generalizing xs with
  | zero =>
    rw [List.length_eq_zero_iff.1 hn]
    exact ⟨[], _, rfl⟩
  | succ n ih =>
    obtain ⟨xs, x, rfl⟩ : ∃ l a, xs = l ++ [a] := by
      rcases List.eq_nil_or_concat xs with h | ⟨l, a, h⟩
      · simp [h] at hn
      · exact ⟨l, a, by rw [h, List.concat_eq_append]⟩
    obtain ⟨ys, buf, hr⟩ := ih (loose_prefix hx) (fun P z Q h => hl P z (Q ++ [x]) (by rw [h]; simp)) (fun P z Q h => hw P z (Q ++ [x]) (by rw [h]; simp)) (by simpa using hn)
    have hsh : ∀ z ∈ xs ++ [x], Shaped z := fun z hz => (hx.1 z hz).1
    have hsh' : ∀ z ∈ xs, Shaped z := fun z hz => hsh z (by simp [hz])
    rw [run_zeroed c hv hp g xs hsh'] at hr
    have hz : ((xs.map zeroed) ++ [zeroed x]) = (xs ++ [x]).map zeroed := by simp
    have hu := unpack_zeroed (hsh x (by simp))
    obtain ⟨o, ho⟩ := next_unpadded (P := xs.map zeroed) (x := zeroed x) hv hs hp g
      (by
        rw [hz]
        intro z hzm
        obtain ⟨y, hy, rfl⟩ := List.mem_map.1 hzm
        obtain ⟨b1, b2, b3⟩ := hx.1 y hy
        rw [unpack_zeroed b1]
        exact ⟨zeroed_wp b1, b2, b3⟩)
      (by
        intro i
        rw [hz, List.map_map]
        have : (xs ++ [x]).map (unpack ∘ zeroed) = (xs ++ [x]).map unpack := List.map_congr_left fun y hy => unpack_zeroed (hsh y hy)
        rw [this]
        exact hx.2 i) hr
      (by
        rw [hu, hz]
        obtain ⟨u, hum, h⟩ := hl xs x [] rfl
        refine ⟨u, hum, ?_⟩
        rw [collected_zeroed hsh', collected_zeroed hsh, ← offline_unpadded hp, ← offline_unpadded hp]
        exact h)
      (by
        rw [hu]
        have hc : (xs.map zeroed).map unpack = xs.map unpack := by
          rw [List.map_map]
          exact List.map_congr_left fun y hy => unpack_zeroed (hsh' y hy)
        rw [hc]
        rcases hw xs x [] rfl with h | h | ⟨u, hum, h⟩
        · exact .inl h
        · exact .inr (.inl h)
        · refine .inr (.inr ⟨u, hum, ?_⟩)
          rw [collected_zeroed hsh']
          exact h)
    refine ⟨ys ++ [o.y], o.buf, ?_⟩
    rw [run_zeroed c hv hp g _ hsh, ← hz]
    exact run_append _ _ _ _ hr ho

end

section
variable {α : Type} [Zero α]

theorem layerRun_split {l : Layer α} {y : ST α} {Q' : List (ST α)} {b' : Buf α} : ∀ {P' : List (ST α)} {b : Buf α} {xs : List (ST α)},
    layerRun l b xs = .ok (P' ++ y :: Q', b') → ∃ P x Q b1 b2, xs = P ++ x :: Q ∧ layerRun l b P = .ok (P', b1) ∧ l.step b1 x = .ok (y, b2) ∧
      layerRun l b (P ++ [x]) = .ok (P' ++ [y], b2) := by
  intro P'
  induction P' with
  | nil =>
    intro b xs h
    cases xs with
    | nil => simp [layerRun] at h
    | cons x xs =>
      simp only [layerRun] at h
      obtain ⟨⟨y1, b1⟩, h1, h⟩ := bind_ok_iff h
      obtain ⟨⟨ys', b2⟩, h2, h⟩ := bind_ok_iff h
      simp only [List.nil_append, Except.ok.injEq, Prod.mk.injEq, List.cons.injEq] at h
      obtain ⟨⟨rfl, -⟩, -⟩ := h
      exact ⟨[], x, xs, b, b1, rfl, rfl, h1, by simp [layerRun, h1, Except.bind_ok']⟩
  | cons z P' ih =>
    intro b xs h
    cases xs with
    | nil => simp [layerRun] at h
    | cons x xs =>
      simp only [layerRun] at h
      obtain ⟨⟨y1, b1⟩, h1, h⟩ := bind_ok_iff h
      obtain ⟨⟨ys', b2⟩, h2, h⟩ := bind_ok_iff h
      simp only [List.cons_append, Except.ok.injEq, Prod.mk.injEq, List.cons.injEq] at h
      obtain ⟨⟨rfl, rfl⟩, rfl⟩ := h
      obtain ⟨P, x', Q, c1, c2, rfl, h3, h4, h5⟩ := ih h2
      exact ⟨x :: P, x', Q, c1, c2, rfl, by simp [layerRun, h1, h3, Except.bind_ok'], h4, by simp only [List.cons_append, layerRun, h1, Except.bind_ok', h5]⟩

theorem chainRun_split {x : ST α} {Q : List (ST α)} : ∀ {P : List (ST α)} {s : List (Layer α × Buf α)} {zs : List (ST α)} {t : List (Layer α × Buf α)},
    chainRun s (P ++ x :: Q) = .ok (zs, t) → ∃ Z z Z' t1 t2, zs = Z ++ z :: Z' ∧ chainRun s P = .ok (Z, t1) ∧ chainRun s (P ++ [x]) = .ok (Z ++ [z], t2) := by
  intro P
  induction P with
  | nil =>
    intro s zs t h
    simp only [List.nil_append, chainRun] at h
    obtain ⟨⟨z, s1⟩, h1, h⟩ := bind_ok_iff h
    obtain ⟨⟨zs', s2⟩, h2, h⟩ := bind_ok_iff h
    simp only [Except.ok.injEq, Prod.mk.injEq] at h
    obtain ⟨rfl, rfl⟩ := h
    exact ⟨[], z, zs', s, s1, rfl, rfl, by simp [chainRun, h1, Except.bind_ok']⟩
  | cons p P ih =>
    intro s zs t h
    simp only [List.cons_append, chainRun] at h
    obtain ⟨⟨z, s1⟩, h1, h⟩ := bind_ok_iff h
    obtain ⟨⟨zs', s2⟩, h2, h⟩ := bind_ok_iff h
    simp only [Except.ok.injEq, Prod.mk.injEq] at h
    obtain ⟨rfl, rfl⟩ := h
    obtain ⟨Z, z', Z', t1, t2, rfl, h3, h4⟩ := ih h2
    exact ⟨z :: Z, z', Z', t1, t2, rfl, by simp [chainRun, h1, h3, Except.bind_ok'], by simp only [List.cons_append, chainRun, h1, Except.bind_ok', h4]⟩

theorem conv1d_sos {c : Cfg} {g : List α → α} {x y : ST α} {it : List (String × List α)} (h : conv1d c g x = .ok (y, it)) : y.md.sos = x.md.sos := by
  unfold conv1d at h
  obtain ⟨⟨m, p, w, rows⟩, h1, h⟩ := bind_ok_iff h
  obtain ⟨⟨n, ys⟩, -, h⟩ := bind_ok_iff h
  simp only [Except.ok.injEq, Prod.mk.injEq] at h
  rw [← h.1]
  show m.sos = x.md.sos
  unfold applyPadding at h1
  split at h1
  · simp only at h1
    split at h1
    · simp only [Except.ok.injEq, Prod.mk.injEq] at h1
      rw [← h1.1]
    · obtain ⟨ml, -, h1⟩ := bind_ok_iff h1
      obtain ⟨⟨w', rows'⟩, -, h1⟩ := bind_ok_iff h1
      simp only [Except.ok.injEq, Prod.mk.injEq] at h1
      rw [← h1.1]
  · simp only [Except.ok.injEq, Prod.mk.injEq] at h1
    rw [← h1.1]

theorem step_sos {l : Layer α} {b b' : Buf α} {x y : ST α} (hx : x.md.allStarting = true) (h : l.step b x = .ok (y, b')) : y.md.sos = x.md.sos := by
  cases l with
  | act f =>
    simp only [Layer.step, Except.ok.injEq, Prod.mk.injEq] at h
    rw [← h.1]
  | conv c g =>
    have hf : ∃ o, forward c g b x = .ok o ∧ o.y = y := by
      simp only [Layer.step] at h
      cases hf : forward c g b x with
      | error e => rw [hf] at h; cases h
      | ok o =>
        rw [hf] at h
        simp only [Except.map, Except.ok.injEq, Prod.mk.injEq] at h
        exact ⟨o, rfl, h.1⟩
    obtain ⟨o, hf, rfl⟩ := hf
    unfold forward at hf
    rw [show preHook c b x = .ok (x, true) by simp [preHook, hx], Except.bind_ok'] at hf
    obtain ⟨⟨y, it⟩, h1, hf⟩ := bind_ok_iff hf
    simp only [Except.ok.injEq] at hf
    rw [← hf]
    exact conv1d_sos h1

theorem unpack_sos {x : ST α} (h : Shaped x) : (unpack x).map (·.sos) = x.md.sos := by
  rw [sos_rows _ h.1]
  unfold unpack
  rw [List.map_zipWith]
  have hl : x.md.rows.length = x.rows.length := by
    have := congrArg List.length (sos_rows _ h.1)
    rw [List.length_map, h.1.1] at this
    rw [← this, h.2.1]
  generalize x.md.rows = rs at hl
  generalize x.rows = fs at hl
  induction rs generalizing fs with
  | nil => simp
  | cons r rs ih =>
    cases fs with
    | nil => simp at hl
    | cons f fs => simpa using ih fs (by simpa using hl)

theorem allStarting_iff {x : ST α} (h : Shaped x) : x.md.allStarting = true ↔ ∀ u ∈ unpack x, u.sos = true := by
  unfold allStarting
  rw [← unpack_sos h]
  simp

/-! ### Layers -/

/-- As `Bare`, with strides below the kernel widths. -/
def Layer.Keeps : Layer α → Prop
  | .conv c _ => c.Valid ∧ c.stride < span c ∧ c.padding = 0
  | .act _ => True

theorem Layer.Keeps.bare {l : Layer α} (h : l.Keeps) : l.Bare := by
  cases l with
  | conv c g => exact ⟨h.1, Nat.le_of_lt h.2.1, h.2.2⟩
  | act f => trivial

theorem ready_conv {c : Cfg} (hp : c.padding = 0) (g : List α → α) (x : List α) : (offline c g x).length = (fits c (c.padding + x.length)).length := by
  rw [offline_unpadded hp]
  simp [conv, hp]

theorem chain_ready (ls : List (Layer α)) (hl : ∀ l ∈ ls, l.Bare) (x : List α) : (offlineChain ls x).length = ready ls x.length := by
  induction ls generalizing x with
  | nil => rfl
  | cons l ls ih =>
    show (offlineChain ls (l.offline x)).length = _
    rw [ih (fun l' h => hl l' (by simp [h]))]
    cases l with
    | conv c g =>
      have : (c.Valid ∧ c.stride ≤ span c ∧ c.padding = 0) := hl (.conv c g) (by simp)
      rw [ready, ← ready_conv this.2.2 g]
      rfl
    | act f =>
      rw [ready]
      congr 1
      exact List.length_map _

theorem fits_mono {c : Cfg} (hv : c.Valid) {m n : Nat} (h : m ≤ n) : (fits c m).length ≤ (fits c n).length := by
  rw [fits_eq c hv, fits_eq c hv, List.length_range, List.length_range]
  exact nOut_mono c hv h

theorem ready_zero (ls : List (Layer α)) (hl : ∀ l ∈ ls, l.Bare) : ready ls 0 = 0 := by
  induction ls with
  | nil => rfl
  | cons l ls ih =>
    have ih := ih (fun l' h => hl l' (by simp [h]))
    cases l with
    | conv c g =>
      have hb : (c.Valid ∧ c.stride ≤ span c ∧ c.padding = 0) := hl (.conv c g) (by simp)
      rw [ready]
      have : (fits c (c.padding + 0)).length = 0 := by
        rw [hb.2.2, Nat.add_zero, fits_eq c hb.1, List.length_range]
        have := lt_nOut c hb.1 0 0
        have hk := span_eq c hb.1
        unfold span at hk
        omega
      rw [this, ih]
    | act f => rw [ready, ih]

theorem layer_total {l : Layer α} (hk : l.Keeps) {xs : List (ST α)} (hx : Loose xs) (hl : Lively l.offline xs) (hw : Warm id xs) :
    ∃ ys b, layerRun l (fun _ => none) xs = .ok (ys, b) := by
  cases l with
  | conv c g =>
    rw [layerRun_conv]
    exact run_total hk.1 hk.2.1 hk.2.2 g hx hl hw
  | act f => exact ⟨_, _, layerRun_act f _ xs⟩

/-- The chunks of the outputs belong to the same streams as those of the inputs. -/
theorem layer_from {l : Layer α} (hk : l.Bare) {xs ys : List (ST α)} {b : Buf α} (hx : Loose xs) (h : layerRun l (fun _ => none) xs = .ok (ys, b)) :
    List.Forall₂ (List.Forall₂ From) (xs.map unpack) (ys.map unpack) := by
  cases l with
  | conv c g =>
    rw [layerRun_conv] at h
    exact (C53_unpadded c hk.1 hk.2.1 hk.2.2 g xs hx ys b h).2.1
  | act f =>
    rw [layerRun_act] at h
    simp only [Except.ok.injEq, Prod.mk.injEq] at h
    obtain ⟨rfl, -⟩ := h
    rw [List.map_map, List.forall₂_map_right_iff, List.forall₂_map_left_iff, List.forall₂_same]
    intro x _
    rw [Function.comp_apply, unpack_act, List.forall₂_map_right_iff, List.forall₂_same]
    exact fun u _ => ⟨rfl, id, id⟩

theorem forall2_last {A B : Type} {R : A → B → Prop} {p : List A} {x : A} {q : List B} {y : B} (h : List.Forall₂ R (p ++ [x]) (q ++ [y])) : R x y := by
  have := List.forall₂_reverse_iff.2 h
  simp only [List.reverse_append, List.reverse_cons, List.reverse_nil, List.nil_append, List.singleton_append] at this
  cases this with
  | cons h _ => exact h

/-- The calls of the next layer. -/
theorem layer_calls {l : Layer α} (hk : l.Bare) {xs ys : List (ST α)} {b : Buf α} (hx : Loose xs) (h : layerRun l (fun _ => none) xs = .ok (ys, b))
    {P' : List (ST α)} {y : ST α} {Q' : List (ST α)} (he : ys = P' ++ y :: Q') :
    ∃ P x Q, xs = P ++ x :: Q ∧ (∀ i, collected i P' = l.offline (collected i P)) ∧ (∀ i, collected i (P' ++ [y]) = l.offline (collected i (P ++ [x]))) ∧
      List.Forall₂ From (unpack x) (unpack y) ∧ ((∀ u ∈ unpack x, u.sos = true) → ∀ v ∈ unpack y, v.sos = true) ∧
      List.Forall₂ (List.Forall₂ From) (P.map unpack) (P'.map unpack) := by
  subst he
  obtain ⟨P, x, Q, b1, b2, rfl, h1, h2, h3⟩ := layerRun_split h
  have hx' : Loose (P ++ [x]) := by
    have := hx
    rw [show P ++ x :: Q = (P ++ [x]) ++ Q by simp] at this
    exact loose_prefix this
  obtain ⟨-, e1⟩ := layer_loose hk (loose_prefix hx') h1
  obtain ⟨e2, e3⟩ := layer_loose hk hx' h3
  have hf := layer_from hk hx' h3
  rw [List.map_append, List.map_append, List.map_singleton, List.map_singleton] at hf
  refine ⟨P, x, Q, rfl, e1, e3, forall2_last hf, ?_, layer_from hk (loose_prefix hx') h1⟩
  intro hs
  have hsx := (hx'.1 x (by simp)).1
  have hst := (allStarting_iff hsx).2 hs
  refine (allStarting_iff (e2.1 y (by simp)).1).1 ?_
  unfold allStarting at hst ⊢
  rw [step_sos hst h2]
  exact hst

/-! ### Stacks -/

/-- **C58, stacks without padding.** For strides below the kernel widths and streams of one sequence each, in batches of any kind and with chunks of any length: no call raises if in every call the ordinary stack has a new output for at least one stream of
the batch, and all streams of the batch start, or none is new, or one of them has already given the last layer a frame. The outputs are then right by `C62_unpadded_partial`. Missing: calls without new outputs, which raise (`C58_stack_needed_partial`), and batches of new streams and others of which none
has given a frame to some layer (C59). -/
theorem C58_stack_partial (ls : List (Layer α)) (hk : ∀ l ∈ ls, l.Keeps) (xs : List (ST α)) (hx : Loose xs) (hl : Lively (offlineChain ls) xs) (hw : Warm (offlineChain ls.dropLast) xs) :
    ∃ zs t, chainRun (fresh ls) xs = .ok (zs, t) := by
  induction ls generalizing xs with
  | nil => exact ⟨xs, _, chainRun_nil xs⟩
  | cons l ls ih =>
    have hkl := hk l (by simp)
    have hks : ∀ l' ∈ ls, l'.Keeps := fun l' h => hk l' (by simp [h])
    have hb : ∀ l' ∈ ls, l'.Bare := fun l' h => (hks l' h).bare
    obtain ⟨ys, b, h1⟩ := layer_total hkl hx
      (by
        intro P x Q he
        obtain ⟨u, hu, h⟩ := hl P x Q he
        refine ⟨u, hu, ?_⟩
        by_contra hc
        have hle : (l.offline (collected u.id P)).length ≤ (l.offline (collected u.id (P ++ [x]))).length := by
          cases l with
          | conv c g =>
            show (offline c g _).length ≤ (offline c g _).length
            rw [ready_conv hkl.2.2, ready_conv hkl.2.2]
            exact fits_mono hkl.1 (by rw [collected_append, List.length_append]; omega)
          | act f =>
            show (List.map f _).length ≤ (List.map f _).length
            rw [List.length_map, List.length_map, collected_append, List.length_append]
            omega
        have he : (l.offline (collected u.id P)).length = (l.offline (collected u.id (P ++ [x]))).length := by omega
        have h : (offlineChain ls (l.offline (collected u.id P))).length < (offlineChain ls (l.offline (collected u.id (P ++ [x])))).length := h
        rw [chain_ready ls hb, chain_ready ls hb, he] at h
        omega)
      (by
        intro P x Q he
        rcases hw P x Q he with h | h | ⟨u, hu, h⟩
        · exact .inl h
        · exact .inr (.inl h)
        · refine .inr (.inr ⟨u, hu, ?_⟩)
          intro h0
          have hbd : ∀ l' ∈ (l :: ls).dropLast, l'.Bare := fun l' h' => (hk l' (List.dropLast_subset _ h')).bare
          have := chain_ready _ hbd (collected u.id P)
          rw [show collected u.id P = [] from h0, List.length_nil, ready_zero _ hbd, List.length_eq_zero_iff] at this
          rw [show collected u.id P = [] from h0] at h
          exact h this)
    cases ls with
    | nil => exact ⟨ys, _, chainRun_cons_ok h1 (chainRun_nil ys)⟩
    | cons l' ls =>
      obtain ⟨zs, t, h2⟩ := ih hks ys (layer_loose hkl.bare hx h1).1
        (by
          intro P' y Q' he
          obtain ⟨P, x, Q, rfl, e1, e2, e3, -, -⟩ := layer_calls hkl.bare hx h1 he
          obtain ⟨u, hu, h⟩ := hl P x Q rfl
          obtain ⟨v, hv, hr⟩ := forall2_at e3 hu
          refine ⟨v, hv, ?_⟩
          rw [hr.1, e1, e2]
          exact h)
        (by
          intro P' y Q' he
          obtain ⟨P, x, Q, rfl, e1, e2, e3, e4, e5⟩ := layer_calls hkl.bare hx h1 he
          rcases hw P x Q rfl with h | h | ⟨u, hu, h⟩
          · exact .inl (e4 h)
          · refine .inr (.inl ?_)
            intro v hv h0
            obtain ⟨u, hu, hr⟩ := forall2_at e3.flip hv
            have hcf := chunksOf_from e5 v.id
            rw [h0] at hcf
            have h1 := h u hu
            rw [← hr.1] at h1
            cases hcc : chunksOf v.id (P.map unpack) with
            | nil => exact h1 hcc
            | cons a as => rw [hcc] at hcf; cases hcf
          · obtain ⟨v, hv, hr⟩ := forall2_at e3 hu
            refine .inr (.inr ⟨v, hv, ?_⟩)
            rw [hr.1, e1]
            exact h)
      exact ⟨zs, _, chainRun_cons_ok h1 h2⟩

theorem split_take {A : Type} {p : List A → A → Prop} {xs : List A} (h : ∀ k ∈ List.range xs.length, ∀ x ∈ xs[k]?, p (xs.take k) x) :
    ∀ P x Q, xs = P ++ x :: Q → p P x := by
  rintro P x Q rfl
  have := h P.length (by simp) x (by simp)
  simpa using this

theorem once_get {cs : List (Chunk α)} (h : ∀ k ∈ List.range cs.length, ∀ x ∈ cs[k]?, (x.sos = true → k = 0) ∧ (x.eos = true → k + 1 = cs.length)) : Once cs := by
  rintro P x Q rfl
  obtain ⟨h1, h2⟩ := h P.length (by simp) x (by simp)
  refine ⟨fun hx => List.length_eq_zero_iff.1 (h1 hx), fun hx => ?_⟩
  have := h2 hx
  simp only [List.length_append, List.length_cons] at this
  exact List.length_eq_zero_iff.1 (by omega)

theorem exLoose_loose : Loose exLoose := by
  refine ⟨fun x hx => ?_, fun i => ?_⟩
  · have h : ∀ x ∈ exLoose, WellPacked x ∧ unpack x ≠ [] ∧ ((unpack x).map (·.id)).Nodup := by decide +kernel
    exact ⟨wp_shaped (h x hx).1, (h x hx).2⟩
  · by_cases hi : i ∈ ["a", "b", "c"]
    · refine once_get ?_
      revert i
      decide +kernel
    · have : chunksOf i (exLoose.map unpack) = [] := by
        unfold chunksOf
        rw [List.filter_eq_nil_iff]
        intro u hu h
        rw [decide_eq_true_eq] at h
        have hall : ∀ u ∈ (exLoose.map unpack).flatten, u.id ∈ ["a", "b", "c"] := by decide +kernel
        exact hi (h ▸ hall u hu)
      rw [this]
      intro p x q h
      simp at h

theorem exBare_keeps : ∀ l ∈ exBare, l.Keeps := by
  intro l hl
  simp only [exBare, List.mem_cons, List.not_mem_nil, or_false] at hl
  rcases hl with rfl | rfl | rfl
  · exact ⟨(by decide : (⟨2, 1, 1, 0⟩ : Cfg).Valid), (by decide : (⟨2, 1, 1, 0⟩ : Cfg).stride < span (⟨2, 1, 1, 0⟩ : Cfg)), rfl⟩
  · trivial
  · exact ⟨(by decide : (⟨2, 1, 1, 0⟩ : Cfg).Valid), (by decide : (⟨2, 1, 1, 0⟩ : Cfg).stride < span (⟨2, 1, 1, 0⟩ : Cfg)), rfl⟩

-- Chunks of one and of no frames next to longer ones: no call raises.
example : Lively (offlineChain exBare) exLoose := by
  refine split_take ?_
  decide +kernel
example : Warm (offlineChain exBare.dropLast) exLoose := by
  refine split_take ?_
  decide +kernel
-- A chunk of two frames alone gives nothing, and the call raises.
example : ¬ Lively (offlineChain exBare) [{ md := ⟨["a"], [true], [false], [2], none⟩, width := 2, rows := [[1, 2]] }] ∧
    ((chainRun (fresh exBare) [{ md := ⟨["a"], [true], [false], [2], none⟩, width := 2, rows := [[1, 2]] }]).map fun _ => ()) = .error .runtimeError := by
  refine ⟨fun h => ?_, by decide +kernel⟩
  have := h [] _ [] rfl
  revert this
  decide +kernel
/-- `b` gives the second layer no frame in the first call and is then with the new `c` in a batch. -/
def exCold : List (ST Int) :=
  [ { md := ⟨["a", "b"], [true, true], [true, false], [3, 1], none⟩, width := 3, rows := [[4, 5, 6], [7, 0, 0]] },
    { md := ⟨["b", "c"], [false, true], [false, false], [3, 3], none⟩, width := 3, rows := [[1, 2, 3], [1, 2, 3]] } ]
/-- **C59 is false of the code, in stacks with strides below the kernel widths too.** The second call raises TypeError, in the second convolution, although there are new outputs: nothing is held for `b`, and there is no entry for `c`. -/
theorem C59_stack_false : Lively (offlineChain exBare) exCold ∧ ((chainRun (fresh exBare) exCold).map fun _ => ()) = .error .typeError := by
  refine ⟨split_take ?_, by decide +kernel⟩
  decide +kernel

/-! ### Calls without new outputs -/

/-- Every batch is as wide as its longest chunk. -/
def TightAll (xs : List (ST α)) : Prop := ∀ x ∈ xs, Tight x.width (unpack x)

/-- Every batch holds a frame. -/
def Filled (xs : List (ST α)) : Prop := ∀ x ∈ xs, ∃ u ∈ unpack x, u.frames ≠ []

theorem run_filled {c : Cfg} (hv : c.Valid) (hp : c.padding = 0) (g : List α → α) {xs ys : List (ST α)} {buf b : Buf α}
    (hx : ∀ z ∈ xs, WellPacked z ∧ unpack z ≠ [] ∧ ((unpack z).map (·.id)).Nodup) (ht : TightAll xs) (hr : run c g buf xs = .ok (ys, b)) : TightAll ys ∧ Filled ys := by
  induction xs generalizing buf ys with
  | nil =>
    simp only [run, Except.ok.injEq, Prod.mk.injEq] at hr
    obtain ⟨rfl, -⟩ := hr
    exact ⟨by simp [TightAll], by simp [Filled]⟩
  | cons x xs ih =>
    simp only [run] at hr
    obtain ⟨o, h1, hr⟩ := bind_ok_iff hr
    obtain ⟨⟨ys', b'⟩, h2, hr⟩ := bind_ok_iff hr
    simp only [Except.ok.injEq, Prod.mk.injEq] at hr
    obtain ⟨rfl, rfl⟩ := hr
    obtain ⟨i1, i2⟩ := ih (fun z hz => hx z (by simp [hz])) (fun z hz => ht z (by simp [hz])) h2
    obtain ⟨a1, a2, a3⟩ := hx x (by simp)
    obtain ⟨w', e1, e2, e3⟩ := forward_any c hv g buf x.md.chunk.isSome x.width (unpack x) a2 a1.2.2.2.1 (.inl hp)
    rw [← packs_pk a1, h1] at e3
    obtain ⟨u, hu, huw⟩ := e2 (ht x (by simp))
    obtain ⟨-, c2, -, -⟩ := call_any c hv g buf x a1 a2 a3 (.inl hp) o h1
    obtain ⟨v, hv', hr⟩ := forall2_at c2 hu
    have hlen : v.frames.length = nOut c w' := by rw [hr.2.2.2, conv_length c hv, huw]
    have hw : ¬ w' < c.kw ∧ o.y.width = nOut c w' := by
      split at e3
      · cases e3
      · split at e3
        · cases e3
        · rename_i hk
          simp only [Except.ok.injEq] at e3
          refine ⟨hk, ?_⟩
          rw [e3]
          rfl
    refine ⟨?_, ?_⟩
    · intro z hz
      rcases List.mem_cons.1 hz with rfl | hz
      · exact ⟨v, hv', by rw [hlen, hw.2]⟩
      · exact i1 z hz
    · intro z hz
      rcases List.mem_cons.1 hz with rfl | hz
      · refine ⟨v, hv', ?_⟩
        intro h0
        rw [h0, List.length_nil] at hlen
        have := lt_nOut c hv w' 0
        omega
      · exact i2 z hz

theorem layer_filled {l : Layer α} (hk : l.Bare) {xs ys : List (ST α)} {b : Buf α} (hx : Loose xs) (ht : TightAll xs)
    (h : layerRun l (fun _ => none) xs = .ok (ys, b)) : TightAll ys ∧ ((Filled xs ∨ ∃ c g, l = .conv c g) → Filled ys) := by
  cases l with
  | conv c g =>
    rw [layerRun_conv, run_zeroed c hk.1 hk.2.2 g xs (fun x hxm => (hx.1 x hxm).1)] at h
    have hz : ∀ z ∈ xs.map zeroed, ∃ x ∈ xs, z = zeroed x ∧ Shaped x := by
      intro z hz
      obtain ⟨x, hxm, rfl⟩ := List.mem_map.1 hz
      exact ⟨x, hxm, rfl, (hx.1 x hxm).1⟩
    obtain ⟨h1, h2⟩ := run_filled hk.1 hk.2.2 g
      (by
        intro z hzm
        obtain ⟨x, hxm, rfl, hs⟩ := hz z hzm
        rw [unpack_zeroed hs]
        exact ⟨zeroed_wp hs, (hx.1 x hxm).2⟩)
      (by
        intro z hzm
        obtain ⟨x, hxm, rfl, hs⟩ := hz z hzm
        rw [unpack_zeroed hs]
        exact ht x hxm) h
    exact ⟨h1, fun _ => h2⟩
  | act f =>
    rw [layerRun_act] at h
    simp only [Except.ok.injEq, Prod.mk.injEq] at h
    obtain ⟨rfl, -⟩ := h
    refine ⟨?_, ?_⟩
    · intro y hy
      obtain ⟨x, hxm, rfl⟩ := List.mem_map.1 hy
      obtain ⟨u, hu, huw⟩ := ht x hxm
      rw [unpack_act]
      exact ⟨_, List.mem_map_of_mem hu, by simpa using huw⟩
    · rintro (hf | ⟨c, g, hcg⟩)
      · intro y hy
        obtain ⟨x, hxm, rfl⟩ := List.mem_map.1 hy
        obtain ⟨u, hu, huw⟩ := hf x hxm
        rw [unpack_act]
        exact ⟨_, List.mem_map_of_mem hu, by simpa using huw⟩
      · cases hcg

theorem chain_filled (ls : List (Layer α)) (hk : ∀ l ∈ ls, l.Bare) {xs zs : List (ST α)} {t : List (Layer α × Buf α)} (hx : Loose xs) (ht : TightAll xs)
    (hf : Filled xs ∨ ∃ c g, .conv c g ∈ ls) (h : chainRun (fresh ls) xs = .ok (zs, t)) : Filled zs := by
  induction ls generalizing xs t with
  | nil =>
    rw [show fresh ([] : List (Layer α)) = [] from rfl, chainRun_nil] at h
    simp only [Except.ok.injEq, Prod.mk.injEq] at h
    rw [← h.1]
    rcases hf with hf | ⟨c, g, hf⟩
    · exact hf
    · simp at hf
  | cons l ls ih =>
    obtain ⟨ys, b', t', h1, h2⟩ := chainRun_cons h
    have hkl := hk l (by simp)
    obtain ⟨e1, e2⟩ := layer_filled hkl hx ht h1
    refine ih (fun l' h' => hk l' (by simp [h'])) (layer_loose hkl hx h1).1 e1 ?_ h2
    rcases hf with hf | ⟨c, g, hf⟩
    · exact .inl (e2 (.inl hf))
    · rcases List.mem_cons.1 hf with hf | hf
      · exact .inl (e2 (.inr ⟨c, g, hf.symm⟩))
      · exact .inr ⟨c, g, hf⟩

/-- **C58, stacks without padding, calls that raise.** If the stack has a convolution and the batches are no wider than their longest chunks, a sequence of calls in which some call has no new output for any of its streams raises: whatever runs through gives a new output in every call. Missing: acceptance of
such calls. -/
theorem C58_stack_needed_partial (ls : List (Layer α)) (hk : ∀ l ∈ ls, l.Bare) (hc : ∃ c g, Layer.conv c g ∈ ls) (xs : List (ST α)) (hx : Loose xs) (ht : TightAll xs)
    (zs : List (ST α)) (t : List (Layer α × Buf α)) (h : chainRun (fresh ls) xs = .ok (zs, t)) : Lively (offlineChain ls) xs := by
  intro P x Q he
  have hfill := chain_filled ls hk hx ht (.inr hc) h
  subst he
  obtain ⟨Z, z, Z', t1, t2, rfl, h1, h2⟩ := chainRun_split h
  have hx' : Loose (P ++ [x]) := by
    rw [show P ++ x :: Q = (P ++ [x]) ++ Q by simp] at hx
    exact loose_prefix hx
  obtain ⟨v, hv, hvf⟩ := hfill z (by simp)
  have e1 := C62_unpadded_partial ls hk P (loose_prefix hx') Z t1 h1 v.id
  have e2 := C62_unpadded_partial ls hk _ hx' _ t2 h2 v.id
  have hlt : (offlineChain ls (collected v.id P)).length < (offlineChain ls (collected v.id (P ++ [x]))).length := by
    rw [← e1, ← e2, collected_append, List.length_append]
    have : 0 < (collected v.id [z]).length := by
      unfold collected
      rw [List.length_pos_iff]
      intro h0
      unfold allFrames at h0
      rw [List.flatMap_eq_nil_iff] at h0
      exact hvf (h0 v (by simp [chunksOf, hv]))
    omega
  by_contra hno
  have hnone : collected v.id [x] = [] := by
    unfold collected
    rw [List.map_singleton, chunksOf_single_not]
    · rfl
    · intro u hu hid
      exact hno ⟨u, hu, by rw [hid]; exact hlt⟩
  rw [collected_append, hnone, List.append_nil] at hlt
  omega

example : TightAll exCold ∧ ¬ TightAll exLoose := by unfold TightAll Tight; decide +kernel

/-! ### C202 -/

theorem keeps_prefix (ls : List (Layer α)) (hl : ∀ l ∈ ls, l.Bare) {x y : List α} (h : x <+: y) : offlineChain ls x <+: offlineChain ls y := by
  induction ls generalizing x y with
  | nil => exact h
  | cons l ls ih =>
    refine ih (fun l' h' => hl l' (by simp [h'])) ?_
    obtain ⟨r, rfl⟩ := h
    cases l with
    | conv c g =>
      have hb : (c.Valid ∧ c.stride ≤ span c ∧ c.padding = 0) := hl (.conv c g) (by simp)
      show offline c g x <+: offline c g (x ++ r)
      rw [offline_unpadded hb.2.2, offline_unpadded hb.2.2, conv_left c hb.1 g _ _ (dense_gap hb.2.1 _)]
      exact List.prefix_append _ _
    | act f => exact ⟨r.map f, by simp [Layer.offline]⟩

/-- **C202, stacks without padding**, in batches of any kind, for streams of one sequence each: after `n` frames of a stream exactly `ready ls n` outputs have come out for it, the first ones that the stack computes offline, however the stream goes on. Missing: padding (`C202_latency_partial`),
ids used again (`C62_unpadded_again_false`). -/
theorem C202_unpadded_partial (ls : List (Layer α)) (hl : ∀ l ∈ ls, l.Bare) (xs : List (ST α)) (hx : Loose xs) (zs : List (ST α)) (t : List (Layer α × Buf α))
    (h : chainRun (fresh ls) xs = .ok (zs, t)) (i : String) :
    (collected i zs).length = ready ls (collected i xs).length ∧ ∀ rest : List α, collected i zs <+: offlineChain ls (collected i xs ++ rest) := by
  rw [C62_unpadded_partial ls hl xs hx zs t h i]
  exact ⟨chain_ready ls hl _, fun rest => keeps_prefix ls hl (List.prefix_append _ _)⟩

-- Stream `b` of `exLoose` has given its one output after three frames.
example : ready exBare (collected "b" exLoose).length = 1 ∧ ((chainRun (fresh exBare) exLoose).map fun r => (collected "b" r.1).length) = .ok 1 := by decide +kernel

end
end DS.Conv
