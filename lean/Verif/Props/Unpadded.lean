import Verif.Props.ConvAny
import Verif.Props.ConvAct
import Verif.Props.ConvCollect
import Verif.Spec.Unpadded
/-! C62 for stacks without padding: any batches, empty chunks included. -/

namespace DS.Conv
open Meta
section
variable {α β : Type} [Zero α] [Zero β]

/-- Batches as torch holds them, whatever is in the padding, of chunks of different streams, of any number and length; streams of one sequence each. -/
def Loose (xs : List (ST α)) : Prop :=
  (∀ x ∈ xs, Shaped x ∧ unpack x ≠ [] ∧ ((unpack x).map (·.id)).Nodup) ∧ ∀ i, Once (chunksOf i (xs.map unpack))

theorem once_mid {p q : List (Chunk α)} {x : Chunk α} (h : Once (p ++ x :: q)) : (x.sos = true → p = []) ∧ ∀ y ∈ p, y.eos = false := by
  refine ⟨(h p x q rfl).1, ?_⟩
  intro y hy
  obtain ⟨a, b, rfl⟩ := List.append_of_mem hy
  by_contra hc
  have := (h a y (b ++ x :: q) (by simp)).2 (by simpa using hc)
  simp at this

theorem forall2_split {A B : Type} {R : A → B → Prop} {p : List B} {y : B} {q : List B} : ∀ {xs : List A}, List.Forall₂ R xs (p ++ y :: q) →
    ∃ a x b, xs = a ++ x :: b ∧ List.Forall₂ R a p ∧ R x y ∧ List.Forall₂ R b q := by
  induction p with
  | nil =>
    intro xs h
    cases h with
    | cons h1 h2 => exact ⟨[], _, _, rfl, .nil, h1, h2⟩
  | cons z p ih =>
    intro xs h
    cases h with
    | cons h1 h2 =>
      obtain ⟨a, x, b, rfl, h3, h4, h5⟩ := ih h2
      exact ⟨_ :: a, x, b, rfl, .cons h1 h3, h4, h5⟩

theorem forall2_at {A B : Type} {R : A → B → Prop} {xs : List A} {ys : List B} (h : List.Forall₂ R xs ys) {x : A} (hx : x ∈ xs) : ∃ y ∈ ys, R x y := by
  induction h with
  | nil => simp at hx
  | cons h1 _ ih =>
    rcases List.mem_cons.1 hx with rfl | hx
    · exact ⟨_, by simp, h1⟩
    · obtain ⟨y, hy, hr⟩ := ih hx
      exact ⟨y, by simp [hy], hr⟩

theorem from_ids {xs : List (Chunk α)} {ys : List (Chunk β)} (h : List.Forall₂ From xs ys) : ys.map (·.id) = xs.map (·.id) := by
  induction h with
  | nil => rfl
  | cons h _ ih => simp only [List.map_cons, ih, h.1]

theorem once_from {xs : List (Chunk α)} {ys : List (Chunk β)} (h : List.Forall₂ From xs ys) (ho : Once xs) : Once ys := by
  intro p y q he
  subst he
  obtain ⟨a, x, b, rfl, h1, h3, h4⟩ := forall2_split h
  obtain ⟨e1, e2⟩ := ho _ _ _ rfl
  refine ⟨fun hs => ?_, fun he => ?_⟩
  · have := e1 (h3.2.1 hs)
    subst this
    cases h1
    rfl
  · have := e2 (h3.2.2 he)
    subst this
    cases h4
    rfl

theorem chunksOf_from {xs : List (List (Chunk α))} {ys : List (List (Chunk β))} (h : List.Forall₂ (List.Forall₂ From) xs ys) (i : String) :
    List.Forall₂ From (chunksOf i xs) (chunksOf i ys) := by
  induction h with
  | nil => exact .nil
  | @cons a b as bs h _ ih =>
    rw [← List.singleton_append, chunksOf_append, ← List.singleton_append (x := b), chunksOf_append]
    refine List.rel_append ?_ ih
    simp only [chunksOf, List.flatten_cons, List.flatten_nil, List.append_nil]
    clear ih
    induction h with
    | nil => exact .nil
    | @cons u v us vs h _ ih =>
      by_cases hu : u.id = i
      · rw [List.filter_cons_of_pos (by simpa using hu), List.filter_cons_of_pos (by simpa [h.1] using hu)]
        exact .cons h ih
      · rw [List.filter_cons_of_neg (by simpa using hu), List.filter_cons_of_neg (by simpa [h.1] using hu)]
        exact ih

theorem dense_gap {c : Cfg} (hs : c.stride ≤ span c) (n : Nat) : ¬ Gap c n := by
  rintro ⟨k, h1, h2⟩
  rw [Nat.succ_mul] at h2
  omega

theorem heard_from (c : Cfg) (buf : Buf α) (cs : List (Chunk α)) (u : Chunk α) :
    ((heard c buf cs u).sos = true → u.sos = true) ∧ ((heard c buf cs u).eos = true → u.eos = true) := by
  unfold heard
  split
  · simp
  · exact ⟨id, id⟩

theorem input_unpadded {c : Cfg} (hp : c.padding = 0) (buf : Buf α) (cs : List (Chunk α)) (u : Chunk α) :
    input c buf cs u = (open Classical in if Mixes c cs then (buf u.id).getD [] else []) ++ u.frames := by
  unfold input
  simp [hp, zeros]

theorem left_none (c : Cfg) : left c ([] : List α) = [] := by simp [left]

/-- The frames held for a stream that has not ended are those that later outputs need, and there is an entry for it if the kernel sees more than one frame. -/
def Holds (c : Cfg) (P : List (List (Chunk α))) (buf : Buf α) : Prop :=
  ∀ i, (∀ x ∈ chunksOf i P, x.eos = false) → (buf i).getD [] = left c (allFrames (chunksOf i P)) ∧ (1 < span c → chunksOf i P ≠ [] → (buf i).isSome = true)

theorem run_once (c : Cfg) (hv : c.Valid) (hs : c.stride ≤ span c) (hp : c.padding = 0) (g : List α → β) (xs : List (ST α)) :
    ∀ (P : List (List (Chunk α))) (buf : Buf α) (_ : ∀ x ∈ xs, WellPacked x ∧ unpack x ≠ [] ∧ ((unpack x).map (·.id)).Nodup)
      (_ : ∀ i, Once (chunksOf i (P ++ xs.map unpack))) (_ : Holds c P buf) (ys : List (ST β)) (b : Buf α) (_ : run c g buf xs = .ok (ys, b)),
      (∀ y ∈ ys, WellPacked y) ∧ List.Forall₂ (List.Forall₂ From) (xs.map unpack) (ys.map unpack) ∧
        (∀ i, conv c g (allFrames (chunksOf i P)) ++ collected i ys = conv c g (allFrames (chunksOf i (P ++ xs.map unpack)))) ∧ Holds c (P ++ xs.map unpack) b := by
  induction xs with
  | nil =>
    intro P buf _ _ hB ys b h
    simp only [run, Except.ok.injEq, Prod.mk.injEq] at h
    obtain ⟨rfl, rfl⟩ := h
    refine ⟨by simp, .nil, fun i => by simp [collected, chunksOf, allFrames], by simpa using hB⟩
  | cons x xs ih =>
    intro P buf hx ho hB ys b h
    simp only [run] at h
    obtain ⟨o, h1, h⟩ := bind_ok_iff h
    obtain ⟨⟨ys', b'⟩, h2, h⟩ := bind_ok_iff h
    simp only [Except.ok.injEq, Prod.mk.injEq] at h
    obtain ⟨rfl, rfl⟩ := h
    obtain ⟨hw, hne, hnd⟩ := hx x (by simp)
    obtain ⟨c1, c2, c3, c4⟩ := call_any c hv g buf x hw hne hnd (.inl hp) o h1
    have hg : ∀ n, ¬ Gap c n := dense_gap hs
    have hxs : ∀ i, chunksOf i (P ++ (x :: xs).map unpack) = chunksOf i P ++ (chunksOf i [unpack x] ++ chunksOf i (xs.map unpack)) := by
      intro i
      rw [List.map_cons, ← List.singleton_append, chunksOf_append, chunksOf_append]
    -- what the kernel sees of a chunk
    have hin : ∀ u ∈ unpack x, (∀ v ∈ chunksOf u.id P, v.eos = false) ∧ (buf u.id).getD [] = left c (allFrames (chunksOf u.id P)) ∧
        input c buf (unpack x) u = left c (allFrames (chunksOf u.id P)) ++ u.frames := by
      intro u hu
      have hou := ho u.id
      rw [hxs, chunksOf_single_mem _ hnd u hu, List.singleton_append] at hou
      obtain ⟨e1, e2⟩ := once_mid hou
      refine ⟨e2, (hB u.id e2).1, ?_⟩
      rw [input_unpadded hp]
      congr 1
      by_cases hm : Mixes c (unpack x)
      · rw [if_pos hm]
        exact (hB u.id e2).1
      · rw [if_neg hm]
        by_cases hk : 1 < span c
        · have hsos : u.sos = true := by
            by_contra hc
            exact hm ⟨hk, u, hu, by simpa using hc⟩
          rw [e1 hsos]
          exact (left_none c).symm
        · have hsp := span_eq c hv
          have : c.kw = 1 := by
            unfold span at hsp hk
            omega
          rw [getD_kw1 c hv this]
    have hfrom : List.Forall₂ From (unpack x) (unpack o.y) := by
      refine c2.imp ?_
      rintro u v ⟨d1, d2, d3, -⟩
      exact ⟨d1, fun h => (heard_from c buf _ u).1 (d2 ▸ h), fun h => (heard_from c buf _ u).2 (d3 ▸ h)⟩
    -- the buffers afterwards
    have hB' : Holds c (P ++ [unpack x]) o.buf := by
      intro i hi
      by_cases hmem : ∃ u ∈ unpack x, u.id = i
      · obtain ⟨u, hu, rfl⟩ := hmem
        rw [chunksOf_append, chunksOf_single_mem _ hnd u hu] at hi ⊢
        have heos : u.eos = false := hi u (by simp)
        have hh : (heard c buf (unpack x) u).eos = false := by
          by_contra hc
          have := (heard_from c buf (unpack x) u).2 (by simpa using hc)
          simp [heos] at this
        rw [c3 u hu, hh, allFrames_append, allFrames_single, ← left_left c hv _ _ (hg _), ← (hin u hu).2.2]
        simp only [Bool.false_eq_true, if_false]
        refine ⟨?_, fun hk _ => by rw [if_pos hk]; rfl⟩
        by_cases hk : 1 < span c
        · rw [if_pos hk, Option.getD_some]
          unfold left
          rw [fits_eq c hv, List.length_range]
        · have hsp := span_eq c hv
          have hk1 : c.kw = 1 := by
            unfold span at hsp hk
            omega
          rw [if_neg hk, getD_kw1 c hv hk1, (hin u hu).2.1, getD_kw1 c hv hk1]
      · have hno : ∀ u ∈ unpack x, u.id ≠ i := fun u hu he => hmem ⟨u, hu, he⟩
        rw [chunksOf_append, chunksOf_single_not _ i hno, List.append_nil] at hi ⊢
        rw [c4 i hno]
        exact hB i hi
    obtain ⟨r1, r2, r3, r4⟩ := ih (P ++ [unpack x]) o.buf (fun z hz => hx z (by simp [hz])) (by simpa using ho) hB' ys' b' h2
    refine ⟨?_, ?_, ?_, by simpa using r4⟩
    · intro y hy
      rcases List.mem_cons.1 hy with rfl | hy
      · exact c1
      · exact r1 y hy
    · simp only [List.map_cons]
      exact .cons hfrom r2
    · intro i
      have e : conv c g (allFrames (chunksOf i P)) ++ allFrames (chunksOf i [unpack o.y]) = conv c g (allFrames (chunksOf i (P ++ [unpack x]))) := by
        have hids := from_ids hfrom
        by_cases hmem : ∃ u ∈ unpack x, u.id = i
        · obtain ⟨u, hu, rfl⟩ := hmem
          obtain ⟨v, hv2, hr⟩ := forall2_at c2 hu
          have hvid : v.id = u.id := hr.1
          have e0 : chunksOf u.id [unpack o.y] = [v] := by rw [← hvid]; exact chunksOf_single_mem _ (by rw [hids]; exact hnd) v hv2
          rw [e0, allFrames_single, hr.2.2.2, (hin u hu).2.2,
            chunksOf_append, chunksOf_single_mem _ hnd u hu, allFrames_append, allFrames_single]
          exact (conv_left c hv g _ _ (hg _)).symm
        · have hno : ∀ u ∈ unpack x, u.id ≠ i := fun u hu he => hmem ⟨u, hu, he⟩
          have hno' : ∀ v ∈ unpack o.y, v.id ≠ i := by
            intro v hv' he
            have : v.id ∈ (unpack x).map (·.id) := by rw [← hids]; exact List.mem_map_of_mem hv'
            obtain ⟨u, hu, he'⟩ := List.mem_map.1 this
            exact hno u hu (he'.trans he)
          rw [chunksOf_append, chunksOf_single_not _ i hno, chunksOf_single_not _ i hno', List.append_nil]
          simp [allFrames]
      have hc : collected i (o.y :: ys') = allFrames (chunksOf i [unpack o.y]) ++ collected i ys' := by
        unfold collected
        rw [List.map_cons, ← List.singleton_append, chunksOf_append, allFrames_append]
      rw [hc, ← List.append_assoc, e, r3 i]
      simp

/-- **C53, without padding and with strides up to the kernel width**: batches of any kind, in particular with empty first or last chunks next to other rows, as long as no id is used for a second sequence. The frames emitted for a stream are what the ordinary convolution gives for the frames received,
whether or not the stream has ended, and no row of the output has a mark that its input does not have. -/
theorem C53_unpadded (c : Cfg) (hv : c.Valid) (hs : c.stride ≤ span c) (hp : c.padding = 0) (g : List α → β) (xs : List (ST α)) (hx : Loose xs)
    (ys : List (ST β)) (b : Buf α) (h : run c g (fun _ => none) xs = .ok (ys, b)) :
    Loose ys ∧ List.Forall₂ (List.Forall₂ From) (xs.map unpack) (ys.map unpack) ∧ ∀ i, collected i ys = offline c g (collected i xs) := by
  have hz : (xs.map zeroed).map unpack = xs.map unpack := by
    rw [List.map_map]
    apply List.map_congr_left
    intro x hxm
    exact unpack_zeroed (hx.1 x hxm).1
  rw [run_zeroed c hv hp g xs (fun x hxm => (hx.1 x hxm).1)] at h
  obtain ⟨h1, h2, h3, -⟩ := run_once c hv hs hp g (xs.map zeroed) [] (fun _ => none)
    (by
      intro z hzm
      obtain ⟨x, hxm, rfl⟩ := List.mem_map.1 hzm
      obtain ⟨a1, a2, a3⟩ := hx.1 x hxm
      rw [unpack_zeroed a1]
      exact ⟨zeroed_wp a1, a2, a3⟩)
    (by simpa [hz] using hx.2) (by intro i _; simp [chunksOf, allFrames, left]) ys b h
  rw [hz] at h2 h3
  refine ⟨⟨?_, fun i => once_from (chunksOf_from h2 i) (hx.2 i)⟩, h2, ?_⟩
  · intro y hy
    refine ⟨wp_shaped (h1 y hy), ?_⟩
    have hf : ∃ x ∈ xs.map unpack, List.Forall₂ From x (unpack y) := by
      have := forall2_at h2.flip (x := unpack y) (List.mem_map_of_mem hy)
      exact this
    obtain ⟨x, hxm, hr⟩ := hf
    obtain ⟨z, hz, rfl⟩ := List.mem_map.1 hxm
    obtain ⟨-, a1, a2⟩ := hx.1 z hz
    refine ⟨?_, by rw [from_ids hr]; exact a2⟩
    intro he
    rw [he] at hr
    cases hu : unpack z with
    | nil => exact a1 hu
    | cons u us => rw [hu] at hr; cases hr
  · intro i
    have := h3 i
    rw [List.nil_append] at this
    have e : conv c g (allFrames (chunksOf i ([] : List (List (Chunk α))))) = [] := by
      show conv c g [] = []
      rw [conv_eq c hv]
      have : nOut c 0 = 0 := by
        have := lt_nOut c hv 0 0
        have hk := span_eq c hv
        unfold span at hk
        omega
      simp [this]
    rw [e, List.nil_append] at this
    rw [this]
    unfold offline collected
    simp [hp, zeros]

end

section
variable {α : Type} [Zero α]

/-- A convolution without padding whose stride is at most its width, or any pointwise function. -/
def Layer.Bare : Layer α → Prop
  | .conv c _ => c.Valid ∧ c.stride ≤ span c ∧ c.padding = 0
  | .act _ => True

theorem loose_act (f : α → α) {xs : List (ST α)} (hx : Loose xs) :
    Loose (xs.map fun x : ST α => { x with rows := x.rows.map (·.map f) }) ∧
    ∀ i, collected i (xs.map fun x : ST α => { x with rows := x.rows.map (·.map f) }) = (collected i xs).map f := by
  have he : ∀ i, chunksOf i ((xs.map fun x : ST α => { x with rows := x.rows.map (·.map f) }).map unpack) =
      (chunksOf i (xs.map unpack)).map fun y => { y with frames := y.frames.map f } := by
    intro i
    clear hx
    induction xs with
    | nil => rfl
    | cons x xs ih =>
      simp only [List.map_cons]
      rw [← List.singleton_append, chunksOf_append, ih, ← List.singleton_append (x := unpack x), chunksOf_append, List.map_append]
      congr 1
      simp only [chunksOf, List.flatten_cons, List.flatten_nil, List.append_nil, unpack_act, List.filter_map, Function.comp_def]
  refine ⟨⟨?_, ?_⟩, ?_⟩
  · intro y hy
    obtain ⟨x, hxm, rfl⟩ := List.mem_map.1 hy
    obtain ⟨a1, a2, a3⟩ := hx.1 x hxm
    refine ⟨shaped_act f a1, ?_, ?_⟩
    · rw [unpack_act]; simpa using a2
    · rw [unpack_act, List.map_map]; exact a3
  · intro i
    rw [he]
    refine once_from ?_ (hx.2 i)
    rw [List.forall₂_map_right_iff, List.forall₂_same]
    exact fun u _ => ⟨rfl, id, id⟩
  · intro i
    unfold collected
    rw [he]
    simp [allFrames, List.map_flatMap, List.flatMap_map]

theorem layer_loose {l : Layer α} (hl : l.Bare) {xs : List (ST α)} (hx : Loose xs) {ys : List (ST α)} {b : Buf α}
    (h : layerRun l (fun _ => none) xs = .ok (ys, b)) : Loose ys ∧ ∀ i, collected i ys = l.offline (collected i xs) := by
  cases l with
  | conv c g =>
    rw [layerRun_conv] at h
    obtain ⟨h1, -, h2⟩ := C53_unpadded c hl.1 hl.2.1 hl.2.2 g xs hx ys b h
    exact ⟨h1, h2⟩
  | act f =>
    rw [layerRun_act] at h
    simp only [Except.ok.injEq, Prod.mk.injEq] at h
    obtain ⟨rfl, -⟩ := h
    exact loose_act f hx

/-- **C62, stacks without padding**, with strides up to the kernel widths and any pointwise functions between them (also with `f 0 ≠ 0`, C113): batches of any kind, so that any layer may get empty first or last chunks next to other rows, as long as no id is used for a second sequence. At every moment the frames emitted for a stream are what the ordinary stack gives for the
frames received. Missing: padding (`C62_chain_false`), ids used again (`C62_unpadded_again_false`), calls that raise (C58, C59). -/
theorem C62_unpadded_partial (ls : List (Layer α)) (hl : ∀ l ∈ ls, l.Bare) (xs : List (ST α)) (hx : Loose xs)
    (zs : List (ST α)) (t : List (Layer α × Buf α)) (h : chainRun (fresh ls) xs = .ok (zs, t)) (i : String) : collected i zs = offlineChain ls (collected i xs) := by
  induction ls generalizing xs t with
  | nil =>
    rw [show fresh ([] : List (Layer α)) = [] from rfl, chainRun_nil] at h
    simp only [Except.ok.injEq, Prod.mk.injEq] at h
    rw [← h.1]
    rfl
  | cons l ls ih =>
    obtain ⟨ys, b', t', h1, h2⟩ := chainRun_cons h
    obtain ⟨a1, a2⟩ := layer_loose (hl l (by simp)) hx h1
    rw [ih (fun l' h' => hl l' (by simp [h'])) ys a1 t' h2, a2 i]
    rfl

theorem schedule_loose {xs : List (ST α)} (hx : Schedule xs) (ho : ∀ i, Once (chunksOf i (xs.map unpack))) : Loose xs :=
  ⟨fun x h => ⟨wp_shaped (hx.1 x h).1, (hx.1 x h).2.1.1, (hx.1 x h).2.1.2.1⟩, ho⟩

/-- **C62, padded layers first.** If the layers up to some point get only batches in which empty first or last chunks come alone, and the layers after it have no padding and strides up to their kernel widths, every stream, whose id is used for one sequence, becomes what the ordinary stack gives.
Missing: empty first or last chunks next to other rows in front of a padded layer (`C62_chain_false`). -/
theorem C62_padded_first_partial (ls ls' : List (Layer α)) (hl : ∀ l ∈ ls, l.OK) (hl' : ∀ l ∈ ls', l.Bare) (xs : List (ST α)) (hx : Schedule xs)
    (ho : ∀ i, Once (chunksOf i (xs.map unpack))) (hfine : Fine ls xs) (zs : List (ST α)) (t : List (Layer α × Buf α)) (h : chainRun (fresh (ls ++ ls')) xs = .ok (zs, t)) (i : String)
    (hc : Complete (chunksOf i (xs.map unpack))) : collected i zs = offlineChain (ls ++ ls') (collected i xs) := by
  have main : ∀ (ls : List (Layer α)) (_ : ∀ l ∈ ls, l.OK) (xs : List (ST α)) (_ : ls ≠ [] → Schedule xs) (_ : Loose xs) (_ : Fine ls xs) (t : List (Layer α × Buf α))
      (_ : chainRun (fresh (ls ++ ls')) xs = .ok (zs, t)) (_ : Complete (chunksOf i (xs.map unpack))), collected i zs = offlineChain (ls ++ ls') (collected i xs) := by
    intro ls
    induction ls with
    | nil =>
      intro _ xs _ hx _ t h _
      exact C62_unpadded_partial ls' hl' xs hx zs t h i
    | cons l ls ih =>
      intro hl xs hx hlo hf t h hc
      obtain ⟨ys, b', t', h1, h2⟩ := chainRun_cons h
      obtain ⟨f1, f2, f3⟩ := hf
      have hsx := hx (by simp)
      obtain ⟨a1, a2, a3⟩ := layer_via (hl l (by simp)) f2 hsx h1
      have hfl := Coll.chunksOf_flags (a := ys.map unpack) (b := xs.map unpack) (by simpa [Function.comp_def] using a2)
      have hfrom : ∀ j, List.Forall₂ From (chunksOf j (xs.map unpack)) (chunksOf j (ys.map unpack)) := by
        intro j
        have : List.Forall₂ (fun u v => u = v) ((chunksOf j (xs.map unpack)).map Chunk.flags) ((chunksOf j (ys.map unpack)).map Chunk.flags) := by
          rw [hfl j]; exact List.forall₂_eq_eq_eq ▸ rfl
        rw [List.forall₂_map_left_iff, List.forall₂_map_right_iff] at this
        refine this.imp ?_
        intro u v he
        unfold Chunk.flags at he
        simp only [Prod.mk.injEq] at he
        exact ⟨he.1.symm, fun h => by rw [he.2.1]; exact h, fun h => by rw [he.2.2]; exact h⟩
      have hids : ∀ y ∈ ys, unpack y ≠ [] ∧ ((unpack y).map (·.id)).Nodup := by
        intro y hy
        have hm : (unpack y).map Chunk.flags ∈ ys.map fun y => (unpack y).map Chunk.flags := List.mem_map_of_mem hy
        rw [a2] at hm
        obtain ⟨x, hxm, he⟩ := List.mem_map.1 hm
        have hb := (hsx.1 x hxm).2.1
        refine ⟨?_, ?_⟩
        · intro hn
          rw [hn] at he
          exact hb.1 (by simpa using he)
        · have h1 : (unpack y).map (·.id) = ((unpack y).map Chunk.flags).map (·.1) := by rw [List.map_map]; rfl
          have h2 : (unpack x).map (·.id) = ((unpack x).map Chunk.flags).map (·.1) := by rw [List.map_map]; rfl
          rw [h1, ← he, ← h2]
          exact hb.2.1
      have hly : Loose ys := ⟨fun y hy => ⟨wp_shaped (a1 y hy).1, hids y hy⟩, fun j => once_from (hfrom j) (hlo.2 j)⟩
      have hfy := f3 ys b' h1
      have hsy : ls ≠ [] → Schedule ys := by
        intro hne
        refine ⟨fun y hy => ⟨(a1 y hy).1, ?_, (a1 y hy).2⟩, fun j => ?_⟩
        · cases ls with
          | nil => exact absurd rfl hne
          | cons l' ls'' => exact hfy.1 y hy
        · obtain ⟨done, cur, hh⟩ := hsx.2 j
          obtain ⟨d, c, h', -⟩ := via_history hh (a3 j done cur hh)
          exact ⟨d, c, h'⟩
      have hhist : History (chunksOf i (xs.map unpack)) [chunksOf i (xs.map unpack)] [] := by simpa [History] using hc
      obtain ⟨doneO, curO, e1, e2, e3⟩ := a3 i _ _ hhist
      have hcol : collected i ys = l.offline (collected i xs) ∧ Complete (chunksOf i (ys.map unpack)) := by
        cases e2 with
        | cons hab e2 =>
          cases e2
          have : curO = [] := by simpa using e3
          subst this
          simp only [List.flatten_cons, List.flatten_nil, List.append_nil] at e1
          unfold collected
          rw [e1]
          exact ⟨hab.1, complete_flags hab.2 hc⟩
      rw [ih (fun l' h' => hl l' (by simp [h'])) ys hsy hly hfy t' h2 hcol.2, hcol.1]
      rfl
  exact main ls hl xs (fun _ => hx) (schedule_loose hx ho) hfine t h hc

/-- Two layers without padding. -/
def exBare : List (Layer Int) := [.conv ⟨2, 1, 1, 0⟩ exG, .act (fun x => x % 7 + 5), .conv ⟨2, 1, 1, 0⟩ exG]

/-- `b` starts, with one frame, next to a longer chunk of `a`, and ends with an empty chunk next to `c`. -/
def exLoose : List (ST Int) :=
  [ { md := ⟨["a"], [true], [false], [3], none⟩, width := 3, rows := [[1, 2, 3]] },
    { md := ⟨["a", "b"], [false, true], [true, false], [3, 1], none⟩, width := 3, rows := [[4, 5, 6], [7, 0, 0]] },
    { md := ⟨["b"], [false], [false], [2], none⟩, width := 4, rows := [[8, 9, 0, 0]] },
    { md := ⟨["b", "c"], [false, true], [true, false], [0, 3], none⟩, width := 3, rows := [[0, 0, 0], [1, 3, 5]] } ]

/-- The streams of `exLoose` are of one sequence each, and the second layer gets an empty first row next to another row; the schedule is not one of those of C53. -/
example : (∀ x ∈ exLoose, WellPacked x ∧ unpack x ≠ [] ∧ ((unpack x).map (·.id)).Nodup) ∧
    chunksOf "b" (exLoose.map unpack) = [⟨"b", true, false, none, [7]⟩, ⟨"b", false, false, none, [8, 9]⟩, ⟨"b", false, true, none, []⟩] ∧
    ((chainRun (fresh exBare) exLoose).map fun r => (collected "a" r.1, collected "b" r.1, collected "c" r.1)) =
      .ok (offlineChain exBare [1, 2, 3, 4, 5, 6], offlineChain exBare [7, 8, 9], offlineChain exBare [1, 3, 5]) ∧
    (layerRun (.conv ⟨2, 1, 1, 0⟩ exG) (fun _ => none) exLoose).map (fun r => (r.1.map fun y => (unpack y).map fun u => (u.id, u.sos, u.frames.length))) =
      .ok [[("a", true, 2)], [("a", false, 3), ("b", true, 0)], [("b", false, 2)], [("b", false, 0), ("c", true, 2)]] := by decide +kernel

example : ∀ l ∈ exBare, l.Bare := by
  intro l hl
  simp only [exBare, List.mem_cons, List.not_mem_nil, or_false] at hl
  rcases hl with rfl | rfl | rfl
  · exact ⟨(by decide : (⟨2, 1, 1, 0⟩ : Cfg).Valid), (by decide : (⟨2, 1, 1, 0⟩ : Cfg).stride ≤ span (⟨2, 1, 1, 0⟩ : Cfg)), rfl⟩
  · trivial
  · exact ⟨(by decide : (⟨2, 1, 1, 0⟩ : Cfg).Valid), (by decide : (⟨2, 1, 1, 0⟩ : Cfg).stride ≤ span (⟨2, 1, 1, 0⟩ : Cfg)), rfl⟩

/-- A padded layer in front: the layer behind the second one gets an empty first row of `b` next to a row of `a`. -/
example : Fine [.conv ⟨2, 1, 1, 1⟩ exG] exShort ∧
    ((chainRun (fresh [.conv ⟨2, 1, 1, 1⟩ exG, .conv ⟨2, 1, 1, 0⟩ exG, .conv ⟨2, 1, 1, 0⟩ exG]) exShort).map fun r => (collected "a" r.1, collected "b" r.1)) =
      .ok (offlineChain [.conv ⟨2, 1, 1, 1⟩ exG, .conv ⟨2, 1, 1, 0⟩ exG, .conv ⟨2, 1, 1, 0⟩ exG] [1, 2, 3, 4, 5, 6],
        offlineChain [.conv ⟨2, 1, 1, 1⟩ exG, .conv ⟨2, 1, 1, 0⟩ exG, .conv ⟨2, 1, 1, 0⟩ exG] [7, 8, 9]) ∧
    (chainRun (fresh [.conv ⟨2, 1, 1, 1⟩ exG, .conv ⟨2, 1, 1, 0⟩ exG]) exShort).map (fun r => (r.1.map fun y => (unpack y).map fun u => (u.id, u.sos, u.frames.length))) =
      .ok [[("a", true, 2)], [("a", false, 4), ("b", true, 0)], [("b", false, 3)]] := by
  refine ⟨⟨by decide, dense_clear (l := .conv ⟨2, 1, 1, 1⟩ exG) (by decide : (⟨2, 1, 1, 1⟩ : Cfg).Valid) (by decide : (⟨2, 1, 1, 1⟩ : Cfg).stride ≤ span (⟨2, 1, 1, 1⟩ : Cfg)) _, fun _ _ _ => trivial⟩, ?_⟩
  decide +kernel

/-- `a` ends with an empty chunk next to `b`, and its id is then used for another sequence. -/
def exAgain : List (ST Int) :=
  [ { md := ⟨["a", "b"], [true, true], [false, false], [3, 1], none⟩, width := 3, rows := [[1, 2, 3], [4, 0, 0]] },
    { md := ⟨["a", "b"], [false, false], [true, false], [0, 3], none⟩, width := 3, rows := [[0, 0, 0], [5, 6, 7]] },
    { md := ⟨["a", "b"], [true, false], [true, true], [3, 1], none⟩, width := 3, rows := [[8, 9, 1], [1, 0, 0]] } ]

/-- **C62 is false of the code, also without padding, if an id is used again.** The end of the first sequence of `a` is not seen, so that its last frames stay in the buffer and are put in front of the second sequence. -/
theorem C62_unpadded_again_false : (∀ x ∈ exAgain, WellPacked x ∧ unpack x ≠ [] ∧ ((unpack x).map (·.id)).Nodup) ∧
    chunksOf "a" (exAgain.map unpack) = [⟨"a", true, false, none, [1, 2, 3]⟩, ⟨"a", false, true, none, []⟩, ⟨"a", true, true, none, [8, 9, 1]⟩] ∧
    ((chainRun (fresh [.conv ⟨3, 1, 1, 0⟩ (fun w => w.foldl (fun a b => 10 * a + b) 0)]) exAgain).map fun r => collected "a" r.1) = .ok [123, 238, 389, 891] := by decide +kernel

end
end DS.Conv
