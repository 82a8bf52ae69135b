import Verif.Model.ConvMask
import Verif.Spec.Infinite
import Verif.Props.Unpadded
import Verif.Props.ConvField
/-!
# C218: Infinite frames
-/

namespace DS.Conv
open Meta

section
variable {α β : Type} [Zero α] [Zero β]

/-! ### One layer -/

theorem maskZ_get (z : β → β) (l : Int) (r : List β) (j : Nat) (h : (j : Int) < l) : (maskRowZ z l r)[j]? = (maskRow l r)[j]? := by
  simp [maskRow, maskRowZ, List.getElem?_mapIdx, h]

theorem maskZ_take (z : β → β) (l : Int) (r : List β) : (maskRow l r).take l.toNat = (maskRowZ z l r).take l.toNat ∧ (maskRow l r).length = (maskRowZ z l r).length := by
  refine ⟨?_, by simp [maskRow, maskRowZ]⟩
  apply List.ext_getElem?
  intro j
  rw [List.getElem?_take, List.getElem?_take]
  split
  · rw [maskZ_get z l r j (by omega)]
  · rfl

theorem maskZ_agree (z : β → β) (outs : List Int) (ys : List (List β)) (h : (List.zipWith maskRow outs ys).length = outs.length) :
    AgreeRows outs (List.zipWith maskRow outs ys) (List.zipWith (maskRowZ z) outs ys) := by
  induction outs generalizing ys with
  | nil => cases ys <;> trivial
  | cons l outs ih =>
    cases ys with
    | nil => simp at h
    | cons y ys => exact ⟨(maskZ_take z l y).1, (maskZ_take z l y).2, ih ys (by simpa using h)⟩

theorem zero_mask (l : Int) (r : List β) : maskRowZ (fun _ => 0) l r = maskRow l r := rfl

/-- Multiplication that sends everything to 0 gives the model of the other claims. -/
theorem forwardZ_zero (c : Cfg) (g : List α → β) (buf : Buf α) (x : ST α) : forwardZ (fun _ => 0) c g buf x = forward c g buf x := rfl

theorem forwardZ_ok (z : β → β) {c : Cfg} {g : List α → β} {buf : Buf α} {x : ST α} {o : Out α β} (h : forward c g buf x = .ok o) :
    ∃ o', forwardZ z c g buf x = .ok o' ∧ o'.buf = o.buf ∧ o'.caller = o.caller ∧ o'.y.md = o.y.md ∧ o'.y.width = o.y.width ∧
      ∃ ys, o.y.rows = List.zipWith maskRow o.y.md.lengths ys ∧ o'.y.rows = List.zipWith (maskRowZ z) o.y.md.lengths ys := by
  unfold forward at h
  obtain ⟨⟨x1, s⟩, h1, h⟩ := bind_ok_iff h
  obtain ⟨⟨y, its⟩, h2, h⟩ := bind_ok_iff h
  unfold conv1d at h2
  obtain ⟨⟨m, p, w, rows⟩, h3, h2⟩ := bind_ok_iff h2
  obtain ⟨⟨n, ys⟩, h4, h2⟩ := bind_ok_iff h2
  simp only [Except.ok.injEq, Prod.mk.injEq] at h h2
  obtain ⟨rfl, rfl⟩ := h2
  subst h
  unfold forwardZ conv1dZ
  simp only [h1, Except.bind_ok', h3, h4]
  exact ⟨_, rfl, rfl, rfl, rfl, rfl, ys, rfl, rfl⟩

theorem forwardZ_error (z : β → β) {c : Cfg} {g : List α → β} {buf : Buf α} {x : ST α} {e : PyErr} (h : forward c g buf x = .error e) : forwardZ z c g buf x = .error e := by
  unfold forward at h
  unfold forwardZ
  cases h1 : preHook c buf x with
  | error e1 => rw [h1, Except.bind_error'] at h; rw [Except.bind_error']; simpa using h
  | ok q =>
    obtain ⟨x1, s⟩ := q
    rw [h1, Except.bind_ok'] at h
    rw [Except.bind_ok']
    simp only at h ⊢
    unfold conv1d at h
    unfold conv1dZ
    cases h2 : applyPadding c x1 with
    | error e1 => rw [h2, Except.bind_error', Except.bind_error'] at h; rw [Except.bind_error', Except.bind_error']; simpa using h
    | ok q =>
      obtain ⟨m, p, w, rows⟩ := q
      rw [h2, Except.bind_ok'] at h
      rw [Except.bind_ok']
      simp only at h ⊢
      cases h3 : torchConv1d c g p w rows with
      | error e1 => rw [h3, Except.bind_error', Except.bind_error'] at h; rw [Except.bind_error', Except.bind_error']; simpa using h
      | ok q => rw [h3] at h; simp only [Except.bind_ok'] at h; simp at h

/-- **C218, one call.** For every module, every state of the buffers and every batch, a call raises exactly when the model without infinities raises, with the same exception, and otherwise gives the same metadata, width, buffers and
valid frames. Missing: the content of the padding of the output, which later layers may read (`C218_mask_false`). -/
theorem C218_call_partial (z : β → β) (c : Cfg) (g : List α → β) (buf : Buf α) (x : ST α) :
    ((forwardZ z c g buf x).map fun o => (o.y.md, o.y.width, o.buf, o.caller)) = ((forward c g buf x).map fun o => (o.y.md, o.y.width, o.buf, o.caller)) ∧
    ∀ o o', forward c g buf x = .ok o → forwardZ z c g buf x = .ok o' → ∀ (k j : Nat) (l : Int), o.y.md.lengths[k]? = some l → (j : Int) < l →
      (o'.y.rows[k]?.bind fun r => r[j]?) = (o.y.rows[k]?.bind fun r => r[j]?) := by
  cases h : forward c g buf x with
  | error e =>
    rw [forwardZ_error z h]
    exact ⟨rfl, fun o o' h => by simp at h⟩
  | ok o =>
    obtain ⟨o', e1, e2, e3, e4, e5, w, e6, e7⟩ := forwardZ_ok z h
    refine ⟨by rw [e1, map_ok', map_ok', e2, e3, e4, e5], ?_⟩
    intro p p' hp hp' k j l hl hj
    rw [e1] at hp'
    simp only [Except.ok.injEq] at hp hp'
    subst hp hp'
    rw [e6, e7, List.getElem?_zipWith, List.getElem?_zipWith, hl]
    cases w[k]? with
    | none => rfl
    | some r => exact maskZ_get z l r j hj

/-! ### Runs of layers -/

end
section
variable {α : Type} [Zero α]

/-- A sequence of calls of one layer. -/
def layerRunZ (z : α → α) (l : Layer α) (buf : Buf α) : List (ST α) → Py (List (ST α) × Buf α)
  | [] => .ok ([], buf)
  | x :: xs => do
    let (y, b) ← l.stepZ z buf x
    let (ys, b') ← layerRunZ z l b xs
    .ok (y :: ys, b')

theorem chainRunZ_nil (z : α → α) (xs : List (ST α)) : chainRunZ z [] xs = .ok (xs, []) := by
  induction xs with
  | nil => rfl
  | cons x xs ih => simp [chainRunZ, chainStepZ, Except.bind_ok', ih]

theorem chainRunZ_cons {z : α → α} {l : Layer α} {b : Buf α} {s : List (Layer α × Buf α)} {xs zs : List (ST α)} {t : List (Layer α × Buf α)}
    (h : chainRunZ z ((l, b) :: s) xs = .ok (zs, t)) :
    ∃ ys b' t', layerRunZ z l b xs = .ok (ys, b') ∧ chainRunZ z s ys = .ok (zs, t') := by
  induction xs generalizing b s zs t with
  | nil =>
    simp only [chainRunZ, Except.ok.injEq, Prod.mk.injEq] at h
    exact ⟨[], b, s, rfl, by rw [← h.1]; rfl⟩
  | cons x xs ih =>
    simp only [chainRunZ] at h
    obtain ⟨⟨v, s1⟩, h1, h⟩ := bind_ok_iff h
    obtain ⟨⟨zs', s2⟩, h2, h⟩ := bind_ok_iff h
    simp only [Except.ok.injEq, Prod.mk.injEq] at h
    obtain ⟨rfl, rfl⟩ := h
    simp only [chainStepZ] at h1
    obtain ⟨⟨y, b1⟩, h3, h1⟩ := bind_ok_iff h1
    obtain ⟨⟨v', s3⟩, h4, h1⟩ := bind_ok_iff h1
    simp only [Except.ok.injEq, Prod.mk.injEq] at h1
    obtain ⟨rfl, rfl⟩ := h1
    obtain ⟨ys, b', t', h5, h6⟩ := ih h2
    refine ⟨y :: ys, b', t', ?_, ?_⟩
    · simp only [layerRunZ, h3, Except.bind_ok', h5]
    · simp only [chainRunZ, h4, Except.bind_ok', h6]

theorem chainRunZ_cons_ok {z : α → α} {l : Layer α} {b b' : Buf α} {s t' : List (Layer α × Buf α)} {xs ys zs : List (ST α)}
    (h1 : layerRunZ z l b xs = .ok (ys, b')) (h2 : chainRunZ z s ys = .ok (zs, t')) : chainRunZ z ((l, b) :: s) xs = .ok (zs, (l, b') :: t') := by
  induction xs generalizing b s ys zs with
  | nil =>
    simp only [layerRunZ, Except.ok.injEq, Prod.mk.injEq] at h1
    obtain ⟨rfl, rfl⟩ := h1
    simp only [chainRunZ, Except.ok.injEq, Prod.mk.injEq] at h2 ⊢
    exact ⟨h2.1, by rw [h2.2]⟩
  | cons x xs ih =>
    simp only [layerRunZ] at h1
    obtain ⟨⟨y, b1⟩, h3, h1⟩ := bind_ok_iff h1
    obtain ⟨⟨ys', b2⟩, h4, h1⟩ := bind_ok_iff h1
    simp only [Except.ok.injEq, Prod.mk.injEq] at h1
    obtain ⟨rfl, rfl⟩ := h1
    simp only [chainRunZ] at h2
    obtain ⟨⟨v, s1⟩, h5, h2⟩ := bind_ok_iff h2
    obtain ⟨⟨zs', s2⟩, h6, h2⟩ := bind_ok_iff h2
    simp only [Except.ok.injEq, Prod.mk.injEq] at h2
    obtain ⟨rfl, rfl⟩ := h2
    have := ih h4 h6
    simp only [chainRunZ, chainStepZ, h3, Except.bind_ok', h5, this]

theorem same_refl {x : ST α} (h : Shaped x) : SameButPadding x x := by
  refine ⟨rfl, rfl, agree_of ?_ rfl ?_⟩
  · rw [h.1.2.2.1, h.2.1]
  · intro k l r r' _ h1 h2
    rw [h1] at h2
    simp only [Option.some.injEq] at h2
    rw [h2]
    exact ⟨rfl, rfl⟩

omit [Zero α] in
theorem agree_act (f : α → α) {ls : List Int} {rs rs' : List (List α)} (h : AgreeRows ls rs rs') : AgreeRows ls (rs.map (·.map f)) (rs'.map (·.map f)) := by
  induction ls generalizing rs rs' with
  | nil =>
    cases rs <;> cases rs' <;> exact h
  | cons l ls ih =>
    cases rs with
    | nil => exact h.elim
    | cons r rs =>
      cases rs' with
      | nil => exact h.elim
      | cons r' rs' => exact ⟨by simp only [← List.map_take, h.1], by simp [h.2.1], ih h.2.2⟩

omit [Zero α] in
theorem same_unpack {x x' : ST α} (hx : Shaped x) (h : SameButPadding x x') : unpack x' = unpack x := by
  unfold unpack
  rw [h.1]
  have main : ∀ (rs : List Row) (a b : List (List α)), AgreeRows (rs.map (·.len)) a b →
      List.zipWith (fun (r : Row) f => (⟨r.id, r.sos, r.eos, r.chunk, f.take r.len.toNat⟩ : Chunk α)) rs b =
        List.zipWith (fun (r : Row) f => (⟨r.id, r.sos, r.eos, r.chunk, f.take r.len.toNat⟩ : Chunk α)) rs a := by
    intro rs
    induction rs with
    | nil => intros; rfl
    | cons r rs ih =>
      intro a b hab
      cases a with
      | nil => exact hab.elim
      | cons y a =>
        cases b with
        | nil => exact hab.elim
        | cons y' b =>
          obtain ⟨h1, -, h2⟩ := hab
          simp only [List.zipWith_cons_cons, ih a b h2, h1]
  exact main _ _ _ (by rw [← lengths_rows x.md hx.1]; exact h.2.2)

/-- Of two runs of a layer whose inputs lead to the same results, outputs differ in the padding at most. -/
theorem layerZ_same (z : α → α) {l : Layer α} {xs xs' : List (ST α)} (hs : List.Forall₂ (fun x x' => SameButPadding x x' ∧ ∀ (c : Cfg) (g : List α → α), l = .conv c g → ∀ b, forward c g b x' = forward c g b x) xs xs')
    {b b' : Buf α} {ys : List (ST α)} (h : layerRun l b xs = .ok (ys, b')) (hy : ∀ y ∈ ys, Shaped y) :
    ∃ ys', layerRunZ z l b xs' = .ok (ys', b') ∧ List.Forall₂ SameButPadding ys ys' := by
  induction hs generalizing b ys with
  | nil =>
    simp only [layerRun, Except.ok.injEq, Prod.mk.injEq] at h
    obtain ⟨rfl, rfl⟩ := h
    exact ⟨[], rfl, .nil⟩
  | @cons x x' xs xs' hxx _ ih =>
    simp only [layerRun] at h
    obtain ⟨⟨y, b1⟩, h1, h⟩ := bind_ok_iff h
    obtain ⟨⟨ys1, b2⟩, h2, h⟩ := bind_ok_iff h
    simp only [Except.ok.injEq, Prod.mk.injEq] at h
    obtain ⟨rfl, rfl⟩ := h
    obtain ⟨ys', h3, h4⟩ := ih h2 fun y hm => hy y (by simp [hm])
    have hstep : ∃ y', l.stepZ z b x' = .ok (y', b1) ∧ SameButPadding y y' := by
      cases l with
      | act f =>
        simp only [Layer.step, Except.ok.injEq, Prod.mk.injEq] at h1
        obtain ⟨rfl, rfl⟩ := h1
        exact ⟨_, rfl, hxx.1.1, hxx.1.2.1, agree_act f hxx.1.2.2⟩
      | conv c g =>
        simp only [Layer.step] at h1
        rw [← hxx.2 c g rfl b] at h1
        cases ho : forward c g b x' with
        | error e => rw [ho, map_error'] at h1; simp at h1
        | ok o =>
          rw [ho, map_ok'] at h1
          simp only [Except.ok.injEq, Prod.mk.injEq] at h1
          obtain ⟨rfl, rfl⟩ := h1
          obtain ⟨o', e1, e2, -, e3, e4, w, e5, e6⟩ := forwardZ_ok z ho
          have hsh := hy o.y (by simp)
          refine ⟨o'.y, by simp only [Layer.stepZ, e1, map_ok', e2], e3, e4, ?_⟩
          rw [e6, e5]
          apply maskZ_agree
          rw [← e5, hsh.2.1, hsh.1.2.2.1]
    obtain ⟨y', h5, h6⟩ := hstep
    exact ⟨y' :: ys', by simp only [layerRunZ, h5, Except.bind_ok', h3], .cons h6 h4⟩

theorem layerZ_ok (z : α → α) {l : Layer α} {xs xs' : List (ST α)} (hs : List.Forall₂ (fun x x' => ∀ (c : Cfg) (g : List α → α), l = .conv c g → ∀ b, forward c g b x' = forward c g b x) xs xs')
    {b b' : Buf α} {ys' : List (ST α)} (h : layerRunZ z l b xs' = .ok (ys', b')) : ∃ ys, layerRun l b xs = .ok (ys, b') := by
  induction hs generalizing b ys' with
  | nil =>
    simp only [layerRunZ, Except.ok.injEq, Prod.mk.injEq] at h
    obtain ⟨rfl, rfl⟩ := h
    exact ⟨[], rfl⟩
  | @cons x x' xs xs' hxx _ ih =>
    simp only [layerRunZ] at h
    obtain ⟨⟨y, b1⟩, h1, h⟩ := bind_ok_iff h
    obtain ⟨⟨ys1, b2⟩, h2, h⟩ := bind_ok_iff h
    simp only [Except.ok.injEq, Prod.mk.injEq] at h
    obtain ⟨rfl, rfl⟩ := h
    obtain ⟨ys, h3⟩ := ih h2
    have hstep : ∃ y', l.step b x = .ok (y', b1) := by
      cases l with
      | act f =>
        simp only [Layer.stepZ, Except.ok.injEq, Prod.mk.injEq] at h1
        obtain ⟨rfl, rfl⟩ := h1
        exact ⟨_, rfl⟩
      | conv c g =>
        simp only [Layer.stepZ] at h1
        simp only [Layer.step]
        rw [← hxx c g rfl b]
        cases ho : forward c g b x' with
        | error e => rw [forwardZ_error z ho, map_error'] at h1; simp at h1
        | ok o =>
          obtain ⟨o', e1, e2, -⟩ := forwardZ_ok z ho
          rw [e1, map_ok'] at h1
          simp only [Except.ok.injEq, Prod.mk.injEq] at h1
          exact ⟨o.y, by rw [map_ok', ← e2, h1.2]⟩
    obtain ⟨y', h5⟩ := hstep
    exact ⟨y' :: ys, by simp only [layerRun, h5, Except.bind_ok', h3]⟩


/-! ### Stacks -/

omit [Zero α] in
theorem loose_shaped {xs : List (ST α)} (h : Loose xs) : ∀ x ∈ xs, Shaped x := fun x hx => (h.1 x hx).1

theorem bare_pairs {l : Layer α} (hl : l.Bare) {xs xs' : List (ST α)} (hx : ∀ x ∈ xs, Shaped x) (h : List.Forall₂ SameButPadding xs xs') :
    List.Forall₂ (fun x x' => SameButPadding x x' ∧ ∀ (c : Cfg) (g : List α → α), l = .conv c g → ∀ b, forward c g b x' = forward c g b x) xs xs' := by
  induction h with
  | nil => exact .nil
  | @cons x x' xs xs' h1 _ ih =>
    refine .cons ⟨h1, ?_⟩ (ih fun y hy => hx y (by simp [hy]))
    rintro c g rfl b
    exact C112_padding_partial c hl.1 g b x x' (hx x (by simp)) h1 (.inl hl.2.2)

theorem refl_pairs (l : Layer α) {xs : List (ST α)} (hx : ∀ x ∈ xs, Shaped x) :
    List.Forall₂ (fun x x' => SameButPadding x x' ∧ ∀ (c : Cfg) (g : List α → α), l = .conv c g → ∀ b, forward c g b x' = forward c g b x) xs xs := by
  induction xs with
  | nil => exact .nil
  | cons x xs ih => exact .cons ⟨same_refl (hx x (by simp)), fun _ _ _ _ => rfl⟩ (ih fun y hy => hx y (by simp [hy]))

theorem chainZ_same (z : α → α) (ls : List (Layer α)) (hl : ∀ l ∈ ls, l.Bare) (xs xs' : List (ST α)) (hx : Loose xs) (hs : List.Forall₂ SameButPadding xs xs') :
    (∀ zs t, chainRun (fresh ls) xs = .ok (zs, t) → ∃ zs' t', chainRunZ z (fresh ls) xs' = .ok (zs', t') ∧ List.Forall₂ SameButPadding zs zs' ∧ Loose zs) ∧
    ∀ r, chainRunZ z (fresh ls) xs' = .ok r → ∃ r, chainRun (fresh ls) xs = .ok r := by
  induction ls generalizing xs xs' with
  | nil =>
    rw [show fresh ([] : List (Layer α)) = [] from rfl, chainRun_nil, chainRunZ_nil]
    refine ⟨fun zs t h => ?_, fun r _ => ⟨_, rfl⟩⟩
    simp only [Except.ok.injEq, Prod.mk.injEq] at h
    obtain ⟨rfl, -⟩ := h
    exact ⟨_, _, rfl, hs, hx⟩
  | cons l ls ih =>
    have hb := hl l (by simp)
    have hp := bare_pairs hb (loose_shaped hx) hs
    have ih' := fun ys ys' h1 h2 => ih (fun l' h' => hl l' (by simp [h'])) ys ys' h1 h2
    refine ⟨fun zs t h => ?_, fun r h => ?_⟩
    · obtain ⟨ys, b', t', h1, h2⟩ := chainRun_cons h
      obtain ⟨a1, -⟩ := layer_loose hb hx h1
      obtain ⟨ys', h3, h4⟩ := layerZ_same z hp h1 (loose_shaped a1)
      obtain ⟨zs', t2, h5, h6⟩ := (ih' ys ys' a1 h4).1 zs t' h2
      exact ⟨zs', _, chainRunZ_cons_ok h3 h5, h6⟩
    · obtain ⟨zs', t⟩ := r
      obtain ⟨ys', b', t', h1, h2⟩ := chainRunZ_cons h
      obtain ⟨ys, h3⟩ := layerZ_ok z (hp.imp fun _ _ h => h.2) h1
      obtain ⟨a1, -⟩ := layer_loose hb hx h3
      obtain ⟨ys2, h4, h5⟩ := layerZ_same z hp h3 (loose_shaped a1)
      rw [h1] at h4
      simp only [Except.ok.injEq, Prod.mk.injEq, and_true] at h4
      subst h4
      obtain ⟨⟨zs, t2⟩, h6⟩ := (ih' ys ys' a1 h5).2 _ h2
      exact ⟨_, chainRun_cons_ok h3 h6⟩

omit [Zero α] in
theorem collected_same {i : String} {zs zs' : List (ST α)} (hz : ∀ y ∈ zs, Shaped y) (h : List.Forall₂ SameButPadding zs zs') : collected i zs' = collected i zs := by
  have : zs'.map unpack = zs.map unpack := by
    induction h with
    | nil => rfl
    | cons h1 _ ih => rw [List.map_cons, List.map_cons, same_unpack (hz _ (by simp)) h1, ih fun y hy => hz y (by simp [hy])]
  unfold collected
  rw [this]

/-- **C218, stacks without padding.** Whatever multiplication by 0 makes of the outputs in the padding, a stack of layers without padding accepts the same batches, and every stream gets the outputs of the ordinary stack on its frames.
Missing: layers with padding after the first (`C218_mask_false`). -/
theorem C218_unpadded_partial (z : α → α) (ls : List (Layer α)) (hl : ∀ l ∈ ls, l.Bare) (xs : List (ST α)) (hx : Loose xs) :
    ((∃ r, chainRunZ z (fresh ls) xs = .ok r) ↔ ∃ r, chainRun (fresh ls) xs = .ok r) ∧
    ∀ zs t, chainRunZ z (fresh ls) xs = .ok (zs, t) → ∀ i, collected i zs = offlineChain ls (collected i xs) := by
  have hs : List.Forall₂ SameButPadding xs xs := by
    have h := loose_shaped hx
    clear hx
    induction xs with
    | nil => exact .nil
    | cons x xs ih => exact .cons (same_refl (h x (by simp))) (ih fun y hy => h y (by simp [hy]))
  obtain ⟨h1, h2⟩ := chainZ_same z ls hl xs xs hx hs
  refine ⟨⟨fun ⟨r, h⟩ => h2 r h, fun ⟨r, h⟩ => ?_⟩, fun zs' t h i => ?_⟩
  · obtain ⟨zs', t', h3, -⟩ := h1 r.1 r.2 h
    exact ⟨_, h3⟩
  · obtain ⟨r, h3⟩ := h2 _ h
    obtain ⟨zs2, t2, h4, h5, h6⟩ := h1 r.1 r.2 h3
    rw [h] at h4
    simp only [Except.ok.injEq, Prod.mk.injEq] at h4
    obtain ⟨rfl, -⟩ := h4
    rw [collected_same (loose_shaped h6) h5]
    exact C62_unpadded_partial ls hl xs hx r.1 r.2 h3 i

/-- The outputs of a first layer, with padding or without, as batches for layers without. -/
theorem first_loose {l : Layer α} (hl : l.OK) {xs : List (ST α)} (hc : l.Clear xs) (hx : Schedule xs) (ho : ∀ i, Once (chunksOf i (xs.map unpack))) {ys : List (ST α)} {b : Buf α}
    (h1 : layerRun l (fun _ => none) xs = .ok (ys, b)) : Loose ys := by
  obtain ⟨a1, a2, a3⟩ := layer_via hl hc hx h1
  have hfl := Coll.chunksOf_flags (a := ys.map unpack) (b := xs.map unpack) (by simpa [Function.comp_def] using a2)
  have hfrom : ∀ j, List.Forall₂ From (chunksOf j (xs.map unpack)) (chunksOf j (ys.map unpack)) := by
    intro j
    have : List.Forall₂ (fun u v => u = v) ((chunksOf j (xs.map unpack)).map Chunk.flags) ((chunksOf j (ys.map unpack)).map Chunk.flags) := by
      rw [hfl j]; exact List.forall₂_eq_eq_eq ▸ rfl
    rw [List.forall₂_map_left_iff, List.forall₂_map_right_iff] at this
    refine this.imp ?_
    intro u v he
    unfold Chunk.flags at he
    simp only [Prod.mk.injEq] at he
    exact ⟨he.1.symm, fun h => by rw [he.2.1]; exact h, fun h => by rw [he.2.2]; exact h⟩
  have hids : ∀ y ∈ ys, unpack y ≠ [] ∧ ((unpack y).map (·.id)).Nodup := by
    intro y hy
    have hm : (unpack y).map Chunk.flags ∈ ys.map fun y => (unpack y).map Chunk.flags := List.mem_map_of_mem hy
    rw [a2] at hm
    obtain ⟨x, hxm, he⟩ := List.mem_map.1 hm
    have hb := (hx.1 x hxm).2.1
    refine ⟨?_, ?_⟩
    · intro hn
      rw [hn] at he
      exact hb.1 (by simpa using he)
    · have h1 : (unpack y).map (·.id) = ((unpack y).map Chunk.flags).map (·.1) := by rw [List.map_map]; rfl
      have h2 : (unpack x).map (·.id) = ((unpack x).map Chunk.flags).map (·.1) := by rw [List.map_map]; rfl
      rw [h1, ← he, ← h2]
      exact hb.2.1
  exact ⟨fun y hy => ⟨wp_shaped (a1 y hy).1, hids y hy⟩, fun j => once_from (hfrom j) (ho j)⟩

/-- **C218, padding in the first layer.** If only the first layer has padding, every complete stream still gets the outputs of the ordinary stack. Missing: layers with padding after the first (`C218_mask_false`). -/
theorem C218_padded_first_partial (z : α → α) (l : Layer α) (ls : List (Layer α)) (hl : l.OK) (hls : ∀ l ∈ ls, l.Bare) (xs : List (ST α)) (hx : Schedule xs)
    (ho : ∀ i, Once (chunksOf i (xs.map unpack))) (hfine : Fine [l] xs) :
    ((∃ r, chainRunZ z (fresh (l :: ls)) xs = .ok r) ↔ ∃ r, chainRun (fresh (l :: ls)) xs = .ok r) ∧
    ∀ zs t, chainRunZ z (fresh (l :: ls)) xs = .ok (zs, t) → ∀ i, Complete (chunksOf i (xs.map unpack)) → collected i zs = offlineChain (l :: ls) (collected i xs) := by
  have hsh : ∀ x ∈ xs, Shaped x := loose_shaped (schedule_loose hx ho)
  have hp := refl_pairs l hsh
  have fwd : ∀ zs t, chainRun (fresh (l :: ls)) xs = .ok (zs, t) → ∃ zs' t', chainRunZ z (fresh (l :: ls)) xs = .ok (zs', t') ∧ List.Forall₂ SameButPadding zs zs' ∧ Loose zs := by
    intro zs t h
    obtain ⟨ys, b', t', h1, h2⟩ := chainRun_cons h
    have a1 := first_loose hl hfine.2.1 hx ho h1
    obtain ⟨ys', h3, h4⟩ := layerZ_same z hp h1 (loose_shaped a1)
    obtain ⟨zs', t2, h5, h6⟩ := (chainZ_same z ls hls ys ys' a1 h4).1 zs t' h2
    exact ⟨zs', _, chainRunZ_cons_ok h3 h5, h6⟩
  have bwd : ∀ r, chainRunZ z (fresh (l :: ls)) xs = .ok r → ∃ r, chainRun (fresh (l :: ls)) xs = .ok r := by
    intro r h
    obtain ⟨zs', t⟩ := r
    obtain ⟨ys', b', t', h1, h2⟩ := chainRunZ_cons h
    obtain ⟨ys, h3⟩ := layerZ_ok z (hp.imp fun _ _ h => h.2) h1
    have a1 := first_loose hl hfine.2.1 hx ho h3
    obtain ⟨ys2, h4, h5⟩ := layerZ_same z hp h3 (loose_shaped a1)
    rw [h1] at h4
    simp only [Except.ok.injEq, Prod.mk.injEq, and_true] at h4
    subst h4
    obtain ⟨⟨zs, t2⟩, h6⟩ := (chainZ_same z ls hls ys ys' a1 h5).2 _ h2
    exact ⟨_, chainRun_cons_ok h3 h6⟩
  refine ⟨⟨fun ⟨r, h⟩ => bwd r h, fun ⟨r, h⟩ => ?_⟩, fun zs' t h i hc => ?_⟩
  · obtain ⟨zs', t', h3, -⟩ := fwd r.1 r.2 h
    exact ⟨_, h3⟩
  · obtain ⟨r, h3⟩ := bwd _ h
    obtain ⟨zs2, t2, h4, h5, h6⟩ := fwd r.1 r.2 h3
    rw [h] at h4
    simp only [Except.ok.injEq, Prod.mk.injEq] at h4
    obtain ⟨rfl, -⟩ := h4
    rw [collected_same (loose_shaped h6) h5]
    exact C62_padded_first_partial [l] ls (by simpa using hl) hls xs hx ho hfine r.1 r.2 h3 i hc

/-! ### A stack with padding further back -/

/-- A whole sequence of two frames, the last of them infinite, and a longer chunk of another stream. -/
def exInf : ST Fl := { md := ⟨["a", "b"], [true, true], [true, false], [2, 4], none⟩, width := 4, rows := [[.fin 1, .inf, .fin 0, .fin 0], [.fin 1, .fin 2, .fin 3, .fin 4]] }

/-- Kernel 2 without padding, then kernel 2 with padding 2. -/
def exInfStack : List (Layer Fl) := [.conv ⟨2, 1, 1, 0⟩ Fl.sum, .conv ⟨2, 1, 1, 2⟩ Fl.sum]

/-- **C218 is false of the code.** Where the first layer zeroes its padding, infinity times 0 gives NaN, which the second layer takes for the end padding of the shorter sequence: its last output is NaN instead of 0, and the one before that
NaN instead of infinity. The model without infinities gives the ordinary outputs. -/
theorem C218_mask_false : WellPacked exInf ∧ offlineChain exInfStack (collected "a" [exInf]) = [.fin 0, .inf, .inf, .fin 0] ∧
    ((chainRunZ Fl.timesZero (fresh exInfStack) [exInf]).map fun r => collected "a" r.1) = .ok [.fin 0, .inf, .nan, .nan] ∧
    ((chainRun (fresh exInfStack) [exInf]).map fun r => collected "a" r.1) = .ok [.fin 0, .inf, .inf, .fin 0] := by
  refine ⟨?_, ?_, ?_, ?_⟩ <;> decide +kernel

/-- Without padding: the mask leaves a NaN behind, which no later output sees. -/
example : Loose [exInf] ∧ (∀ l ∈ [Layer.conv ⟨2, 1, 1, 0⟩ Fl.sum, Layer.conv ⟨1, 1, 1, 0⟩ Fl.sum], l.Bare) ∧
    ((chainRunZ Fl.timesZero (fresh [.conv ⟨2, 1, 1, 0⟩ Fl.sum, .conv ⟨1, 1, 1, 0⟩ Fl.sum]) [exInf]).map fun r => (r.1.map (·.rows), collected "a" r.1)) =
      .ok ([[[.inf, .nan, .fin 0], [.fin 3, .fin 5, .fin 7]]], [.inf]) := by
  refine ⟨?_, ?_, ?_⟩
  · refine ⟨fun x hx => ?_, fun i p x q he => ?_⟩
    · simp only [List.mem_singleton] at hx
      subst hx
      exact ⟨wp_shaped (by decide +kernel), by decide, by decide⟩
    · have hlen : (chunksOf i ([exInf].map unpack)).length ≤ 1 := by
        have : ∀ j : String, (([⟨"a", true, true, none, [.fin 1, .inf]⟩, ⟨"b", true, false, none, [.fin 1, .fin 2, .fin 3, .fin 4]⟩] : List (Chunk Fl)).filter fun u => u.id == j).length ≤ 1 := by
          intro j
          by_cases h : "a" = j
          · subst h; decide
          · simp only [List.filter_cons, List.filter_nil, beq_iff_eq, h, if_false]
            split <;> simp
        exact this i
      have hl := congrArg List.length he
      simp only [List.length_append, List.length_cons] at hl
      exact ⟨fun _ => List.length_eq_zero_iff.1 (by omega), fun _ => List.length_eq_zero_iff.1 (by omega)⟩
  · intro l hl
    simp only [List.mem_cons, List.not_mem_nil, or_false] at hl
    rcases hl with rfl | rfl <;> exact ⟨by decide, by decide, rfl⟩
  · decide +kernel

/-- Padding in the first layer only: the infinite frame of `a` reaches the outputs that see it. -/
example : Fine [Layer.conv ⟨2, 1, 1, 1⟩ Fl.sum] [exInf] ∧ Complete (chunksOf "a" ([exInf].map unpack)) ∧
    ((chainRunZ Fl.timesZero (fresh [.conv ⟨2, 1, 1, 1⟩ Fl.sum, .conv ⟨2, 1, 1, 0⟩ Fl.sum]) [exInf]).map fun r => collected "a" r.1) = .ok [.inf, .inf] ∧
    offlineChain [.conv ⟨2, 1, 1, 1⟩ Fl.sum, .conv ⟨2, 1, 1, 0⟩ Fl.sum] (collected "a" [exInf]) = [.inf, .inf] := by
  refine ⟨⟨by decide, dense_clear (l := .conv ⟨2, 1, 1, 1⟩ Fl.sum) (by decide : (⟨2, 1, 1, 1⟩ : Cfg).Valid) (by decide : (⟨2, 1, 1, 1⟩ : Cfg).stride ≤ span (⟨2, 1, 1, 1⟩ : Cfg)) _, fun _ _ _ => trivial⟩, ?_, ?_, ?_⟩
  · decide +kernel
  · decide +kernel
  · decide +kernel

end
end DS.Conv
