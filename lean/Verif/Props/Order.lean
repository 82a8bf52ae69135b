import Verif.Lemmas.ConvView
import Verif.Spec.Order
/-! C203, C204: the order of the rows, the names of the streams and chunk indices do not influence what is computed. -/

namespace DS.Conv
open Meta
section
variable {α : Type} [Zero α]

theorem seqs_mk (b : Bool) (w : Nat) (es : List (Row × List α)) : seqs (mkST b w es) = es.map (vw id) := by
  simp only [seqs, mkST, ofRows]
  induction es with
  | nil => rfl
  | cons e es ih =>
    simp only [List.map_cons, List.zip_cons_cons]
    rw [ih]
    rfl

theorem vw_rename (f : String → String) (es : List (Row × List α)) : es.map (vw f) = (es.map (vw id)).map fun s => (f s.1, s.2) := by
  simp [vw, Function.comp_def]

/-- A function of frames on the frames of a row. -/
def onFrames (k : α → α) (v : View α) : View α := (v.1, v.2.1, v.2.2.1, v.2.2.2.1, v.2.2.2.2.map k)

/-- A relation between lists of rows that every layer keeps. -/
structure Kept (R : List (View α) → List (View α) → Prop) : Prop where
  conv : ∀ (c : Cfg) (g : List α → α) (buf : Buf α) (w : Nat) (us vs : List (View α)), R us vs →
    (∃ e, forwardV c g buf w us = .error e ∧ forwardV c g buf w vs = .error e) ∨
    ∃ n ys zs B, forwardV c g buf w us = .ok (n, ys, B) ∧ forwardV c g buf w vs = .ok (n, zs, B) ∧ R ys zs
  act : ∀ (k : α → α) (us vs : List (View α)), R us vs → R (us.map (onFrames k)) (vs.map (onFrames k))

theorem kept_eq : Kept (α := α) Eq where
  conv c g buf w us vs h := by
    subst h
    cases hf : forwardV c g buf w us with
    | error e => exact .inl ⟨e, rfl, rfl⟩
    | ok q => exact .inr ⟨_, _, _, _, rfl, rfl, rfl⟩
  act k us vs h := by rw [h]

theorem kept_perm : Kept (α := α) fun us vs => us.Perm vs ∧ (us.map (·.1)).Nodup where
  conv c g buf w us vs h := by
    rcases forward_perm c g buf w us vs h.1 h.2 with he | ⟨n, ys, zs, B, h1, h2, h3, h4⟩
    · exact .inl he
    · exact .inr ⟨n, ys, zs, B, h1, h2, h3, by rw [h4]; exact h.2⟩
  act k us vs h := ⟨h.1.map _, by simpa [onFrames, Function.comp_def] using h.2⟩

/-- Two batches with related rows. -/
def Like (R : List (View α) → List (View α) → Prop) (f : String → String) (x x' : ST α) : Prop :=
  x'.width = x.width ∧ R ((seqs x).map fun s => (f s.1, s.2)) (seqs x')

theorem layer_like (R : List (View α) → List (View α) → Prop) (hR : Kept R) (f : String → String) (hf : Function.Injective f) (l : Layer α) (b b' : Buf α)
    (hb : ∀ i, b' (f i) = b i) (x x' : ST α) (hx : Lined x) (hx' : Lined x') (h : Like R f x x') :
    (∃ e, l.step b x = .error e ∧ l.step b' x' = .error e) ∨
    ∃ y y' o o', l.step b x = .ok (y, o) ∧ l.step b' x' = .ok (y', o') ∧ Like R f y y' ∧ ∀ i, o' (f i) = o i := by
  obtain ⟨es, he⟩ := mk_of x hx
  obtain ⟨es', he'⟩ := mk_of x' hx'
  obtain ⟨hw, hr⟩ := h
  rw [he, he', seqs_mk, seqs_mk, ← vw_rename] at hr
  cases l with
  | act k =>
    refine .inr ⟨_, _, _, _, rfl, rfl, ⟨hw, ?_⟩, hb⟩
    have h1 : ({ x with rows := x.rows.map (·.map k) } : ST α) = mkST x.md.chunk.isSome x.width (es.map fun e => (e.1, e.2.map k)) := by
      conv_lhs => rw [he]
      simp [mkST, Function.comp_def]
    have h2 : ({ x' with rows := x'.rows.map (·.map k) } : ST α) = mkST x'.md.chunk.isSome x'.width (es'.map fun e => (e.1, e.2.map k)) := by
      conv_lhs => rw [he']
      simp [mkST, Function.comp_def]
    rw [h1, h2, seqs_mk, seqs_mk, ← vw_rename]
    have := hR.act k _ _ hr
    simpa [onFrames, vw, Function.comp_def] using this
  | conv c g =>
    simp only [Layer.step]
    rw [he, he', hw]
    have hA := forward_view f hf c g b b' hb x.md.chunk.isSome x.width es
    have hB := forward_view id (fun _ _ h => h) c g b' b' (fun _ => rfl) x'.md.chunk.isSome x.width es'
    rcases hR.conv c g b' x.width _ _ hr with ⟨e, q1, q2⟩ | ⟨n, ys, zs, B, q1, q2, q3⟩
    · left
      refine ⟨e, ?_, ?_⟩
      · rcases hA with ⟨e1, a1, a2⟩ | ⟨_, _, _, _, _, a1, _, a2, _⟩
        · rw [q1] at a2
          simp only [Except.error.injEq] at a2
          rw [a1, a2]
          rfl
        · rw [q1] at a2
          simp at a2
      · rcases hB with ⟨e1, a1, a2⟩ | ⟨_, _, _, _, _, a1, _, a2, _⟩
        · rw [q2] at a2
          simp only [Except.error.injEq] at a2
          rw [a1, a2]
          rfl
        · rw [q2] at a2
          simp at a2
    · right
      rcases hA with ⟨e1, a1, a2⟩ | ⟨b1, w1, fs, o, B1, a1, a2, a3, a4⟩
      · rw [q1] at a2
        simp at a2
      rcases hB with ⟨e1, c1, c2⟩ | ⟨b2, w2, fs', o', B2, c1, c2, c3, c4⟩
      · rw [q2] at c2
        simp at c2
      rw [q1] at a3
      rw [q2] at c3
      simp only [Except.ok.injEq, Prod.mk.injEq] at a3 c3
      obtain ⟨rfl, rfl, rfl⟩ := a3
      obtain ⟨rfl, rfl, rfl⟩ := c3
      rw [a1, c1]
      refine ⟨_, _, _, _, rfl, rfl, ⟨?_, ?_⟩, ?_⟩
      · rw [a2, c2]; rfl
      · rw [a2, c2, seqs_mk, seqs_mk, ← vw_rename]
        exact q3
      · intro i
        rw [← a4 i]
        exact (c4 (f i)).symm

theorem try_like (R : List (View α) → List (View α) → Prop) (hR : Kept R) (f : String → String) (hf : Function.Injective f) (s s' : List (Layer α × Buf α))
    (hs : RenamedStack f s s') (x x' : ST α) (hx : Lined x) (hx' : Lined x') (h : Like R f x x') :
    Both (Like R f) (chainTry s x).1 (chainTry s' x').1 ∧ RenamedStack f (chainTry s x).2 (chainTry s' x').2 := by
  induction s generalizing s' x x' with
  | nil =>
    match s', hs with
    | [], _ => exact ⟨h, trivial⟩
  | cons a s ih =>
    match s', hs with
    | (l', b') :: s', hs =>
      obtain ⟨l, b⟩ := a
      obtain ⟨rfl, h2, h3⟩ := hs
      simp only [chainTry]
      rcases layer_like R hR f hf l' b b' h2 x x' hx hx' h with ⟨e, q1, q2⟩ | ⟨y, y', o, o', q1, q2, q3, q4⟩
      · rw [q1, q2]
        exact ⟨rfl, rfl, h2, h3⟩
      · rw [q1, q2]
        obtain ⟨r1, r2⟩ := ih s' h3 y y' (layer_others l' b x hx y o q1).1 (layer_others l' b' x' hx' y' o' q2).1 q3
        exact ⟨r1, rfl, q4, r2⟩

theorem calls_like (R : List (View α) → List (View α) → Prop) (hR : Kept R) (f : String → String) (hf : Function.Injective f) (s s' : List (Layer α × Buf α))
    (hs : RenamedStack f s s') (xs xs' : List (ST α)) (hx : ∀ x ∈ xs, Lined x) (hx' : ∀ x ∈ xs', Lined x) (h : List.Forall₂ (Like R f) xs xs') :
    List.Forall₂ (Both (Like R f)) (chainCalls s xs).1 (chainCalls s' xs').1 ∧ RenamedStack f (chainCalls s xs).2 (chainCalls s' xs').2 := by
  induction h generalizing s s' with
  | nil => exact ⟨.nil, hs⟩
  | @cons x x' xs xs' h1 _ ih =>
    obtain ⟨r1, r2⟩ := try_like R hR f hf s s' hs x x' (hx x (by simp)) (hx' x' (by simp)) h1
    obtain ⟨q1, q2⟩ := ih _ _ r2 (fun z hz => hx z (by simp [hz])) fun z hz => hx' z (by simp [hz])
    exact ⟨.cons r1 q1, q2⟩

theorem both_mono {R S : ST α → ST α → Prop} (h : ∀ y y', R y y' → S y y') (a b : Py (ST α)) (hab : Both R a b) : Both S a b := by
  cases a <;> cases b <;> simp only [Both] at hab ⊢
  · exact hab
  · exact h _ _ hab

theorem stack_self (s : List (Layer α × Buf α)) : RenamedStack id s s := by
  induction s with
  | nil => trivial
  | cons a s ih => exact ⟨rfl, fun _ => rfl, ih⟩

theorem try_ids (s : List (Layer α × Buf α)) (x : ST α) (hx : Lined x) (y : ST α) (h : (chainTry s x).1 = .ok y) : y.md.ids = x.md.ids := by
  induction s generalizing x with
  | nil =>
    simp only [chainTry, Except.ok.injEq] at h
    rw [h]
  | cons a s ih =>
    obtain ⟨l, b⟩ := a
    simp only [chainTry] at h
    cases hl : l.step b x with
    | error e => rw [hl] at h; simp at h
    | ok r =>
      rw [hl] at h
      obtain ⟨q1, q2, -⟩ := layer_others l b x hx r.1 r.2 hl
      exact (ih r.1 q1 h).trans q2

theorem ids_seqs (x : ST α) (hx : Lined x) : (seqs x).map (·.1) = x.md.ids := by
  obtain ⟨es, he⟩ := mk_of x hx
  rw [he, seqs_mk]
  simp [mkST, ofRows, vw, Function.comp_def]

theorem stack_id (s s' : List (Layer α × Buf α)) (h : RenamedStack id s s') : s' = s := by
  induction s generalizing s' with
  | nil =>
    match s', h with
    | [], _ => rfl
  | cons a s ih =>
    match s', h with
    | (l', b') :: s', h =>
      obtain ⟨l, b⟩ := a
      obtain ⟨rfl, h2, h3⟩ := h
      rw [ih s' h3, show b' = b from funext h2]

/-- **C203.** Batches of distinct streams, their rows in any order, any chunk indices: a stack of online convolutions and pointwise functions, with whatever in its buffers, answers every call of a history with the same
exception or the same rows, in the order of the rows it was given, and is left with the same buffers. -/
theorem C203_order (s : List (Layer α × Buf α)) (xs xs' : List (ST α)) (hx : ∀ x ∈ xs, x.md.WF ∧ x.rows.length = x.md.ids.length)
    (hx' : ∀ x ∈ xs', x.md.WF ∧ x.rows.length = x.md.ids.length) (hd : ∀ x ∈ xs, x.md.ids.Nodup) (h : List.Forall₂ Reordered xs xs') :
    List.Forall₂ (Both Reordered) (chainCalls s xs).1 (chainCalls s xs').1 ∧ (chainCalls s xs').2 = (chainCalls s xs).2 ∧
    ∀ (k : Nat) (x y : ST α), xs'[k]? = some x → (chainCalls s xs').1[k]? = some (.ok y) → y.md.ids = x.md.ids := by
  have hl : List.Forall₂ (Like (fun us vs => us.Perm vs ∧ (us.map (·.1)).Nodup) id) xs xs' := by
    clear hx'
    induction h with
    | nil => exact .nil
    | @cons x x' xs xs' h1 _ ih =>
      refine .cons ⟨h1.1, ?_, ?_⟩ (ih (fun z hz => hx z (by simp [hz])) fun z hz => hd z (by simp [hz]))
      · simpa using h1.2
      · have := hd x (by simp)
        rw [← ids_seqs x (hx x (by simp))] at this
        simpa using this
  obtain ⟨q1, q2⟩ := calls_like _ kept_perm id (fun _ _ h => h) s s (stack_self s) xs xs' hx hx' hl
  refine ⟨?_, stack_id _ _ q2, ?_⟩
  · refine q1.imp fun a b hab => both_mono ?_ a b hab
    intro y y' hy
    exact ⟨hy.1, by simpa using hy.2.1⟩
  · clear q1 q2 hl h hx hd xs
    induction xs' generalizing s with
    | nil => intro k x y hk; simp at hk
    | cons z zs ih =>
      intro k x y hk hy
      cases k with
      | zero =>
        simp only [List.getElem?_cons_zero, Option.some.injEq, chainCalls] at hk hy
        subst hk
        exact try_ids s z (hx' z (by simp)) y hy
      | succ k =>
        simp only [List.getElem?_cons_succ, chainCalls] at hk hy
        exact ih _ (fun w hw => hx' w (by simp [hw])) k x y hk hy

/-- **C204.** Stream ids are only compared, and chunk indices not looked at: when the streams get new distinct names, whatever the chunk indices, a stack whose buffers are renamed alike answers every call with the same exception or the same
rows under their new names, and is left with the same buffers under the new names. -/
theorem C204_names (f : String → String) (hf : Function.Injective f) (s s' : List (Layer α × Buf α)) (hs : RenamedStack f s s') (xs xs' : List (ST α))
    (hx : ∀ x ∈ xs, x.md.WF ∧ x.rows.length = x.md.ids.length) (hx' : ∀ x ∈ xs', x.md.WF ∧ x.rows.length = x.md.ids.length) (h : List.Forall₂ (Renamed f) xs xs') :
    List.Forall₂ (Both (Renamed f)) (chainCalls s xs).1 (chainCalls s' xs').1 ∧ RenamedStack f (chainCalls s xs).2 (chainCalls s' xs').2 := by
  obtain ⟨q1, q2⟩ := calls_like _ kept_eq f hf s s' hs xs xs' hx hx' (h.imp fun _ _ h => ⟨h.1, h.2.symm⟩)
  exact ⟨q1.imp fun a b hab => both_mono (fun _ _ h => ⟨h.1, h.2.symm⟩) a b hab, q2⟩

end

/-- A convolution that adds up two neighbouring frames. -/
def pairSum : Layer Int := .conv ⟨2, 1, 1, 1⟩ List.sum

/-- Streams `a` and `b`, then the end of `b`. -/
def orderXs : List (ST Int) :=
  [⟨⟨["a", "b"], [true, false], [false, false], [2, 3], none⟩, 3, [[1, 2, 0], [3, 4, 5]]⟩, ⟨⟨["a", "b"], [false, false], [false, true], [2, 1], none⟩, 2, [[6, 7], [8, 0]]⟩]

/-- The same with the rows of the first batch in the other order, and with chunk indices. -/
def orderXs' : List (ST Int) :=
  [⟨⟨["b", "a"], [false, true], [false, false], [3, 2], some [4, 0]⟩, 3, [[3, 4, 5], [1, 2, 0]]⟩, ⟨⟨["a", "b"], [false, false], [false, true], [2, 1], some [1, 5]⟩, 2, [[6, 7], [8, 0]]⟩]

/-- The same with other names. -/
def orderXs'' : List (ST Int) :=
  [⟨⟨["utt-a", "utt-b"], [true, false], [false, false], [2, 3], some [7, 7]⟩, 3, [[1, 2, 0], [3, 4, 5]]⟩,
   ⟨⟨["utt-a", "utt-b"], [false, false], [false, true], [2, 1], none⟩, 2, [[6, 7], [8, 0]]⟩]

/-- The buffer of a stream that has begun earlier. -/
def orderBuf (i : String) : Option (List Int) := if i = "b" then some [9] else none

example : (∀ x ∈ orderXs, x.md.WF ∧ x.rows.length = x.md.ids.length) ∧ (∀ x ∈ orderXs', x.md.WF ∧ x.rows.length = x.md.ids.length) ∧ (∀ x ∈ orderXs, x.md.ids.Nodup) ∧
    List.Forall₂ Reordered orderXs orderXs' := by
  refine ⟨by decide, by decide, by decide, ?_⟩
  refine .cons ⟨rfl, ?_⟩ (.cons ⟨rfl, ?_⟩ .nil)
  · exact List.Perm.swap _ _ _
  · exact List.Perm.refl _

example : ((chainCalls [(pairSum, orderBuf)] orderXs).1, (chainCalls [(pairSum, orderBuf)] orderXs').1.map (·.map (·.rows))) =
    ([.ok ⟨⟨["a", "b"], [true, false], [false, false], [2, 3], none⟩, 3, [[1, 3, 0], [12, 7, 9]]⟩, .ok ⟨⟨["a", "b"], [false, false], [false, true], [2, 2], none⟩, 2, [[8, 13], [13, 8]]⟩],
     [.ok [[12, 7, 9], [1, 3, 0]], .ok [[8, 13], [13, 8]]]) := by decide +kernel

example : List.Forall₂ (Renamed ("utt-" ++ ·)) orderXs orderXs'' ∧ RenamedStack ("utt-" ++ ·) [(pairSum, orderBuf)] [(pairSum, fun i => if i = "utt-b" then some [9] else none)] ∧
    Function.Injective ("utt-" ++ ·) := by
  refine ⟨.cons ⟨rfl, by decide⟩ (.cons ⟨rfl, by decide⟩ .nil), ⟨rfl, ?_, trivial⟩, ?_⟩
  · intro i
    have : ("utt-" ++ i = "utt-b") ↔ i = "b" := by
      constructor
      · intro h
        have := congrArg String.toList h
        simp at this
        exact String.toList_inj.1 (by simpa using this)
      · intro h; rw [h]; decide
    simp [orderBuf, this]
  · intro i j h
    simpa using h

/-- Two rows under one id: what is kept for the id is that of the last row, so the order of the rows decides about what follows. -/
def twiceXs (r q : List Int) : List (ST Int) :=
  [⟨⟨["a", "a"], [true, true], [false, false], [2, 2], none⟩, 2, [r, q]⟩, ⟨⟨["a"], [false], [true], [1], none⟩, 1, [[5]]⟩]

/-- The order of rows matters as soon as two rows of a batch have the same id. -/
theorem C203_distinct_needed : ∃ (s : List (Layer Int × Buf Int)) (xs xs' : List (ST Int)), (∀ x ∈ xs ++ xs', x.md.WF ∧ x.rows.length = x.md.ids.length) ∧ List.Forall₂ Reordered xs xs' ∧
    ¬ List.Forall₂ (Both Reordered) (chainCalls s xs).1 (chainCalls s xs').1 := by
  refine ⟨[(pairSum, fun _ => none)], twiceXs [1, 2] [3, 4], twiceXs [3, 4] [1, 2], by decide, .cons ⟨rfl, List.Perm.swap _ _ _⟩ (.cons ⟨rfl, List.Perm.refl _⟩ .nil), ?_⟩
  intro h
  have h1 : (chainCalls [(pairSum, fun _ => none)] (twiceXs [1, 2] [3, 4])).1 =
    [.ok ⟨⟨["a", "a"], [true, true], [false, false], [2, 2], none⟩, 2, [[1, 3], [3, 7]]⟩, .ok ⟨⟨["a"], [false], [true], [2], none⟩, 2, [[9, 5]]⟩] := by decide +kernel
  have h2 : (chainCalls [(pairSum, fun _ => none)] (twiceXs [3, 4] [1, 2])).1 =
    [.ok ⟨⟨["a", "a"], [true, true], [false, false], [2, 2], none⟩, 2, [[3, 7], [1, 3]]⟩, .ok ⟨⟨["a"], [false], [true], [2], none⟩, 2, [[7, 5]]⟩] := by decide +kernel
  rw [h1, h2] at h
  cases h with
  | cons _ h =>
    cases h with
    | cons h _ =>
      have := h.2.length_eq
      have h3 : [("a", false, true, (2 : Int), [(9 : Int), 5])].Perm [("a", false, true, 2, [7, 5])] := h.2
      rw [List.perm_singleton] at h3
      simp at h3

/-- Giving two streams one name changes what is computed: their buffers are one. -/
theorem C204_distinct_needed : ∃ (f : String → String) (s : List (Layer Int × Buf Int)) (xs xs' : List (ST Int)), (∀ x ∈ xs ++ xs', x.md.WF ∧ x.rows.length = x.md.ids.length) ∧
    RenamedStack f s s ∧ List.Forall₂ (Renamed f) xs xs' ∧ ¬ List.Forall₂ (Both (Renamed f)) (chainCalls s xs).1 (chainCalls s xs').1 := by
  refine ⟨fun _ => "a", [(pairSum, fun _ => none)],
    [⟨⟨["a"], [true], [false], [2], none⟩, 2, [[1, 2]]⟩, ⟨⟨["b"], [true], [false], [2], none⟩, 2, [[3, 4]]⟩, ⟨⟨["a"], [false], [true], [1], none⟩, 1, [[5]]⟩],
    [⟨⟨["a"], [true], [false], [2], none⟩, 2, [[1, 2]]⟩, ⟨⟨["a"], [true], [false], [2], none⟩, 2, [[3, 4]]⟩, ⟨⟨["a"], [false], [true], [1], none⟩, 1, [[5]]⟩],
    by decide, ⟨rfl, fun _ => rfl, trivial⟩, .cons ⟨rfl, by decide⟩ (.cons ⟨rfl, by decide⟩ (.cons ⟨rfl, by decide⟩ .nil)), ?_⟩
  intro h
  have h1 : (chainCalls [(pairSum, fun _ => none)]
      [⟨⟨["a"], [true], [false], [2], none⟩, 2, [[1, 2]]⟩, ⟨⟨["b"], [true], [false], [2], none⟩, 2, [[3, 4]]⟩, ⟨⟨["a"], [false], [true], [1], none⟩, 1, [[5]]⟩]).1 =
    [.ok ⟨⟨["a"], [true], [false], [2], none⟩, 2, [[1, 3]]⟩, .ok ⟨⟨["b"], [true], [false], [2], none⟩, 2, [[3, 7]]⟩, .ok ⟨⟨["a"], [false], [true], [2], none⟩, 2, [[7, 5]]⟩] := by decide +kernel
  have h2 : (chainCalls [(pairSum, fun _ => none)]
      [⟨⟨["a"], [true], [false], [2], none⟩, 2, [[1, 2]]⟩, ⟨⟨["a"], [true], [false], [2], none⟩, 2, [[3, 4]]⟩, ⟨⟨["a"], [false], [true], [1], none⟩, 1, [[5]]⟩]).1 =
    [.ok ⟨⟨["a"], [true], [false], [2], none⟩, 2, [[1, 3]]⟩, .ok ⟨⟨["a"], [true], [false], [2], none⟩, 2, [[3, 7]]⟩, .ok ⟨⟨["a"], [false], [true], [2], none⟩, 2, [[9, 5]]⟩] := by decide +kernel
  rw [h1, h2] at h
  cases h with
  | cons _ h =>
    cases h with
    | cons _ h =>
      cases h with
      | cons h _ =>
        have h3 : [("a", false, true, (2 : Int), [(9 : Int), 5])] = [("a", false, true, 2, [7, 5])] := h.2
        simp at h3

end DS.Conv
