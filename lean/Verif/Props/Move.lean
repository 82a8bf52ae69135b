import Verif.Spec.Move
import Verif.Lemmas.Tensor
/-!
# Moving a running model (C192)
-/

namespace DS.Move

theorem join_right (a b : Ty) : a.join b = b ↔ a = b ∨ b = .double ∨ b = .float ∧ a ≠ .double := by cases a <;> cases b <;> decide

theorem join_comm (a b : Ty) : a.join b = b.join a := by cases a <;> cases b <;> decide

theorem foldl_join (l : List Place) (t : Ty) (h : ∀ p ∈ l, t.join p.ty = t) : l.foldl (fun t p => t.join p.ty) t = t := by
  induction l with
  | nil => rfl
  | cons p l ih =>
    simp only [List.foldl_cons]
    rw [h p (by simp)]
    exact ih fun q hq => h q (List.mem_cons_of_mem _ hq)

theorem join_grow {u t a : Ty} (h : u.join t = t) : u.join (t.join a) = t.join a := by
  revert h; cases u <;> cases t <;> cases a <;> decide

theorem join_self (a : Ty) : a.join a = a := by cases a <;> decide

theorem join_anti {t a : Ty} (h : (t.join a).join t = t) : t.join a = t := by
  revert h; cases t <;> cases a <;> decide

theorem foldl_grow (l : List Place) (t u : Ty) (h : u.join t = t) : u.join (l.foldl (fun t p => t.join p.ty) t) = l.foldl (fun t p => t.join p.ty) t := by
  induction l generalizing t with
  | nil => exact h
  | cons p l ih =>
    exact ih _ (join_grow h)

theorem foldl_join_conv (l : List Place) (t : Ty) (h : l.foldl (fun t p => t.join p.ty) t = t) : ∀ p ∈ l, t.join p.ty = t := by
  induction l with
  | nil => simp
  | cons p l ih =>
    simp only [List.foldl_cons] at h
    have h1 : t.join p.ty = t := by
      have := foldl_grow l (t.join p.ty) (t.join p.ty) (join_self _)
      rw [h] at this
      exact join_anti this
    rw [h1] at h
    intro q hq
    rcases List.mem_cons.1 hq with rfl | hq
    · exact h1
    · exact ih h q hq

theorem fits_iff (p cur : Place) : Fits p cur ↔ p.dev = cur.dev ∧ cur.ty.join p.ty = cur.ty := by
  rw [join_comm, join_right]; rfl

/-- The frames that a call uses fit. -/
def Ok (buf : Buf) (rows : List Row) (cur : Place) : Prop := (∃ r ∈ rows, r.sos = false) → ∀ r ∈ rows, ∀ p, buf r.id = some p → Fits p cur

/-- The buffers after a call. -/
def after (buf : Buf) (rows : List Row) (cur : Place) : Buf := fun a =>
  if rows.any (fun r => decide (r.id = a) && r.eos) then none
  else if rows.any (fun r => decide (r.id = a)) then some cur
  else buf a

theorem layer_narrow {kw : Nat} (h : ¬ 1 < kw) (even : Bool) (buf : Buf) (rows : List Row) (cur : Place) : layer kw even buf rows cur = .ok buf := by
  rw [layer, if_neg h]

theorem joined_ok {buf : Buf} {rows : List Row} {cur : Place} (h : ∀ r ∈ rows, ∀ p, buf r.id = some p → cur.ty.join p.ty = cur.ty) (even : Bool) : joined even buf rows cur = cur.ty := by
  cases even with
  | true =>
    simp only [joined, if_true]
    refine foldl_join _ _ fun p hp => ?_
    obtain ⟨r, hr, hrp⟩ := List.mem_filterMap.1 hp
    exact h r hr p hrp
  | false =>
    cases rows with
    | nil => rfl
    | cons r rows =>
      cases hb : buf r.id with
      | none => simp [joined, hb]
      | some p =>
        have := h r (by simp) p hb
        rw [join_comm] at this
        simp [joined, hb, this]

theorem layer_ok {kw : Nat} (hk : 1 < kw) (even : Bool) {buf : Buf} {rows : List Row} {cur : Place} (h : Ok buf rows cur) : layer kw even buf rows cur = .ok (after buf rows cur) := by
  rw [layer, if_pos hk]
  by_cases hs : ∃ r ∈ rows, r.sos = false
  · have h' := h hs
    rw [if_neg, if_neg]
    · rfl
    · simp [joined_ok (fun r hr p hp => ((fits_iff p cur).1 (h' r hr p hp)).2) even]
    · intro hc
      simp only [Bool.and_eq_true, List.any_eq_true] at hc
      obtain ⟨-, r, hr, hd⟩ := hc
      cases hb : buf r.id with
      | none => simp [hb] at hd
      | some p => simp [hb] at hd; exact hd (h' r hr p hb).1
  · have hu : (rows.any fun r => !r.sos) = false := by
      rw [List.any_eq_false]
      intro r hr
      cases hrs : r.sos with
      | true => simp
      | false => exact absurd ⟨r, hr, hrs⟩ hs
    simp only [hu, Bool.false_and, Bool.false_eq_true, if_false]
    rfl

theorem layer_bad {kw : Nat} (hk : 1 < kw) {even : Bool} {buf : Buf} {rows : List Row} {cur : Place} (h : ¬ Ok buf rows cur)
    (he : even = true ∨ ∀ r ∈ rows, ∀ p, buf r.id = some p → p.ty = cur.ty) : layer kw even buf rows cur = .error .runtimeError := by
  rw [layer, if_pos hk]
  simp only [Ok, not_forall] at h
  obtain ⟨⟨r0, hr0, hs0⟩, r, hr, p, hp, hf⟩ := h
  have hu : (rows.any fun r => !r.sos) = true := List.any_eq_true.2 ⟨r0, hr0, by simp [hs0]⟩
  simp only [hu, Bool.true_and]
  split
  · rfl
  · rename_i hd
    have hdev : p.dev = cur.dev := by
      by_contra hne
      exact hd (List.any_eq_true.2 ⟨r, hr, by simp [hp, hne]⟩)
    rw [if_pos]
    rw [fits_iff] at hf
    rcases he with rfl | he
    · simp only [joined, if_true, ne_eq, decide_eq_true_eq]
      intro hj
      exact hf ⟨hdev, foldl_join_conv _ _ hj p (List.mem_filterMap.2 ⟨r, hr, hp⟩)⟩
    · exact absurd ⟨hdev, by rw [he r hr p hp]; exact join_self _⟩ hf

/-- Every layer wider than one frame has the buffers `buf`. -/
def Agree (s : Stack) (buf : Buf) : Prop := ∀ l ∈ s, 1 < l.1 → l.2 = buf

theorem forward_ok {even : Nat → Bool} {buf : Buf} {rows : List Row} {cur : Place} (h : Ok buf rows cur) : ∀ {s : Stack}, Agree s buf →
    ∃ s', forward s even rows cur = .ok s' ∧ Agree s' (after buf rows cur) ∧ s'.map Prod.fst = s.map Prod.fst
  | [], _ => ⟨[], rfl, fun l hl => by simp at hl, rfl⟩
  | (kw, b) :: s, ha => by
    obtain ⟨s', h1, h2, h3⟩ := forward_ok (even := even) h (s := s) fun l hl => ha l (List.mem_cons_of_mem _ hl)
    by_cases hk : 1 < kw
    · have hb : b = buf := ha (kw, b) (by simp) hk
      subst hb
      refine ⟨(kw, after b rows cur) :: s', ?_, fun l hl hl1 => ?_, by simp [h3]⟩
      · rw [forward, layer_ok hk _ h, h1]; rfl
      · rcases List.mem_cons.1 hl with rfl | hl
        · rfl
        · exact h2 l hl hl1
    · refine ⟨(kw, b) :: s', ?_, fun l hl hl1 => ?_, by simp [h3]⟩
      · rw [forward, layer_narrow hk, h1]; rfl
      · rcases List.mem_cons.1 hl with rfl | hl
        · exact absurd hl1 hk
        · exact h2 l hl hl1

theorem forward_bad {even : Nat → Bool} {buf : Buf} {rows : List Row} {cur : Place} (h : ¬ Ok buf rows cur)
    (he : (∀ i, even i = true) ∨ ∀ r ∈ rows, ∀ p, buf r.id = some p → p.ty = cur.ty) : ∀ {s : Stack}, Agree s buf → (∃ l ∈ s, 1 < l.1) →
    forward s even rows cur = .error .runtimeError
  | [], _, hw => by obtain ⟨l, hl, -⟩ := hw; simp at hl
  | (kw, b) :: s, ha, hw => by
    by_cases hk : 1 < kw
    · have hb : b = buf := ha (kw, b) (by simp) hk
      subst hb
      rw [forward, layer_bad hk h (he.imp (fun h => h _) id)]; rfl
    · rw [forward, layer_narrow hk, forward_bad h he (fun l hl => ha l (List.mem_cons_of_mem _ hl)) ?_]
      · rfl
      · obtain ⟨l, hl, hl1⟩ := hw
        rcases List.mem_cons.1 hl with rfl | hl
        · exact absurd hl1 hk
        · exact ⟨l, hl, hl1⟩

theorem forward_narrow (even : Nat → Bool) (rows : List Row) (cur : Place) : ∀ {s : Stack}, (∀ l ∈ s, ¬ 1 < l.1) → forward s even rows cur = .ok s
  | [], _ => rfl
  | (kw, b) :: s, h => by
    rw [forward, layer_narrow (h (kw, b) (by simp)), forward_narrow even rows cur fun l hl => h l (List.mem_cons_of_mem _ hl)]; rfl

theorem placeAfter_append (p : Place) (a b : List Event) : placeAfter p (a ++ b) = placeAfter (placeAfter p a) b := by
  induction a generalizing p with
  | nil => rfl
  | cons e a ih => cases e <;> exact ih _

theorem held_snoc (p₀ : Place) (es : List Event) (e : Event) (a : String) (p : Place) :
    HeldAt p₀ (es ++ [e]) a p ↔ (∃ rows even, e = .call rows even ∧ (∃ r ∈ rows, r.id = a) ∧ (∀ r ∈ rows, r.id = a → r.eos = false) ∧ p = placeAfter p₀ es) ∨
      ((∀ rows even, e = .call rows even → ∀ r ∈ rows, r.id ≠ a) ∧ HeldAt p₀ es a p) := by
  constructor
  · rintro ⟨es₁, rows, even, es₂, h, h1, h2, h3, h4⟩
    rcases List.eq_nil_or_concat es₂ with rfl | ⟨es₂, e', rfl⟩
    · obtain ⟨rfl, hh⟩ := List.append_inj' h rfl
      exact .inl ⟨rows, even, by injection hh, h1, h2, h4⟩
    · rw [List.concat_eq_append] at h h3
      have h' : es ++ [e] = (es₁ ++ .call rows even :: es₂) ++ [e'] := by rw [h]; simp
      obtain ⟨rfl, he⟩ := List.append_inj' h' rfl
      injection he with he
      subst he
      exact .inr ⟨fun rows' even' he => h3 rows' even' (by simp [he]), es₁, rows, even, es₂, rfl, h1, h2, fun rows' even' hm => h3 rows' even' (by simp [hm]), h4⟩
  · rintro (⟨rows, even, rfl, h1, h2, h3⟩ | ⟨h0, es₁, rows, even, es₂, rfl, h1, h2, h3, h4⟩)
    · exact ⟨es, rows, even, [], rfl, h1, h2, by simp, h3⟩
    · refine ⟨es₁, rows, even, es₂ ++ [e], by simp, h1, h2, fun rows' even' hm => ?_, h4⟩
      rcases List.mem_append.1 hm with hm | hm
      · exact h3 rows' even' hm
      · exact h0 rows' even' (List.mem_singleton.1 hm).symm

theorem held_nil (p₀ : Place) (a : String) (p : Place) : ¬ HeldAt p₀ [] a p := by
  rintro ⟨es₁, rows, even, es₂, h, -⟩
  simp at h

theorem after_held {p₀ : Place} {pre : List Event} {buf : Buf} (h : ∀ a p, buf a = some p ↔ HeldAt p₀ pre a p) (rows : List Row) (even : Nat → Bool) :
    ∀ a p, after buf rows (placeAfter p₀ pre) a = some p ↔ HeldAt p₀ (pre ++ [.call rows even]) a p := by
  intro a p
  rw [held_snoc, after]
  by_cases he : ∃ r ∈ rows, r.id = a ∧ r.eos = true
  · rw [if_pos (by obtain ⟨r, hr, h1, h2⟩ := he; exact List.any_eq_true.2 ⟨r, hr, by simp [h1, h2]⟩)]
    obtain ⟨r, hr, h1, h2⟩ := he
    constructor
    · intro h; cases h
    · rintro (⟨rows', even', he, -, h3, -⟩ | ⟨h3, -⟩)
      · injection he with he1 he2
        subst he1
        rw [h3 r hr h1] at h2; cases h2
      · exact absurd h1 (h3 rows even rfl r hr)
  · rw [if_neg (by
      intro hc
      obtain ⟨r, hr, hh⟩ := List.any_eq_true.1 hc
      simp at hh
      exact he ⟨r, hr, hh⟩)]
    by_cases hr : ∃ r ∈ rows, r.id = a
    · rw [if_pos (by obtain ⟨r, hr, h1⟩ := hr; exact List.any_eq_true.2 ⟨r, hr, by simp [h1]⟩)]
      constructor
      · intro hp
        injection hp with hp
        refine .inl ⟨rows, even, rfl, hr, fun r hr h1 => ?_, hp.symm⟩
        cases h2 : r.eos with
        | false => rfl
        | true => exact absurd ⟨r, hr, h1, h2⟩ he
      · rintro (⟨rows', even', he, -, -, h4⟩ | ⟨h3, -⟩)
        · rw [h4]
        · obtain ⟨r, hr, h1⟩ := hr
          exact absurd h1 (h3 rows even rfl r hr)
    · rw [if_neg (by
        intro hc
        obtain ⟨r, hr', hh⟩ := List.any_eq_true.1 hc
        simp at hh
        exact hr ⟨r, hr', hh⟩), h]
      constructor
      · intro hh
        refine .inr ⟨fun rows' even' he r hr' h1 => ?_, hh⟩
        injection he with he1 he2
        subst he1
        exact hr ⟨r, hr', h1⟩
      · rintro (⟨rows', even', he, h3, -, -⟩ | ⟨-, h4⟩)
        · injection he with he1 he2
          subst he1
          exact absurd h3 hr
        · exact h4

/-- A call in the middle of a history. -/
def MisfitFrom (p₀ : Place) (pre es : List Event) : Prop :=
  ∃ es₁ rows even es₂, es = es₁ ++ .call rows even :: es₂ ∧ (∃ r ∈ rows, r.sos = false) ∧ ∃ r ∈ rows, ∃ p, HeldAt p₀ (pre ++ es₁) r.id p ∧ ¬ Fits p (placeAfter p₀ (pre ++ es₁))

theorem misfit_cons (p₀ : Place) (pre : List Event) (e : Event) (es : List Event) :
    MisfitFrom p₀ pre (e :: es) ↔ (∃ rows even, e = .call rows even ∧ (∃ r ∈ rows, r.sos = false) ∧ ∃ r ∈ rows, ∃ p, HeldAt p₀ pre r.id p ∧ ¬ Fits p (placeAfter p₀ pre)) ∨
      MisfitFrom p₀ (pre ++ [e]) es := by
  constructor
  · rintro ⟨es₁, rows, even, es₂, h, h1, h2⟩
    cases es₁ with
    | nil =>
      simp only [List.nil_append, List.cons.injEq] at h
      exact .inl ⟨rows, even, h.1, h1, by simpa using h2⟩
    | cons e' es₁ =>
      simp only [List.cons_append, List.cons.injEq] at h
      obtain ⟨rfl, rfl⟩ := h
      exact .inr ⟨es₁, rows, even, es₂, rfl, h1, by simpa using h2⟩
  · rintro (⟨rows, even, rfl, h1, h2⟩ | ⟨es₁, rows, even, es₂, rfl, h1, h2⟩)
    · exact ⟨[], rows, even, es, rfl, h1, by simpa using h2⟩
    · exact ⟨e :: es₁, rows, even, es₂, rfl, h1, by simpa using h2⟩

theorem run_narrow : ∀ (es : List Event) (s : Stack) (cur : Place), (∀ l ∈ s, ¬ 1 < l.1) → ∃ z, run s cur es = .ok z
  | [], s, cur, _ => ⟨_, rfl⟩
  | .move p :: es, s, cur, h => run_narrow es s p h
  | .call rows even :: es, s, cur, h => by rw [run, forward_narrow even rows cur h]; exact run_narrow es s cur h

theorem placeAfter_ty {p₀ : Place} (es : List Event) (h : ∀ q, Event.move q ∈ es → q.ty = p₀.ty) : (placeAfter p₀ es).ty = p₀.ty := by
  have key : ∀ (es : List Event) (p : Place), p.ty = p₀.ty → (∀ q, Event.move q ∈ es → q.ty = p₀.ty) → (placeAfter p es).ty = p₀.ty := by
    intro es
    induction es with
    | nil => intro p hp _; exact hp
    | cons e es ih =>
      intro p hp h
      cases e with
      | call _ _ => exact ih p hp fun q hq => h q (by simp [hq])
      | move q => exact ih q (h q (by simp)) fun q hq => h q (by simp [hq])
  exact key es p₀ rfl h

/-- The general statement: `pre` is the history so far. -/
theorem run_from (p₀ : Place) : ∀ (es pre : List Event) (s : Stack) (buf : Buf), Agree s buf → (∀ a p, buf a = some p ↔ HeldAt p₀ pre a p) →
    (¬ MisfitFrom p₀ pre es → ∃ z, run s (placeAfter p₀ pre) es = .ok z) ∧
    (MisfitFrom p₀ pre es → (∃ l ∈ s, 1 < l.1) →
      ((∀ rows even, Event.call rows even ∈ es → ∀ i, even i = true) ∨ (∀ q, Event.move q ∈ pre ++ es → q.ty = p₀.ty)) → run s (placeAfter p₀ pre) es = .error .runtimeError) := by
  intro es
  induction es with
  | nil =>
    intro pre s buf _ _
    refine ⟨fun _ => ⟨_, rfl⟩, ?_⟩
    rintro ⟨es₁, rows, even, es₂, h, -⟩
    simp at h
  | cons e es ih =>
    intro pre s buf ha hb
    rw [misfit_cons]
    cases e with
    | move q =>
      have hb' : ∀ a p, buf a = some p ↔ HeldAt p₀ (pre ++ [.move q]) a p := fun a p => by
        rw [hb, held_snoc]
        constructor
        · exact fun h => .inr ⟨fun _ _ hc => (by cases hc), h⟩
        · rintro (⟨_, _, h, -⟩ | h)
          · cases h
          · exact h.2
      obtain ⟨i1, i2⟩ := ih (pre ++ [.move q]) s buf ha hb'
      have hq : placeAfter p₀ (pre ++ [.move q]) = q := by rw [placeAfter_append]; rfl
      rw [hq] at i1 i2
      refine ⟨fun h => i1 fun hm => h (.inr hm), fun h hw hev => i2 ?_ hw ?_⟩
      · rcases h with ⟨_, _, h, -⟩ | h
        · cases h
        · exact h
      · rcases hev with hev | hev
        · exact .inl fun rows even hm => hev rows even (List.mem_cons_of_mem _ hm)
        · exact .inr (by simpa using hev)
    | call rows even =>
      have hpl : placeAfter p₀ (pre ++ [.call rows even]) = placeAfter p₀ pre := by rw [placeAfter_append]; rfl
      by_cases hok : Ok buf rows (placeAfter p₀ pre)
      · obtain ⟨s', hf, ha', hs'⟩ := forward_ok (even := even) hok ha
        obtain ⟨i1, i2⟩ := ih (pre ++ [.call rows even]) s' _ ha' (after_held hb rows even)
        rw [hpl] at i1 i2
        rw [run, hf]
        refine ⟨fun h => i1 fun hm => h (.inr hm), fun h hw hev => i2 ?_ ?_ ?_⟩
        · rcases h with ⟨rows', even', he, h0, r, hr, p, hp, hnf⟩ | h
          · injection he with he1 he2
            subst he1
            exact absurd (hok h0 r hr p ((hb _ _).2 hp)) hnf
          · exact h
        · obtain ⟨l, hl, hl1⟩ := hw
          have : l.1 ∈ s'.map Prod.fst := by rw [hs']; exact List.mem_map.2 ⟨l, hl, rfl⟩
          obtain ⟨l', hl', he⟩ := List.mem_map.1 this
          exact ⟨l', hl', by rw [he]; exact hl1⟩
        · rcases hev with hev | hev
          · exact .inl fun rows even hm => hev rows even (List.mem_cons_of_mem _ hm)
          · exact .inr (by simpa using hev)
      · have hno := hok
        simp only [Ok, not_forall] at hno
        obtain ⟨h0, r, hr, p, hp, hnf⟩ := hno
        refine ⟨fun h => absurd (.inl ⟨rows, even, rfl, h0, r, hr, p, (hb _ _).1 hp, hnf⟩) h, fun _ hw hev => ?_⟩
        rw [run, forward_bad hok ?_ ha hw]
        · rfl
        · rcases hev with hev | hev
          · exact .inl (hev rows even (by simp))
          · refine .inr fun r hr p hp => ?_
            obtain ⟨es₁, rows', even', es₂, rfl, -, -, -, rfl⟩ := (hb _ _).1 hp
            rw [placeAfter_ty es₁ fun q hq => hev q (by simp [hq]), placeAfter_ty _ fun q hq => hev q (by
              rcases List.mem_append.1 hq with hq | hq
              · simp [hq]
              · rcases List.mem_cons.1 hq with hq | hq
                · cases hq
                · simp [hq])]

/-- **C192 (partial).** A stack of online convolutions is called and moved to other devices and precisions in any order. No call raises if all convolutions look at one frame only, or if every call that continues a stream
has only rows of streams whose frames fit the place of the model (the same device, and a precision that is not higher, nor half where the model is in bfloat16 or the other way round).
If some convolution is wider, and all buffers of a call have the same length or the precision never changes, every other history raises RuntimeError.
Missing: false in general (`C192_moved_false`); which calls raise when the precision changes and the buffers of a call have different lengths (`C192_exact_partial`). -/
theorem C192_moved_partial (kws : List Nat) (p₀ : Place) (es : List Event) :
    ((∀ kw ∈ kws, kw ≤ 1) ∨ ¬ Misfit p₀ es → ∃ z, run (fresh kws) p₀ es = .ok z) ∧
    ((∀ rows even, Event.call rows even ∈ es → ∀ i, even i = true) ∨ (∀ q, Event.move q ∈ es → q.ty = p₀.ty) →
      (∃ kw ∈ kws, 1 < kw) → Misfit p₀ es → run (fresh kws) p₀ es = .error .runtimeError) := by
  have hm : MisfitFrom p₀ [] es ↔ Misfit p₀ es := by simp [MisfitFrom, Misfit]
  obtain ⟨h1, h2⟩ := run_from p₀ es [] (fresh kws) (fun _ => none) (fun l hl _ => by
    obtain ⟨kw, -, rfl⟩ := List.mem_map.1 hl; rfl) fun a p => ⟨fun h => (by cases h), fun h => absurd h (held_nil _ _ _)⟩
  rw [hm] at h1 h2
  refine ⟨?_, fun hev hw hmis => h2 hmis ?_ (by simpa using hev)⟩
  · rintro (h | h)
    · refine run_narrow es _ _ fun l hl => ?_
      obtain ⟨kw, hkw, rfl⟩ := List.mem_map.1 hl
      exact Nat.not_lt.2 (h kw hkw)
    · exact h1 h
  · obtain ⟨kw, hkw, hk⟩ := hw
    exact ⟨(kw, fun _ => none), List.mem_map.2 ⟨kw, hkw, rfl⟩, hk⟩

/-- A stream in three chunks; the model is moved to another device after the first. -/
def exMoved (p : Place) : List Event :=
  [.call [⟨"a", true, false⟩] fun _ => true, .move p, .call [⟨"a", false, false⟩] fun _ => true, .call [⟨"a", false, true⟩] fun _ => true]

/-- **C192 (false).** A running model that is moved to another device, or to a lower precision, refuses the next chunk of an open stream; a higher precision and a move between two streams are fine. -/
theorem C192_moved_false :
    run (fresh [3]) ⟨0, .float⟩ (exMoved ⟨1, .float⟩) = .error .runtimeError ∧
    run (fresh [3]) ⟨0, .float⟩ (exMoved ⟨0, .half⟩) = .error .runtimeError ∧
    (∃ z, run (fresh [3]) ⟨0, .float⟩ (exMoved ⟨0, .double⟩) = .ok z) ∧
    (∃ z, run (fresh [1]) ⟨0, .float⟩ (exMoved ⟨1, .half⟩) = .ok z) ∧
    ∃ z, run (fresh [3]) ⟨0, .float⟩ (exMoved ⟨0, .float⟩ ++ .move ⟨1, .half⟩ :: exMoved ⟨1, .half⟩) = .ok z :=
  ⟨rfl, rfl, ⟨_, rfl⟩, ⟨_, rfl⟩, ⟨_, rfl⟩⟩

example : Misfit ⟨0, .float⟩ (exMoved ⟨1, .float⟩) ∧ (∀ rows even, Event.call rows even ∈ exMoved ⟨1, .float⟩ → ∀ i, even i = true) := by
  refine ⟨⟨[.call [⟨"a", true, false⟩] fun _ => true, .move ⟨1, .float⟩], [⟨"a", false, false⟩], _, [.call [⟨"a", false, true⟩] fun _ => true], rfl, ⟨_, .head _, rfl⟩, _, .head _, ⟨0, .float⟩,
    ⟨[], _, _, [.move ⟨1, .float⟩], rfl, ⟨_, .head _, rfl⟩, by simp, by simp, rfl⟩, by simp [Fits, placeAfter]⟩, ?_⟩
  intro rows even h i
  simp only [exMoved, List.mem_cons, List.not_mem_nil, or_false, Event.call.injEq, reduceCtorEq, false_or] at h
  rcases h with ⟨-, rfl⟩ | ⟨-, rfl⟩ | ⟨-, rfl⟩ <;> rfl

end DS.Move
