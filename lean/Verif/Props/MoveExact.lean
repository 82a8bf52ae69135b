import Verif.Props.Move
/-!
# Moving a running model: exactly when calls raise (C192)
-/

namespace DS.Move

theorem fitsTy_iff (p cur : Place) : FitsTy p cur ↔ p.ty.join cur.ty = cur.ty := by rw [join_right]; rfl

/-- One wide layer cannot use its buffers. -/
def LClash (even : Bool) (buf : Buf) (rows : List Row) (cur : Place) : Prop :=
  (∃ r ∈ rows, r.sos = false) ∧
    ((∃ r ∈ rows, ∃ p, buf r.id = some p ∧ p.dev ≠ cur.dev) ∨
     (even = true ∧ ∃ r ∈ rows, ∃ p, buf r.id = some p ∧ ¬ FitsTy p cur) ∨
     (even = false ∧ ∃ r, rows.head? = some r ∧ ∃ p, buf r.id = some p ∧ ¬ FitsTy p cur))

theorem joined_iff (even : Bool) (buf : Buf) (rows : List Row) (cur : Place) :
    joined even buf rows cur ≠ cur.ty ↔ (even = true ∧ ∃ r ∈ rows, ∃ p, buf r.id = some p ∧ ¬ FitsTy p cur) ∨
     (even = false ∧ ∃ r, rows.head? = some r ∧ ∃ p, buf r.id = some p ∧ ¬ FitsTy p cur) := by
  cases even with
  | true =>
    simp only [true_and, Bool.true_eq_false, false_and, or_false]
    unfold joined
    rw [if_pos rfl]
    constructor
    · intro h
      by_contra hc
      apply h
      apply foldl_join
      intro p hp
      obtain ⟨r, hr, hrp⟩ := List.mem_filterMap.1 hp
      by_contra hne
      exact hc ⟨r, hr, p, hrp, fun hf => hne (by rw [join_comm]; exact (fitsTy_iff p cur).1 hf)⟩
    · rintro ⟨r, hr, p, hp, hf⟩ h
      have := foldl_join_conv _ _ h p (List.mem_filterMap.2 ⟨r, hr, hp⟩)
      rw [join_comm] at this
      exact hf ((fitsTy_iff p cur).2 this)
  | false =>
    simp only [true_and, Bool.false_eq_true, false_and, false_or]
    cases rows with
    | nil => simp [joined]
    | cons r rows =>
      cases hb : buf r.id with
      | none => simp [joined, hb]
      | some p => simp [joined, hb, fitsTy_iff]

theorem layer_clash {kw : Nat} (hk : 1 < kw) {even : Bool} {buf : Buf} {rows : List Row} {cur : Place} (h : LClash even buf rows cur) :
    layer kw even buf rows cur = .error .runtimeError := by
  obtain ⟨⟨r0, hr0, hs0⟩, h⟩ := h
  rw [layer, if_pos hk]
  have hu : (rows.any fun r => !r.sos) = true := List.any_eq_true.2 ⟨r0, hr0, by simp [hs0]⟩
  simp only [hu, Bool.true_and]
  split
  · rfl
  · rename_i hd
    rcases h with ⟨r, hr, p, hp, hne⟩ | h
    · exact absurd (List.any_eq_true.2 ⟨r, hr, by simp [hp, hne]⟩) hd
    · rw [if_pos (decide_eq_true ((joined_iff even buf rows cur).2 h))]

theorem layer_fine {kw : Nat} (hk : 1 < kw) {even : Bool} {buf : Buf} {rows : List Row} {cur : Place} (h : ¬ LClash even buf rows cur) :
    layer kw even buf rows cur = .ok (after buf rows cur) := by
  rw [layer, if_pos hk]
  by_cases hs : ∃ r ∈ rows, r.sos = false
  · rw [if_neg, if_neg]
    · rfl
    · intro hc
      rw [Bool.and_eq_true, decide_eq_true_eq] at hc
      exact h ⟨hs, .inr ((joined_iff even buf rows cur).1 hc.2)⟩
    · intro hc
      simp only [Bool.and_eq_true, List.any_eq_true] at hc
      obtain ⟨-, r, hr, hd⟩ := hc
      cases hb : buf r.id with
      | none => simp [hb] at hd
      | some p => simp [hb] at hd; exact h ⟨hs, .inl ⟨r, hr, p, hb, hd⟩⟩
  · have hu : (rows.any fun r => !r.sos) = false := by
      rw [List.any_eq_false]
      intro r hr
      cases hrs : r.sos with
      | true => simp
      | false => exact absurd ⟨r, hr, hrs⟩ hs
    simp only [hu, Bool.false_and, Bool.false_eq_true, if_false]
    rfl

/-- Some wide layer cannot use its buffers; `ks` are the kernel widths. -/
def SClash (ks : List Nat) (even : Nat → Bool) (buf : Buf) (rows : List Row) (cur : Place) : Prop :=
  ∃ (i kw : Nat), ks.reverse[i]? = some kw ∧ 1 < kw ∧ LClash (even i) buf rows cur

theorem sclash_cons (kw : Nat) (ks : List Nat) (even : Nat → Bool) (buf : Buf) (rows : List Row) (cur : Place) :
    SClash (kw :: ks) even buf rows cur ↔ (1 < kw ∧ LClash (even ks.length) buf rows cur) ∨ SClash ks even buf rows cur := by
  unfold SClash
  rw [List.reverse_cons]
  constructor
  · rintro ⟨i, k, h1, h2, h3⟩
    rcases Nat.lt_or_ge i ks.reverse.length with hi | hi
    · rw [List.getElem?_append_left hi] at h1
      exact .inr ⟨i, k, h1, h2, h3⟩
    · rw [List.getElem?_append_right hi] at h1
      have hi0 : i - ks.reverse.length = 0 := by
        by_contra hne
        rw [List.getElem?_eq_none (by simp only [List.length_singleton]; omega)] at h1
        cases h1
      rw [hi0] at h1
      have : kw = k := by simpa using h1
      subst this
      have hi1 : i = ks.length := by rw [List.length_reverse] at hi hi0; omega
      subst hi1
      exact .inl ⟨h2, h3⟩
  · rintro (⟨h2, h3⟩ | ⟨i, k, h1, h2, h3⟩)
    · exact ⟨ks.length, kw, by rw [List.getElem?_append_right (by simp)]; simp, h2, h3⟩
    · refine ⟨i, k, ?_, h2, h3⟩
      have hi : i < ks.reverse.length := by
        by_contra hc
        rw [List.getElem?_eq_none (by omega)] at h1
        cases h1
      rw [List.getElem?_append_left hi]
      exact h1

theorem forward_exact {even : Nat → Bool} {buf : Buf} {rows : List Row} {cur : Place} : ∀ {s : Stack}, Agree s buf →
    (SClash (s.map Prod.fst) even buf rows cur → forward s even rows cur = .error .runtimeError) ∧
    (¬ SClash (s.map Prod.fst) even buf rows cur →
      ∃ s', forward s even rows cur = .ok s' ∧ Agree s' (after buf rows cur) ∧ s'.map Prod.fst = s.map Prod.fst)
  | [], _ => by
    refine ⟨?_, fun _ => ⟨[], rfl, fun l hl => by simp at hl, rfl⟩⟩
    rintro ⟨i, kw, h, -⟩
    simp at h
  | (kw, b) :: s, ha => by
    obtain ⟨h1, h2⟩ := forward_exact (even := even) (rows := rows) (cur := cur) (s := s) fun l hl => ha l (List.mem_cons_of_mem _ hl)
    have hlen : (s.map Prod.fst).length = s.length := List.length_map ..
    rw [List.map_cons, sclash_cons, hlen]
    by_cases hk : 1 < kw
    · have hb : b = buf := ha (kw, b) (by simp) hk
      subst hb
      by_cases hl : LClash (even s.length) b rows cur
      · refine ⟨fun _ => ?_, fun h => absurd (.inl ⟨hk, hl⟩) h⟩
        rw [forward, layer_clash hk hl]; rfl
      · constructor
        · rintro (⟨-, h⟩ | h)
          · exact absurd h hl
          · rw [forward, layer_fine hk hl, h1 h]; rfl
        · intro h
          obtain ⟨s', e1, e2, e3⟩ := h2 fun hc => h (.inr hc)
          refine ⟨(kw, after b rows cur) :: s', ?_, fun l hl hl1 => ?_, by simp [e3]⟩
          · rw [forward, layer_fine hk hl, e1]; rfl
          · rcases List.mem_cons.1 hl with rfl | hl
            · rfl
            · exact e2 l hl hl1
    · constructor
      · rintro (⟨h, -⟩ | h)
        · exact absurd h hk
        · rw [forward, layer_narrow hk, h1 h]; rfl
      · intro h
        obtain ⟨s', e1, e2, e3⟩ := h2 fun hc => h (.inr hc)
        refine ⟨(kw, b) :: s', ?_, fun l hl hl1 => ?_, by simp [e3]⟩
        · rw [forward, layer_narrow hk, e1]; rfl
        · rcases List.mem_cons.1 hl with rfl | hl
          · exact absurd hl1 hk
          · exact e2 l hl hl1

theorem sclash_clash {kws : List Nat} {held : String → Place → Prop} {even : Nat → Bool} {buf : Buf} {rows : List Row} {cur : Place}
    (h : ∀ a p, buf a = some p ↔ held a p) : SClash kws even buf rows cur ↔ Clash kws held rows even cur := by
  unfold SClash Clash LClash
  simp only [h]
  constructor
  · rintro ⟨i, kw, h1, h2, h3, h4⟩; exact ⟨h3, i, kw, h1, h2, h4⟩
  · rintro ⟨h3, i, kw, h1, h2, h4⟩; exact ⟨i, kw, h1, h2, h3, h4⟩

/-- A clash in the middle of a history. -/
def ClashesFrom (kws : List Nat) (p₀ : Place) (pre es : List Event) : Prop :=
  ∃ es₁ rows even es₂, es = es₁ ++ .call rows even :: es₂ ∧ Clash kws (HeldAt p₀ (pre ++ es₁)) rows even (placeAfter p₀ (pre ++ es₁))

theorem clashes_cons (kws : List Nat) (p₀ : Place) (pre : List Event) (e : Event) (es : List Event) :
    ClashesFrom kws p₀ pre (e :: es) ↔ (∃ rows even, e = .call rows even ∧ Clash kws (HeldAt p₀ pre) rows even (placeAfter p₀ pre)) ∨
      ClashesFrom kws p₀ (pre ++ [e]) es := by
  constructor
  · rintro ⟨es₁, rows, even, es₂, h, h1⟩
    cases es₁ with
    | nil =>
      simp only [List.nil_append, List.cons.injEq] at h
      exact .inl ⟨rows, even, h.1, by simpa using h1⟩
    | cons e' es₁ =>
      simp only [List.cons_append, List.cons.injEq] at h
      obtain ⟨rfl, rfl⟩ := h
      exact .inr ⟨es₁, rows, even, es₂, rfl, by simpa using h1⟩
  · rintro (⟨rows, even, rfl, h1⟩ | ⟨es₁, rows, even, es₂, rfl, h1⟩)
    · exact ⟨[], rows, even, es, rfl, by simpa using h1⟩
    · exact ⟨e :: es₁, rows, even, es₂, rfl, by simpa using h1⟩

theorem run_exact (p₀ : Place) : ∀ (es pre : List Event) (s : Stack) (buf : Buf), Agree s buf → (∀ a p, buf a = some p ↔ HeldAt p₀ pre a p) →
    (¬ ClashesFrom (s.map Prod.fst) p₀ pre es → ∃ z, run s (placeAfter p₀ pre) es = .ok z) ∧
    (ClashesFrom (s.map Prod.fst) p₀ pre es → run s (placeAfter p₀ pre) es = .error .runtimeError) := by
  intro es
  induction es with
  | nil =>
    intro pre s buf _ _
    refine ⟨fun _ => ⟨_, rfl⟩, ?_⟩
    rintro ⟨es₁, rows, even, es₂, h, -⟩
    simp at h
  | cons e es ih =>
    intro pre s buf ha hb
    rw [clashes_cons]
    cases e with
    | move q =>
      have hb' : ∀ a p, buf a = some p ↔ HeldAt p₀ (pre ++ [.move q]) a p := fun a p => by
        rw [hb, held_snoc]
        constructor
        · exact fun h => .inr ⟨fun _ _ hc => (by cases hc), h⟩
        · rintro (⟨_, _, h, -⟩ | h)
          · cases h
          · exact h.2
      obtain ⟨i1, i2⟩ := ih (pre ++ [.move q]) s buf ha hb'
      have hq : placeAfter p₀ (pre ++ [.move q]) = q := by rw [placeAfter_append]; rfl
      rw [hq] at i1 i2
      refine ⟨fun h => i1 fun hm => h (.inr hm), fun h => i2 ?_⟩
      rcases h with ⟨_, _, h, -⟩ | h
      · cases h
      · exact h
    | call rows even =>
      have hpl : placeAfter p₀ (pre ++ [.call rows even]) = placeAfter p₀ pre := by rw [placeAfter_append]; rfl
      obtain ⟨f1, f2⟩ := forward_exact (even := even) (rows := rows) (cur := placeAfter p₀ pre) ha
      rw [sclash_clash hb] at f1 f2
      by_cases hc : Clash (s.map Prod.fst) (HeldAt p₀ pre) rows even (placeAfter p₀ pre)
      · refine ⟨fun h => absurd (.inl ⟨rows, even, rfl, hc⟩) h, fun _ => ?_⟩
        rw [run, f1 hc]; rfl
      · obtain ⟨s', hf, ha', hs'⟩ := f2 hc
        obtain ⟨i1, i2⟩ := ih (pre ++ [.call rows even]) s' _ ha' (after_held hb rows even)
        rw [hpl] at i1 i2
        rw [hs'] at i1 i2
        rw [run, hf]
        refine ⟨fun h => i1 fun hm => h (.inr hm), fun h => i2 ?_⟩
        rcases h with ⟨rows', even', he, h⟩ | h
        · injection he with he1 he2
          subst he1; subst he2
          exact absurd h hc
        · exact h

/-- **C192 (exact).** A stack of online convolutions that is called and moved in any order gives an output at every call if and only if no call that continues a stream has, for some convolution wider than one frame, a row with frames on
another device, or frames of a precision that does not fit — of any row where the buffers have the same length, of the first row where they do not. Every other history raises RuntimeError.
Missing: false in general (`C192_moved_false`); frames of a higher precision are not refused if they are not in the first row (`C192_first_false`). -/
theorem C192_exact_partial (kws : List Nat) (p₀ : Place) (es : List Event) :
    ((∃ z, run (fresh kws) p₀ es = .ok z) ↔ ¬ Clashes kws p₀ es) ∧ (Clashes kws p₀ es → run (fresh kws) p₀ es = .error .runtimeError) := by
  have hm : ClashesFrom kws p₀ [] es ↔ Clashes kws p₀ es := by simp [ClashesFrom, Clashes]
  obtain ⟨h1, h2⟩ := run_exact p₀ es [] (fresh kws) (fun _ => none) (fun l hl _ => by
    obtain ⟨kw, -, rfl⟩ := List.mem_map.1 hl; rfl) fun a p => ⟨fun h => (by cases h), fun h => absurd h (held_nil _ _ _)⟩
  have hf : (fresh kws).map Prod.fst = kws := by unfold fresh; rw [List.map_map]; exact List.map_id _
  rw [hf, hm] at h1 h2
  refine ⟨⟨?_, h1⟩, h2⟩
  rintro ⟨z, hz⟩ hc
  rw [show run (fresh kws) p₀ es = .error .runtimeError from h2 hc] at hz
  cases hz

/-- Two streams whose buffers differ in length; the model is changed to half precision, and stream `b` was started after that. `first` is the order of the rows of the last batch. -/
def exUneven (first second : String) : List Event :=
  [.call [⟨"a", true, false⟩] fun _ => true, .move ⟨0, .half⟩, .call [⟨"b", true, false⟩] fun _ => true, .call [⟨first, false, false⟩, ⟨second, false, false⟩] fun _ => false]

/-- **C192 (false).** Whether frames of a higher precision are refused depends on the order of the rows: they are in the first row, they are silently converted in the second. -/
theorem C192_first_false :
    run (fresh [3]) ⟨0, .float⟩ (exUneven "a" "b") = .error .runtimeError ∧ ∃ z, run (fresh [3]) ⟨0, .float⟩ (exUneven "b" "a") = .ok z :=
  ⟨rfl, _, rfl⟩

example : Clashes [3] ⟨0, .float⟩ (exUneven "a" "b") := by
  by_contra h
  obtain ⟨z, hz⟩ := (C192_exact_partial [3] ⟨0, .float⟩ (exUneven "a" "b")).1.2 h
  rw [C192_first_false.1] at hz
  cases hz

end DS.Move
