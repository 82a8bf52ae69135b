import Verif.Props.Setitem
/-!
# C187: values with names, and what is refused
-/

namespace DS.Tn
open Meta

section
variable {α : Type}

/-- The names of the axes of a part: those of the axes that no int indexes. An Ellipsis stands for `k` axes. -/
inductive PartNames (k : Nat) : List (Option String) → List Ix → List (Option String) → Prop where
  | done (ns : List (Option String)) : PartNames k ns [] ns
  | int {n : Option String} {ns out : List (Option String)} {r : List Ix} (i : Int) (h : PartNames k ns r out) : PartNames k (n :: ns) (.int i :: r) out
  | slice {n : Option String} {ns out : List (Option String)} {r : List Ix} (s : Slice) (h : PartNames k ns r out) : PartNames k (n :: ns) (.slice s :: r) (n :: out)
  | ellipsis {ns out : List (Option String)} {r : List Ix} (h : PartNames k (ns.drop k) r out) : PartNames k ns (.ellipsis :: r) (ns.take k ++ out)

/-- Every name that the value has is the name of that axis of the part. -/
def Agree (u q : List (Option String)) : Prop := ∀ (i : Nat) (a : String), u[i]? = some (some a) → q[i]? = some (some a)

theorem selNames_full (dims : List Nat) (names : List (Option String)) (h : names.length = dims.length) : selNames (dims.map fullSel) names = names := by
  induction dims generalizing names with
  | nil => simpa [selNames] using h
  | cons d dims ih =>
    cases names with
    | nil => simp at h
    | cons n names =>
      simp only [List.map_cons, fullSel, selNames]
      rw [ih names (by simpa using h)]

theorem selNames_append (dims : List Nat) (rest : List Sel) (names : List (Option String)) (h : dims.length ≤ names.length) :
    selNames (dims.map fullSel ++ rest) names = names.take dims.length ++ selNames rest (names.drop dims.length) := by
  induction dims generalizing names with
  | nil => simp
  | cons d dims ih =>
    cases names with
    | nil => simp at h
    | cons n names =>
      rw [List.map_cons, List.cons_append]
      show n :: selNames (dims.map fullSel ++ rest) names = _
      rw [ih names (by simpa using h)]
      simp

theorem torchSel_int {n : Nat} {i : Int} {s : Sel} (h : torchSel n (.int i) = .ok s) : ∃ p, s = .pick p := by
  unfold torchSel at h
  simp only at h
  obtain ⟨p, -, h⟩ := ok_of_bind h
  cases h
  exact ⟨p, rfl⟩

theorem torchSel_slice {n : Nat} {s : Slice} {r : Sel} (h : torchSel n (.slice s) = .ok r) : ∃ ps, r = .keep ps := by
  unfold torchSel at h
  simp only at h
  split at h
  · cases h
  · obtain ⟨q, -, h⟩ := ok_of_bind h
    cases h
    exact ⟨_, rfl⟩

theorem partNames_sels (k : Nat) (es : List Ix) (names q : List (Option String)) (hq : PartNames k names es q) (dims : List Nat) (hl : names.length = dims.length) (sels : List Sel)
    (hs : torchSels k dims es = .ok sels) : selNames sels names = q := by
  induction hq generalizing dims sels with
  | done ns =>
    rw [torchSels] at hs
    cases hs
    exact selNames_full dims _ hl
  | int i h ih =>
    cases dims with
    | nil => simp at hl
    | cons d dims =>
      unfold torchSels at hs
      obtain ⟨s, h1, hs⟩ := ok_of_bind hs
      obtain ⟨rest, h2, hs⟩ := ok_of_bind hs
      cases hs
      obtain ⟨p, rfl⟩ := torchSel_int h1
      rw [selNames]
      exact ih dims (by simpa using hl) rest h2
  | slice s h ih =>
    cases dims with
    | nil => simp at hl
    | cons d dims =>
      unfold torchSels at hs
      obtain ⟨r, h1, hs⟩ := ok_of_bind hs
      obtain ⟨rest, h2, hs⟩ := ok_of_bind hs
      cases hs
      obtain ⟨ps, rfl⟩ := torchSel_slice h1
      rw [selNames, ih dims (by simpa using hl) rest h2]
  | @ellipsis ns out r h ih =>
    have hs' : torchSels k dims (.ellipsis :: r) = (do
        let rest ← torchSels k (dims.drop k) r
        .ok ((dims.take k).map fullSel ++ rest)) := by
      rw [torchSels]
    rw [hs'] at hs
    obtain ⟨rest, h2, hs⟩ := ok_of_bind hs
    cases hs
    have htl : (dims.take k).length = min k ns.length := by rw [List.length_take, hl]
    rw [selNames_append _ _ _ (by rw [htl]; omega), htl]
    have ht : ns.take (min k ns.length) = ns.take k := by
      rcases Nat.le_total k ns.length with h' | h'
      · rw [Nat.min_eq_left h']
      · rw [Nat.min_eq_right h', List.take_of_length_le h', List.take_of_length_le (Nat.le_refl _)]
    have hd : ns.drop (min k ns.length) = ns.drop k := by
      rcases Nat.le_total k ns.length with h' | h'
      · rw [Nat.min_eq_left h']
      · rw [Nat.min_eq_right h', List.drop_of_length_le h', List.drop_of_length_le (Nat.le_refl _)]
    rw [ht, hd, ih (dims.drop k) (by simp [hl]) rest h2]

theorem agree_nil (q : List (Option String)) : Agree [] q := by
  intro i a h
  simp at h

theorem agree_cons (b a : Option String) (u q : List (Option String)) : Agree (b :: u) (a :: q) ↔ (b = none ∨ b = a) ∧ Agree u q := by
  constructor
  · intro h
    refine ⟨?_, fun i c hi => by simpa using h (i + 1) c (by simpa using hi)⟩
    cases b with
    | none => exact Or.inl rfl
    | some c =>
      have := h 0 c (by simp)
      right
      simpa using this.symm
  · rintro ⟨h1, h2⟩ i c hi
    cases i with
    | zero =>
      simp only [List.getElem?_cons_zero, Option.some.injEq] at hi ⊢
      rcases h1 with h1 | h1
      · rw [h1] at hi; cases hi
      · rw [← h1, hi]
    | succ i => simpa using h2 i c (by simpa using hi)

/-- Names are unified into those of the part exactly if they agree; otherwise the result differs or torch raises RuntimeError. -/
theorem unify_agree (q u : List (Option String)) (hl : q.length = u.length) :
    (Agree u q → unifyNames q u = .ok q) ∧ (¬ Agree u q → unifyNames q u = .error .runtimeError ∨ ∃ n, unifyNames q u = .ok n ∧ n ≠ q) := by
  induction q generalizing u with
  | nil =>
    cases u with
    | nil => exact ⟨fun _ => rfl, fun h => absurd (agree_nil _) h⟩
    | cons b u => simp at hl
  | cons a q ih =>
    cases u with
    | nil => simp at hl
    | cons b u =>
      obtain ⟨ih1, ih2⟩ := ih u (by simpa using hl)
      rw [agree_cons]
      constructor
      · rintro ⟨h1, h2⟩
        have ha : unifyName a b = .ok a := by
          rcases h1 with rfl | rfl
          · cases a <;> rfl
          · cases b <;> simp [unifyName]
        rw [unifyNames, ha, Except.bind_ok', ih1 h2, Except.bind_ok']
      · intro h
        rw [unifyNames]
        by_cases h1 : b = none ∨ b = a
        · have h2 : ¬ Agree u q := fun h2 => h ⟨h1, h2⟩
          have ha : unifyName a b = .ok a := by
            rcases h1 with rfl | rfl
            · cases a <;> rfl
            · cases b <;> simp [unifyName]
          rw [ha, Except.bind_ok']
          rcases ih2 h2 with h3 | ⟨n, h3, h4⟩
          · rw [h3]
            exact Or.inl rfl
          · rw [h3, Except.bind_ok']
            exact Or.inr ⟨_, rfl, by simpa using h4⟩
        · push Not at h1
          obtain ⟨hb, hba⟩ := h1
          cases b with
          | none => exact absurd rfl hb
          | some b =>
            cases a with
            | none =>
              rw [show unifyName none (some b) = .ok (some b) from rfl, Except.bind_ok']
              by_cases h2 : Agree u q
              · rw [ih1 h2, Except.bind_ok']
                exact Or.inr ⟨_, rfl, by simp⟩
              · rcases ih2 h2 with h3 | ⟨n, h3, -⟩
                · rw [h3]
                  exact Or.inl rfl
                · rw [h3, Except.bind_ok']
                  exact Or.inr ⟨_, rfl, by simp⟩
            | some a =>
              left
              have : ¬ a = b := fun e => hba (by rw [e])
              rw [show unifyName (some a) (some b) = .error .runtimeError by simp [unifyName, this]]
              rfl

theorem unify_allNone (q u : List (Option String)) (hl : q.length = u.length) (h : q.all Option.isNone = true) : unifyNames q u = .ok u := by
  induction q generalizing u with
  | nil =>
    cases u with
    | nil => rfl
    | cons b u => simp at hl
  | cons a q ih =>
    cases u with
    | nil => simp at hl
    | cons b u =>
      simp only [List.all_cons, Bool.and_eq_true, Option.isNone_iff_eq_none] at h
      rw [h.1, unifyNames, show unifyName none b = .ok b from rfl, Except.bind_ok', ih u (by simpa using hl) h.2, Except.bind_ok']

theorem written_named (shape : List Nat) (q : List (Option String)) (o : Opd α) (hs : o.ten.shape = shape) (hl : q.length = o.ten.names.length) :
    ((q.all Option.isNone = true ∨ Agree o.ten.names q) → written shape q (.ten o) = .ok o.ten.val) ∧
    (¬ (q.all Option.isNone = true ∨ Agree o.ten.names q) → written shape q (.ten o) = .error .runtimeError) := by
  rw [written_ten _ _ _ _ rfl, if_pos hs]
  obtain ⟨h1, h2⟩ := unify_agree q o.ten.names hl
  constructor
  · rintro (h | h)
    · rw [unify_allNone q _ hl h, Except.bind_ok', if_pos (Or.inr h)]
    · rw [h1 h, Except.bind_ok', if_pos (Or.inl rfl)]
  · intro h
    push Not at h
    rcases h2 h.2 with h3 | ⟨n, h3, h4⟩
    · rw [h3]; rfl
    · rw [h3, Except.bind_ok', if_neg]
      rintro (h5 | h5)
      · exact h4 h5
      · exact h.1 h5

/-- A refused value: the data are as before. -/
theorem refused_value (x : STen α) (top : Top) (hb : ∀ e ∈ top.entries, e.basic) (sels : List Sel)
    (hs : torchSels (x.t.shape.length - specified top.entries) x.t.shape top.entries = .ok sels) (v : Val α) (e : PyErr)
    (hw : written (selShape sels) (selNames sels x.t.names) v = .error e) : setitem x top v = (x.t, .error e) := by
  have ha : assignTen x.t top v = .error e := by
    unfold assignTen
    have := specified_le _ _ hb _ _ hs
    rw [if_neg (by omega), setSels_eq _ _ hb, hs, Except.bind_ok', if_neg (by simp [basic_adv _ hb]), hw]
    rfl
  unfold setitem
  rw [ha]

/-- **C187, values of the shape of the part**, plain or StreamTensors, with or without names. If the part has no names, or every name of the value is that of the axis of the part, the value is written to exactly the selected entries, and the outcome depends on the
metadata only (`C187_metadata_partial`). Otherwise the assignment raises RuntimeError and changes nothing.
Missing: as in `C187_refused_partial`. -/
theorem C187_named_partial (x : STen α) (hx : x.t.names.length = x.t.shape.length) (top : Top) (hb : ∀ e ∈ top.entries, e.basic) (p : Ten (List Nat)) (hp : selPositions x.t.shape top = .ok p)
    (q : List (Option String)) (hq : PartNames (x.t.shape.length - specified top.entries) x.t.names top.entries q)
    (o : Opd α) (ho : o.ten.names.length = o.ten.shape.length) (hs : o.ten.shape = p.shape) :
    ((q.all Option.isNone = true ∨ Agree o.ten.names q) →
      (∃ t, assignTen x.t top (.ten o) = .ok t) ∧ (setitem x top (.ten o)).1.shape = x.t.shape ∧ (setitem x top (.ten o)).1.names = x.t.names ∧
      (∀ ox, Inside ox p.shape → Inside (p.val ox) x.t.shape ∧ (setitem x top (.ten o)).1.val (p.val ox) = o.ten.val ox) ∧
      (∀ ix, Inside ix x.t.shape → (∀ ox, Inside ox p.shape → p.val ox ≠ ix) → (setitem x top (.ten o)).1.val ix = x.t.val ix)) ∧
    (¬ (q.all Option.isNone = true ∨ Agree o.ten.names q) → setitem x top (.ten o) = (x.t, .error .runtimeError)) := by
  obtain ⟨sels, hsel, h1, h2, g⟩ := positions_sels _ _ hb _ hp
  have hn := partNames_sels _ _ _ _ hq _ hx _ hsel
  have hlen : q.length = o.ten.names.length := by rw [← hn, selNames_length g _ hx, ho, hs, h1]
  obtain ⟨hw1, hw2⟩ := written_named (selShape sels) q o (hs.trans h1) hlen
  constructor
  · intro h
    have hw := hw1 h
    rw [← hn] at hw
    have ha := assignTen_ok x.t top hb sels hsel _ _ hw
    obtain ⟨h3, h4⟩ := assigned_vals x.t sels g o.ten.val p h1 h2
    refine ⟨⟨_, ha⟩, ?_⟩
    unfold setitem
    rw [ha]
    exact ⟨rfl, rfl, h3, h4⟩
  · intro h
    have hw := hw2 h
    rw [← hn] at hw
    exact refused_value x top hb sels hsel _ _ hw

-- `x[0] = r` for a plain row named "L": the part is the row, whose axis is "L"; a row named "B" is refused.
example : PartNames (2 - specified [Ix.int 0]) [BATCH, LENGTH] [.int 0] [LENGTH] := .int 0 (.done _)
example : Agree [LENGTH] [LENGTH] ∧ ¬ Agree [BATCH] [LENGTH] := by
  refine ⟨fun i a h => h, fun h => ?_⟩
  have := h 0 "B" rfl
  simp [LENGTH] at this
example : exPos.map (setitem exSet (.bare (.int 0)) (.ten (.plain { shape := [2], names := [LENGTH], val := fun ix => 7 + ix.getD 0 0 }))).1.val = [7, 8, 10, 11] := by decide
example : (setitem exSet (.bare (.int 0)) (.ten (.plain { shape := [2], names := [BATCH], val := fun ix => 7 + ix.getD 0 0 }))).2 = .error .runtimeError := rfl

/-- **C187, values that are not of the shape of the part.** A tensor with a name is never expanded, and neither is one whose shape, without leading axes of size 1, is not that of the last axes of the part with sizes 1 allowed: RuntimeError, and nothing is changed.
Missing: expansion of named values. -/
theorem C187_expand_partial (x : STen α) (top : Top) (hb : ∀ e ∈ top.entries, e.basic) (p : Ten (List Nat)) (hp : selPositions x.t.shape top = .ok p)
    (o : Opd α) (hs : o.ten.shape ≠ p.shape) (h0 : o.ten.shape ≠ []) (hv : (∃ a, some a ∈ o.ten.names) ∨ ¬ Expands (stripOnes o.ten.shape) p.shape) :
    setitem x top (.ten o) = (x.t, .error .runtimeError) := by
  obtain ⟨sels, hsel, h1, h2, g⟩ := positions_sels _ _ hb _ hp
  apply refused_value x top hb sels hsel
  rw [written_ten _ _ _ _ rfl, if_neg (h1 ▸ hs), if_neg h0]
  by_cases hn : o.ten.names.any Option.isSome = true
  · rw [if_pos hn]
  · rw [if_neg hn, if_neg]
    rcases hv with ⟨a, ha⟩ | hv
    · exact absurd (List.any_eq_true.2 ⟨_, ha, rfl⟩) hn
    · rw [expands_iff, ← h1]
      exact hv

example : (setitem exSet (.bare (.slice ⟨none, none, none⟩)) (.ten (.plain { shape := [1, 2], names := [none, LENGTH], val := fun _ => 5 }))) = (exSet.t, .error .runtimeError) :=
  C187_expand_partial exSet _ (by intro e he; rw [List.mem_singleton.1 he]; exact ⟨by simp, rfl⟩) _ rfl _ (by decide) (by simp [Opd.ten]) (Or.inl ⟨"L", by simp [Opd.ten, LENGTH]⟩)

theorem setSels_none (k : Nat) (es : List Ix) (dims : List Nat) (h : Ix.none ∈ es) : ∃ e, setSels k dims es = .error e := by
  induction es generalizing dims with
  | nil => cases h
  | cons e es ih =>
    by_cases he : e = .none
    · subst he
      exact ⟨.runtimeError, by unfold setSels; rfl⟩
    · have hes : Ix.none ∈ es := by
        rcases List.mem_cons.1 h with h | h
        · exact absurd h.symm he
        · exact h
      by_cases hel : e = .ellipsis
      · subst hel
        obtain ⟨e', he'⟩ := ih (dims.drop k) hes
        exact ⟨e', by unfold setSels; rw [he']; rfl⟩
      · cases dims with
        | nil => exact ⟨.indexError, by unfold setSels; cases e <;> first | rfl | exact absurd rfl he | exact absurd rfl hel⟩
        | cons n dims =>
          obtain ⟨e', he'⟩ := ih dims hes
          have hgo : setSels k (n :: dims) (e :: es) = (do
              let s ← (if e.adv then .ok (fullSel n) else torchSel n e : Py Sel)
              let rest ← setSels k dims es
              .ok (s :: rest)) := by
            conv => lhs; unfold setSels
            cases e <;> first | rfl | exact absurd rfl he | exact absurd rfl hel
          rw [hgo]
          cases (if e.adv then Except.ok (fullSel n) else torchSel n e : Py Sel) with
          | error e'' => exact ⟨e'', rfl⟩
          | ok s => exact ⟨e', by rw [Except.bind_ok', he']; rfl⟩

/-- **C187, `None` in the index.** Such assignments are always refused, and nothing is changed. Missing: the assignment, which torch does on tensors without names. -/
theorem C187_new_axis_partial (x : STen α) (top : Top) (h : Ix.none ∈ top.entries) (v : Val α) : ∃ e, setitem x top v = (x.t, .error e) := by
  have : ∃ e, assignTen x.t top v = .error e := by
    unfold assignTen
    split
    · exact ⟨_, rfl⟩
    · obtain ⟨e, he⟩ := setSels_none (x.t.shape.length - specified top.entries) top.entries x.t.shape h
      rw [he]
      exact ⟨e, rfl⟩
  obtain ⟨e, he⟩ := this
  unfold setitem
  rw [he]
  exact ⟨e, rfl⟩

example : ∃ e, setitem exSet (.tup [.int 0, .none]) (.num 1) = (exSet.t, .error e) := C187_new_axis_partial exSet _ (by simp [Top.entries]) _

end
end DS.Tn
