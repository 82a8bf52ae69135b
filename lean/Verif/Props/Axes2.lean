import Verif.Props.Axes
/-! # C37, C38: squeeze and flatten -/

namespace DS.Tn

variable {α : Type}

/-- **C37 is false of the code.** `x.squeeze()` removes every unnamed axis from the names as soon as one unnamed axis has size 1, and then fails. -/
theorem C37_squeeze_false : squeezeNone ⟨exT [2, 1, 4, 3] [some "B", none, none, some "L"], exM2⟩ = .error .runtimeError := by rfl

theorem insertIdx_eraseIdx {β : Type} (xs : List β) (a : Nat) (h : a < xs.length) : (xs.eraseIdx a).insertIdx a xs[a] = xs := by
  induction xs generalizing a with
  | nil => simp at h
  | cons x xs ih =>
    cases a with
    | zero => simp
    | succ a => simp; exact ih a (by simpa using h)

/-- **C37 for a given axis** (`a` is the axis that `d` names): an axis of size 1 disappears with its name, all others keep name, size and data; an axis of
another size is left alone. Missing: squeezing all axes at once (`C37_squeeze_false`). -/
theorem C37_squeeze_dim_partial (x : STen α) (hx : x.t.WF) (d : Int) (a : Nat) (hd : posOf x.t.ndim d = some a) :
    ∃ y, squeezeDim x d = .ok y ∧ y.md = x.md ∧
      (x.t.shape[a]? = some 1 → y.t.names = x.t.names.eraseIdx a ∧ y.t.shape = x.t.shape.eraseIdx a ∧
        ∀ ix : List Nat, ix[a]? = some 0 → y.t.val (ix.eraseIdx a) = x.t.val ix) ∧
      (x.t.shape[a]? ≠ some 1 → y.t = x.t) := by
  have ha := posOf_lt hd
  have hl : x.t.names.length = x.t.ndim := hx.1
  have hs : x.t.shape[a]? = some (x.t.shape[a]'ha) := List.getElem?_eq_getElem ha
  have hd' : posOf x.t.shape.length d = some a := hd
  have hdn : posOf x.t.names.length d = some a := by rw [hl]; exact hd
  have e : x.t.unnamed.ndim = x.t.ndim := rfl
  have es : x.t.unnamed.shape = x.t.shape := rfl
  have hdel : pyDel x.t.names d = .ok (x.t.names.eraseIdx a) := by
    have hd := posOf_iff.1 hdn
    unfold pyDel
    simp only
    have ej : (if d < 0 then d + (x.t.names.length : Int) else d) = a := by split <;> omega
    rw [ej, if_pos (by omega)]
    simp
  by_cases h1 : x.t.shape[a]'ha = 1
  · refine ⟨⟨⟨x.t.shape.eraseIdx a, x.t.names.eraseIdx a, fun ix => x.t.val (ix.insertIdx a 0)⟩, x.md⟩, ?_, rfl, ?_, ?_⟩
    · unfold squeezeDim Ten.squeezeAt
      simp only [e, es, normDim_ok hd, Except.bind_ok', List.getD_eq_getElem?_getD, hs, h1, Option.getD_some, if_true]
      rw [pyGet_names hd' 1 (by rw [hs, h1])]
      simp only [Except.bind_ok', if_true, hdel]
      rw [rename_ok]
      · rfl
      · show _ = (x.t.shape.eraseIdx a).length
        rw [List.length_eraseIdx, List.length_eraseIdx, hx.1]
      · exact okNames_sub (List.eraseIdx_sublist ..) hx.2
    · intro _
      refine ⟨rfl, rfl, ?_⟩
      intro ix h0
      show x.t.val _ = _
      congr 1
      obtain ⟨hlt, h0⟩ := List.getElem?_eq_some_iff.1 h0
      rw [← h0]
      exact insertIdx_eraseIdx ix a hlt
    · intro h; rw [hs, h1] at h; exact absurd rfl h
  · refine ⟨x, ?_, rfl, ?_, fun _ => rfl⟩
    · unfold squeezeDim Ten.squeezeAt
      simp only [e, es, normDim_ok hd, Except.bind_ok', List.getD_eq_getElem?_getD, hs, h1, Option.getD_some, if_false]
      rw [pyGet_names hd' _ hs]
      simp only [Except.bind_ok', h1, if_false]
      rw [rename_ok]
      · rfl
      · exact hx.1
      · exact hx.2
    · intro h; rw [hs, Option.some.injEq] at h; exact absurd h h1

example : (exT [2, 1, 3] [some "B", none, some "L"]).WF ∧ posOf 3 (-2) = some 1 := by decide

theorem singletonNames_eq (ns : List (Option String)) (ss : List Nat) :
    singletonNames ns ss = ((ns.zip ss).filter fun p => decide (p.2 = 1)).map (·.1) := by
  induction ns generalizing ss with
  | nil => rfl
  | cons n ns ih =>
    cases ss with
    | nil => rfl
    | cons s ss =>
      simp only [singletonNames, List.zip_cons_cons, List.filter_cons, ih]
      split <;> simp_all

theorem zip_some_unique {ns : List (Option String)} (h : (ns.filterMap id).Nodup) (ss : List Nat) {n : String} {s s' : Nat}
    (h1 : (some n, s) ∈ ns.zip ss) (h2 : (some n, s') ∈ ns.zip ss) : s = s' := by
  induction ns generalizing ss with
  | nil => simp at h1
  | cons m ns ih =>
    cases ss with
    | nil => simp at h1
    | cons q ss =>
      have mem : ∀ r, (some n, r) ∈ ns.zip ss → n ∈ ns.filterMap id := by
        intro r hr
        have := (List.of_mem_zip hr).1
        simp [this]
      simp only [List.zip_cons_cons, List.mem_cons, Prod.mk.injEq] at h1 h2
      cases m with
      | none =>
        simp only [List.filterMap_cons, id] at h
        rcases h1 with ⟨h1, -⟩ | h1
        · simp at h1
        · rcases h2 with ⟨h2, -⟩ | h2
          · simp at h2
          · exact ih h ss h1 h2
      | some m =>
        simp only [List.filterMap_cons, id, List.nodup_cons] at h
        rcases h1 with ⟨e1, rfl⟩ | h1
        · rcases h2 with ⟨e2, rfl⟩ | h2
          · rfl
          · simp at e1; subst e1; exact absurd (mem _ h2) h.1
        · rcases h2 with ⟨e2, rfl⟩ | h2
          · simp at e2; subst e2; exact absurd (mem _ h1) h.1
          · exact ih h.2 ss h1 h2

theorem filter_names_eq (ns : List (Option String)) (ss : List Nat) (hl : ns.length = ss.length) (hnd : (ns.filterMap id).Nodup)
    (hc : ∀ s, (none, 1) ∈ ns.zip ss → (none, s) ∈ ns.zip ss → s = 1) :
    ns.filter (fun n => !((singletonNames ns ss).contains n)) = surviving ns ss := by
  unfold surviving
  have e : ns.filter (fun n => !((singletonNames ns ss).contains n)) =
      ((ns.zip ss).filter fun p => !((singletonNames ns ss).contains p.1)).map (·.1) := by
    conv_lhs => rw [← List.map_fst_zip (l₁ := ns) (l₂ := ss) (by omega)]
    rw [List.filter_map]
    congr 2
    rw [List.map_fst_zip (by omega)]
    rfl
  rw [e]
  congr 1
  apply List.filter_congr
  rintro ⟨n, s⟩ hp
  rw [Bool.eq_iff_iff]
  simp only [singletonNames_eq, Bool.not_eq_true', List.contains_eq_mem, decide_eq_false_iff_not, List.mem_map, List.mem_filter,
    decide_eq_true_eq, Prod.exists, exists_and_right, exists_eq_right, not_exists, not_and, ne_eq]
  constructor
  · intro h hs; subst hs; exact h hp
  · intro h hq
    cases n with
    | none => exact h (hc s hq hp)
    | some n => exact h (zip_some_unique hnd ss hp hq)

theorem surviving_length (ns : List (Option String)) (ss : List Nat) (hl : ns.length = ss.length) :
    (surviving ns ss).length = (ss.filter (· ≠ 1)).length := by
  unfold surviving
  induction ns generalizing ss with
  | nil => cases ss with
    | nil => rfl
    | cons => simp at hl
  | cons n ns ih =>
    cases ss with
    | nil => simp at hl
    | cons s ss =>
      simp only [List.zip_cons_cons, List.filter_cons]
      have := ih ss (by simpa using hl)
      split <;> simp_all

theorem surviving_sublist (ns : List (Option String)) (ss : List Nat) (hl : ns.length = ss.length) : (surviving ns ss).Sublist ns := by
  unfold surviving
  have h := (List.filter_sublist (p := fun p : Option String × Nat => decide (p.2 ≠ 1)) (l := ns.zip ss)).map (·.1)
  rwa [List.map_fst_zip (by omega)] at h

theorem unsqueezeIx_eq (shape ix : List Nat) (hl : ix.length = shape.length) (h0 : ∀ k : Nat, shape[k]? = some 1 → ix[k]? = some 0) :
    unsqueezeIx shape (((ix.zip shape).filter fun p => decide (p.2 ≠ 1)).map (·.1)) = ix := by
  induction shape generalizing ix with
  | nil => simp at hl; subst hl; rfl
  | cons s shape ih =>
    cases ix with
    | nil => simp at hl
    | cons i ix =>
      have ih := ih ix (by simpa using hl) (fun k hk => by simpa using h0 (k + 1) (by simpa using hk))
      by_cases hs : s = 1
      · subst hs
        have : i = 0 := by simpa using h0 0 (by simp)
        subst this
        simp only [List.zip_cons_cons, List.filter_cons, unsqueezeIx]
        simpa using ih
      · simp only [List.zip_cons_cons, List.filter_cons]
        unfold unsqueezeIx
        split
        · simp_all
        · simp_all
        · simp_all

/-- **C37 without an axis, the part that holds.** If no unnamed axis of size 1 stands beside an unnamed axis of another size, `x.squeeze()` removes exactly
the axes of size 1, each with its own name. Missing: the other tensors, for which the call raises RuntimeError (`C37_squeeze_all_raises_partial`). -/
theorem C37_squeeze_all_partial (x : STen α) (hx : x.t.WF)
    (hc : ∀ s, (none, 1) ∈ x.t.names.zip x.t.shape → (none, s) ∈ x.t.names.zip x.t.shape → s = 1) :
    ∃ y, squeezeNone x = .ok y ∧ y.md = x.md ∧ y.t.names = surviving x.t.names x.t.shape ∧ y.t.shape = x.t.shape.filter (· ≠ 1) ∧
      ∀ ix : List Nat, ix.length = x.t.ndim → (∀ k : Nat, x.t.shape[k]? = some 1 → ix[k]? = some 0) →
        y.t.val (((ix.zip x.t.shape).filter fun p => decide (p.2 ≠ 1)).map (·.1)) = x.t.val ix := by
  refine ⟨⟨⟨x.t.shape.filter (· ≠ 1), surviving x.t.names x.t.shape, fun ix => x.t.val (unsqueezeIx x.t.shape ix)⟩, x.md⟩, ?_, rfl, rfl, rfl, ?_⟩
  · unfold squeezeNone
    rw [filter_names_eq _ _ hx.1 hx.2.1 hc]
    simp only
    rw [rename_ok]
    · rfl
    · exact surviving_length _ _ hx.1
    · exact okNames_sub (surviving_sublist _ _ hx.1) hx.2
  · intro ix hl h0
    show x.t.val _ = _
    rw [unsqueezeIx_eq _ _ hl h0]

example : (exT [2, 1, 4, 1] [some "B", none, some "F", some "L"]).WF ∧
    ∀ s, (none, 1) ∈ [some "B", none, some "F", some "L"].zip [2, 1, 4, 1] →
      ((none : Option String), s) ∈ [some "B", none, some "F", some "L"].zip [2, 1, 4, 1] → s = 1 := by
  constructor
  · decide
  · intro s _ h; simpa using h

/-- The remaining tensors: an unnamed axis of size 1 beside an unnamed axis of another size always raises RuntimeError. Missing: the names that the property asks for; the call raises instead. -/
theorem C37_squeeze_all_raises_partial (x : STen α) (hx : x.t.WF) (s : Nat) (hs : s ≠ 1)
    (h1 : (none, 1) ∈ x.t.names.zip x.t.shape) (h2 : (none, s) ∈ x.t.names.zip x.t.shape) :
    squeezeNone x = .error .runtimeError := by
  have hlt : (x.t.names.filter fun n => !((singletonNames x.t.names x.t.shape).contains n)).length < (x.t.shape.filter (· ≠ 1)).length := by
    rw [← surviving_length _ _ hx.1]
    unfold surviving
    have e : x.t.names.filter (fun n => !((singletonNames x.t.names x.t.shape).contains n)) =
        ((x.t.names.zip x.t.shape).filter fun p => !((singletonNames x.t.names x.t.shape).contains p.1)).map (·.1) := by
      conv_lhs => rw [← List.map_fst_zip (l₁ := x.t.names) (l₂ := x.t.shape) (by rw [hx.1])]
      rw [List.filter_map]
      congr 2
      rw [List.map_fst_zip (by rw [hx.1])]
      rfl
    rw [e, List.length_map, List.length_map]
    have hsing : ∀ n, (n, 1) ∈ x.t.names.zip x.t.shape → n ∈ singletonNames x.t.names x.t.shape := by
      intro n hn
      rw [singletonNames_eq, List.mem_map]
      exact ⟨(n, 1), by simp [hn], rfl⟩
    have hnone := hsing none h1
    have key : ((x.t.names.zip x.t.shape).filter fun p => !((singletonNames x.t.names x.t.shape).contains p.1)) =
        ((x.t.names.zip x.t.shape).filter fun p => decide (p.2 ≠ 1)).filter fun p => !((singletonNames x.t.names x.t.shape).contains p.1) := by
      rw [List.filter_filter]
      apply List.filter_congr
      rintro ⟨n, q⟩ hq
      by_cases hq1 : q = 1
      · subst hq1; simp [hsing n hq]
      · simp [hq1]
    rw [key]
    apply List.length_filter_lt_length_iff_exists.2
    exact ⟨(none, s), by simp [h2, hs], by simp [hnone]⟩
  unfold squeezeNone Ten.rename
  simp only
  rw [if_neg, if_neg]
  · rfl
  · rintro ⟨h, -⟩
    have : x.t.unnamed.squeezeAll.ndim = (x.t.shape.filter (· ≠ 1)).length := rfl
    omega
  · intro h
    have hm : none ∈ x.t.names.filter fun n => !((singletonNames x.t.names x.t.shape).contains n) := by rw [h]; simp
    rw [List.mem_filter] at hm
    have : none ∈ singletonNames x.t.names x.t.shape := by
      rw [singletonNames_eq, List.mem_map]
      exact ⟨(none, 1), by simp [h1], rfl⟩
    simp [this] at hm

example : (exT [2, 1, 4, 3] [some "B", none, none, some "L"]).WF ∧
    ((none : Option String), 1) ∈ [some "B", none, none, some "L"].zip [2, 1, 4, 3] ∧
    ((none : Option String), 4) ∈ [some "B", none, none, some "L"].zip [2, 1, 4, 3] := by decide

end DS.Tn
