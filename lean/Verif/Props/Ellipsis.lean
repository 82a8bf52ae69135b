import Verif.Props.Getitem
/-! # C158: several Ellipses in an index -/

namespace DS.Tn
open Meta

variable {α : Type}

/-- torch refuses more entries than axes. -/
theorem torchSels_many (k : Nat) : ∀ (es : List Ix) (dims : List Nat) (r : List Sel), torchSels k dims es = .ok r → specified es ≤ dims.length := by
  intro es
  induction es with
  | nil => intro dims r _; simp [specified]
  | cons e es ih =>
    intro dims r h
    by_cases hn : e = .none
    · subst hn
      rw [torchSels] at h
      obtain ⟨r', h', -⟩ := ok_of_bind h
      have := ih dims r' h'
      simpa [specified] using this
    · by_cases he : e = .ellipsis
      · subst he
        rw [torchSels] at h
        obtain ⟨r', h', -⟩ := ok_of_bind h
        have := ih _ r' h'
        rw [List.length_drop] at this
        have h2 : specified (Ix.ellipsis :: es) = specified es := by simp [specified]
        omega
      · rw [specified_cons_one ⟨hn, he⟩]
        cases dims with
        | nil => cases e <;> first | exact absurd rfl hn | exact absurd rfl he | cases h
        | cons n dims =>
          have key : ∃ s, torchSel n e = .ok s ∧ ∃ r', torchSels k dims es = .ok r' := by
            cases e <;> first
              | exact absurd rfl hn
              | exact absurd rfl he
              | (rw [torchSels] at h
                 · obtain ⟨s, hs, h1⟩ := ok_of_bind h
                   obtain ⟨r', hr, -⟩ := ok_of_bind h1
                   exact ⟨s, hs, r', hr⟩
                 all_goals simp)
          obtain ⟨s, -, r', hr⟩ := key
          have := ih dims r' hr
          simp only [List.length_cons]
          omega

/-- With no axis to stand for, or no axes left, an Ellipsis means nothing. -/
theorem torchSels_idle (k : Nat) (dims : List Nat) (es : List Ix) (h : k = 0 ∨ dims = []) : torchSels k dims (.ellipsis :: es) = torchSels k dims es := by
  rw [torchSels]
  rcases h with rfl | rfl
  · simp only [List.drop_zero, List.take_zero, List.map_nil, List.nil_append]
    cases torchSels 0 dims es <;> rfl
  · simp only [List.drop_nil, List.take_nil, List.map_nil, List.nil_append]
    cases torchSels k [] es <;> rfl

theorem torchSels_idles (k n : Nat) (dims : List Nat) (es : List Ix) (h : k = 0 ∨ dims = []) : torchSels k dims (List.replicate n .ellipsis ++ es) = torchSels k dims es := by
  induction n with
  | zero => rfl
  | succ n ih => rw [List.replicate_succ, List.cons_append, torchSels_idle k dims _ h, ih]

/-- What torch accepts with neighbouring Ellipses it accepts with one of them, and means the same. -/
theorem torchSels_run (k n : Nat) (post : List Ix) : ∀ (pre : List Ix), .ellipsis ∉ pre → ∀ (dims : List Nat) (r : List Sel),
    (dims.length - specified pre = k + specified post ∨ k = 0) → torchSels k dims (pre ++ (.ellipsis :: (List.replicate n .ellipsis ++ post))) = .ok r →
    torchSels k dims (pre ++ (.ellipsis :: post)) = .ok r := by
  intro pre
  induction pre with
  | nil =>
    intro _ dims r hk h
    rw [List.nil_append, torchSels] at h ⊢
    obtain ⟨r', h1, h2⟩ := ok_of_bind h
    have key : torchSels k (dims.drop k) (List.replicate n .ellipsis ++ post) = torchSels k (dims.drop k) post := by
      cases n with
      | zero => rfl
      | succ n =>
        apply torchSels_idles
        rcases hk with hk | hk
        · by_cases k0 : k = 0
          · exact .inl k0
          · right
            rw [List.replicate_succ, List.cons_append, torchSels] at h1
            obtain ⟨r'', h3, -⟩ := ok_of_bind h1
            have h4 := torchSels_many k _ _ _ h3
            have h5 : specified (List.replicate n Ix.ellipsis) = 0 := by
              unfold specified
              rw [List.length_eq_zero_iff, List.filter_eq_nil_iff]
              intro e he
              rw [(List.mem_replicate.1 he).2]; decide
            rw [specified_append, h5, List.length_drop, List.length_drop] at h4
            have h6 : specified ([] : List Ix) = 0 := rfl
            rw [← List.length_eq_zero_iff, List.length_drop]
            omega
        · exact .inl hk
    rw [← key, h1]
    exact h2
  | cons e pre ih =>
    intro hpre dims r hk h
    have hpre' : .ellipsis ∉ pre := fun h => hpre (by simp [h])
    have he : e ≠ .ellipsis := fun h => hpre (by simp [h])
    by_cases hn : e = .none
    · subst hn
      rw [List.cons_append, torchSels] at h ⊢
      obtain ⟨r', h1, h2⟩ := ok_of_bind h
      rw [ih hpre' dims r' (by simpa [specified] using hk) h1]
      exact h2
    · rw [specified_cons_one ⟨hn, he⟩] at hk
      cases dims with
      | nil => cases e <;> first | exact absurd rfl hn | exact absurd rfl he | cases h
      | cons m dims =>
        cases e <;> first
          | exact absurd rfl hn
          | exact absurd rfl he
          | (rw [List.cons_append, torchSels] at h ⊢
             · obtain ⟨s, hs, h1⟩ := ok_of_bind h
               obtain ⟨r', h2, h3⟩ := ok_of_bind h1
               rw [hs, Except.bind_ok', ih hpre' dims r' (by simpa using hk) h2]
               exact h3
             all_goals simp)

/-! ## The loop that collapses neighbours -/

theorem ellipsisAt_none (es : List Ix) (h : .ellipsis ∉ es) (k : Nat) : ellipsisAt k es = [] := by
  induction es generalizing k with
  | nil => rfl
  | cons e es ih =>
    have he : e ≠ .ellipsis := fun h' => h (by simp [h'])
    have := ih (fun h' => h (by simp [h'])) (k + 1)
    cases e <;> first | exact absurd rfl he | exact this

theorem ellipsisAt_run (post : List Ix) (hpost : .ellipsis ∉ post) (n k : Nat) : ellipsisAt k (List.replicate n .ellipsis ++ post) = List.range' k n := by
  induction n generalizing k with
  | zero => exact ellipsisAt_none post hpost k
  | succ n ih => rw [List.replicate_succ, List.cons_append, ellipsisAt, ih, List.range'_succ]

theorem ellipsisAt_pre (pre r : List Ix) (hpre : .ellipsis ∉ pre) (k : Nat) : ellipsisAt k (pre ++ r) = ellipsisAt (k + pre.length) r := by
  induction pre generalizing k with
  | nil => rfl
  | cons e pre ih =>
    have he : e ≠ .ellipsis := fun h' => hpre (by simp [h'])
    have := ih (fun h' => hpre (by simp [h'])) (k + 1)
    rw [List.length_cons, show k + (pre.length + 1) = k + 1 + pre.length by omega, ← this]
    cases e <;> first | exact absurd rfl he | rfl

theorem collapse_run (pre post : List Ix) (N : Nat) : ∀ n, n + 1 ≤ N → collapse (List.range' pre.length N) n (pre ++ (List.replicate (n + 1) .ellipsis ++ post)) = pre ++ (.ellipsis :: post) := by
  intro n
  induction n with
  | zero => intro _; rfl
  | succ n ih =>
    intro hn
    have e1 : (List.range' pre.length N).getD n 0 = pre.length + n := by
      rw [List.getD_eq_getElem?_getD, List.getElem?_range' (by omega)]; simp
    have e2 : (List.range' pre.length N).getD (n + 1) 0 = pre.length + (n + 1) := by
      rw [List.getD_eq_getElem?_getD, List.getElem?_range' (by omega)]; simp
    have e3 : (pre ++ (List.replicate (n + 1 + 1) Ix.ellipsis ++ post)).eraseIdx (pre.length + (n + 1)) = pre ++ (List.replicate (n + 1) .ellipsis ++ post) := by
      rw [List.eraseIdx_append_of_length_le (by omega), show pre.length + (n + 1) - pre.length = n + 1 by omega,
        List.eraseIdx_append_of_lt_length (by simp), List.eraseIdx_replicate]
      simp
    rw [collapse, e1, e2, if_pos (by omega), e3]
    exact ih (by omega)

theorem replaceEllipsis_run (pre post : List Ix) (hpre : .ellipsis ∉ pre) (hpost : .ellipsis ∉ post) (n ndim : Nat) :
    replaceEllipsis (pre ++ (List.replicate (n + 1) .ellipsis ++ post)) ndim = replaceEllipsis (pre ++ .ellipsis :: post) ndim := by
  have hc : (pre ++ (List.replicate (n + 1) Ix.ellipsis ++ post)).count .ellipsis = n + 1 := by
    rw [List.count_append, List.count_append, List.count_replicate_self, List.count_eq_zero_of_not_mem hpre, List.count_eq_zero_of_not_mem hpost]; simp
  have hc1 : (pre ++ Ix.ellipsis :: post).count .ellipsis = 1 := by
    rw [List.count_append, List.count_cons, List.count_eq_zero_of_not_mem hpre, List.count_eq_zero_of_not_mem hpost]; simp
  cases n with
  | zero => rfl
  | succ n =>
    have hp : ellipsisAt 0 (pre ++ (List.replicate (n + 1 + 1) Ix.ellipsis ++ post)) = List.range' pre.length (n + 1 + 1) := by
      rw [ellipsisAt_pre _ _ hpre, ellipsisAt_run post hpost, Nat.zero_add]
    have hm : Ix.ellipsis ∈ pre ++ (List.replicate (n + 1 + 1) Ix.ellipsis ++ post) := by simp
    have hm1 : Ix.ellipsis ∈ pre ++ (Ix.ellipsis :: post) := by simp
    unfold replaceEllipsis
    simp only [hc, hc1, hp, hm, hm1, not_true_eq_false, if_false, show n + 1 + 1 - 1 = n + 1 by omega, collapse_run pre post _ (n + 1) (Nat.le_refl _), gt_iff_lt, Nat.lt_irrefl]
    rw [if_pos (by omega)]

/-! ## C158 -/

/-- **C158 (partial).** Neighbouring Ellipses: where torch accepts them, any number of them next to each other gives what one of them gives (same values, same names, same metadata, same exception).
Missing: Ellipses that are not neighbours, for which the names can be of other axes than the data (`C158_ellipses_false`, `C158_apart_partial`). -/
theorem C158_ellipses_partial (junk : Int) (x : STen α) (hwf : x.t.WF) (pre post : List Ix) (hpre : .ellipsis ∉ pre) (hpost : .ellipsis ∉ post) (n : Nat)
    (ht : ∃ t, torchGetitem x.t.unnamed (.tup (pre ++ (List.replicate (n + 1) .ellipsis ++ post))) = .ok t) :
    getitem junk x (.tup (pre ++ (List.replicate (n + 1) .ellipsis ++ post))) = getitem junk x (.tup (pre ++ .ellipsis :: post)) := by
  have hrep : specified (List.replicate n Ix.ellipsis) = 0 := by
    unfold specified
    rw [List.length_eq_zero_iff, List.filter_eq_nil_iff]
    intro e he
    rw [(List.mem_replicate.1 he).2]; decide
  have h1 : specified [Ix.ellipsis] = 0 := by decide
  have s1 : specified (pre ++ (List.replicate (n + 1) .ellipsis ++ post)) = specified pre + specified post := by
    rw [List.replicate_succ, show pre ++ (Ix.ellipsis :: List.replicate n Ix.ellipsis ++ post) = pre ++ ([Ix.ellipsis] ++ (List.replicate n Ix.ellipsis ++ post)) from rfl,
      specified_append, specified_append, specified_append, hrep, h1]; omega
  have s2 : specified (pre ++ .ellipsis :: post) = specified pre + specified post := by
    rw [show pre ++ (Ix.ellipsis :: post) = pre ++ ([Ix.ellipsis] ++ post) from rfl, specified_append, specified_append, h1]; omega
  obtain ⟨t, ht⟩ := ht
  have htorch : torchGetitem x.t.unnamed (.tup (pre ++ .ellipsis :: post)) = .ok t := by
    unfold torchGetitem at ht ⊢
    dsimp only [Top.entries] at ht ⊢
    rw [s1] at ht
    rw [s2]
    obtain ⟨r, h2, h3⟩ := ok_of_bind ht
    have := torchSels_run _ n post pre hpre _ r (by omega) h2
    rw [this]
    exact h3
  have hadv : ((Top.tup (pre ++ (List.replicate (n + 1) .ellipsis ++ post))).entries.filter Ix.adv).length = ((Top.tup (pre ++ .ellipsis :: post)).entries.filter Ix.adv).length := by
    have : (List.replicate (n + 1) Ix.ellipsis).filter Ix.adv = [] := by
      rw [List.filter_eq_nil_iff]; intro e he; rw [(List.mem_replicate.1 he).2]; decide
    dsimp only [Top.entries]
    rw [List.filter_append, List.filter_append, List.filter_append, this, List.filter_cons]
    simp [Ix.adv]
  have hdesc : describe x.t.names (.tup (pre ++ (List.replicate (n + 1) .ellipsis ++ post))) = describe x.t.names (.tup (pre ++ .ellipsis :: post)) := by
    show describeTuple _ _ = describeTuple _ _
    unfold describeTuple
    rw [replaceEllipsis_run pre post hpre hpost]
  unfold getitem
  rw [ht, htorch, hadv, hdesc]

/-- `x[:, :2, ..., ..., ..., None]`: three neighbours, accepted by torch because nothing that takes an axis follows. -/
example : ∃ x : STen (List Nat), x.Describes 0 2 ∧ (∃ t, torchGetitem x.t.unnamed (.tup ([.slice {}, .slice { stop := some 2 }] ++ (List.replicate (2 + 1) .ellipsis ++ [.none]))) = .ok t) ∧
    ∃ y, getitem 0 x (.tup [.slice {}, .slice { stop := some 2 }, .ellipsis, .ellipsis, .ellipsis, .none]) = .ok y ∧ y.t.shape = [2, 2, 3, 1] ∧ y.t.names = [some "B", some "F", some "L", none] :=
  ⟨_, exBFL_describes, ⟨_, rfl⟩, _, rfl, rfl, rfl⟩

theorem mem_ellipsisAt (es : List Ix) : ∀ (k p : Nat), p ∈ ellipsisAt k es ↔ k ≤ p ∧ es[p - k]? = some .ellipsis := by
  induction es with
  | nil => intro k p; simp [ellipsisAt]
  | cons e es ih =>
    intro k p
    have hstep : (p ∈ ellipsisAt (k + 1) es ↔ k ≤ p ∧ p ≠ k ∧ (e :: es)[p - k]? = some .ellipsis) := by
      rw [ih]
      constructor
      · rintro ⟨h1, h2⟩
        refine ⟨by omega, by omega, ?_⟩
        rw [show p - k = p - (k + 1) + 1 by omega, List.getElem?_cons_succ]; exact h2
      · rintro ⟨h1, h2, h3⟩
        refine ⟨by omega, ?_⟩
        rw [show p - k = p - (k + 1) + 1 by omega, List.getElem?_cons_succ] at h3; exact h3
    by_cases he : e = .ellipsis
    · subst he
      simp only [ellipsisAt, List.mem_cons, hstep]
      constructor
      · rintro (rfl | ⟨h1, -, h3⟩)
        · exact ⟨Nat.le_refl _, by simp⟩
        · exact ⟨h1, h3⟩
      · rintro ⟨h1, h3⟩
        by_cases hp : p = k
        · exact .inl hp
        · exact .inr ⟨h1, hp, h3⟩
    · have : ellipsisAt k (e :: es) = ellipsisAt (k + 1) es := by
        cases e <;> first | rfl | exact absurd rfl he
      rw [this, hstep]
      constructor
      · rintro ⟨h1, -, h3⟩; exact ⟨h1, h3⟩
      · rintro ⟨h1, h3⟩
        refine ⟨h1, ?_, h3⟩
        rintro rfl
        simp at h3
        exact he h3

theorem length_ellipsisAt (es : List Ix) : ∀ k, (ellipsisAt k es).length = es.count .ellipsis := by
  induction es with
  | nil => intro k; rfl
  | cons e es ih =>
    intro k
    by_cases he : e = .ellipsis
    · subst he; simp [ellipsisAt, ih]
    · have : ellipsisAt k (e :: es) = ellipsisAt (k + 1) es := by
        cases e <;> first | rfl | exact absurd rfl he
      rw [this, ih, List.count_cons_of_ne he]

/-- No two Ellipses are neighbours. -/
def Apart (es : List Ix) : Prop := ∀ k : Nat, es[k]? = some .ellipsis → es[k + 1]? ≠ some .ellipsis

theorem collapse_apart {es : List Ix} (h : Apart es) : ∀ n, n + 1 ≤ es.count .ellipsis → collapse (ellipsisAt 0 es) n es = es := by
  intro n
  induction n with
  | zero => intro _; rfl
  | succ n ih =>
    intro hn
    have hl := length_ellipsisAt es 0
    have h1 := (mem_ellipsisAt es 0 _).1 (List.getElem_mem (show n < (ellipsisAt 0 es).length by omega))
    have h2 := (mem_ellipsisAt es 0 _).1 (List.getElem_mem (show n + 1 < (ellipsisAt 0 es).length by omega))
    rw [collapse, if_neg, ih (by omega)]
    rw [List.getD_eq_getElem?_getD, List.getD_eq_getElem?_getD, List.getElem?_eq_getElem (by omega), List.getElem?_eq_getElem (by omega)]
    simp only [Option.getD_some]
    intro he
    refine h _ h1.2 ?_
    rw [Nat.sub_zero, he]
    exact h2.2

/-- Each Ellipsis read as one full slice. -/
def oneEach (es : List Ix) : List Ix := es.map fun e => if e = .ellipsis then .slice {} else e

theorem replaceAt_each (pos : List Nat) (es : List Ix) (hpos : ∀ p ∈ pos, p < es.length) : ∀ n, n ≤ pos.length →
    ∃ r, replaceAt pos n es = .ok r ∧ r.length = es.length ∧ ∀ j : Nat, r[j]? = if j ∈ pos.take n then some (.slice {}) else es[j]? := by
  intro n
  induction n with
  | zero => intro _; exact ⟨es, rfl, rfl, fun j => by simp⟩
  | succ n ih =>
    intro hn
    obtain ⟨r, h1, h2, h3⟩ := ih (by omega)
    have hm := hpos _ (List.getElem_mem (show n < pos.length by omega))
    have hg : pos.getD n 0 = pos[n] := by rw [List.getD_eq_getElem?_getD, List.getElem?_eq_getElem (by omega)]; rfl
    refine ⟨r.set pos[n] (.slice {}), ?_, by simpa using h2, ?_⟩
    · rw [replaceAt, h1, Except.bind_ok', hg, if_pos (by omega)]
    · intro j
      rw [List.take_succ_eq_append_getElem (by omega)]
      simp only [List.mem_append, List.mem_singleton]
      by_cases hj : j = pos[n]
      · subst hj
        rw [List.getElem?_set_self (by omega), if_pos (.inr rfl)]
      · rw [List.getElem?_set_ne (by omega), h3]
        simp only [hj, or_false]

theorem replaceEllipsis_apart {es : List Ix} (h : Apart es) (h2 : 2 ≤ es.count .ellipsis) (ndim : Nat) :
    replaceEllipsis es ndim = if numIndexed es ≠ ndim then .error .indexError else .ok (oneEach es) := by
  have hm : Ix.ellipsis ∈ es := List.count_pos_iff.1 (by omega)
  unfold replaceEllipsis
  simp only [hm, not_true_eq_false, if_false]
  rw [if_pos (by omega), collapse_apart h _ (by omega), if_pos (by omega)]
  obtain ⟨r, h1, h3, h4⟩ := replaceAt_each (ellipsisAt 0 es) es (by
    intro p hp
    have := ((mem_ellipsisAt es 0 p).1 hp).2
    rw [Nat.sub_zero] at this
    exact (List.getElem?_eq_some_iff.1 this).1) (es.count .ellipsis) (by rw [length_ellipsisAt])
  rw [h1]
  congr 2
  apply List.ext_getElem?
  intro j
  rw [h4, List.take_of_length_le (by rw [length_ellipsisAt]), oneEach, List.getElem?_map]
  simp only [mem_ellipsisAt, Nat.zero_le, true_and, Nat.sub_zero]
  cases hj : es[j]? with
  | none => simp
  | some e =>
    simp only [Option.some.injEq, Option.map_some]
    split <;> rfl

/-- What an accepted index gives: torch's data, and names and metadata that depend on the description of the index only. -/
theorem getitem_parts {junk : Int} {x : STen α} {top : Top} {t : Ten α} {y : STen α} (ht : torchGetitem x.t.unnamed top = .ok t) (hy : getitem junk x top = .ok y) :
    ∃ d m, describe x.t.names top = .ok d ∧ (do
      let b ← nameIndex x.t.names BATCH
      let l ← nameIndex x.t.names LENGTH
      if b ∉ d.affected ∧ l ∉ d.affected then .ok x.md else x.md.index2 junk (entryAt d b).toB (entryAt d l).toL : Py Meta) = .ok m ∧ y = ⟨{ t with names := d.names }, m⟩ := by
  unfold getitem at hy
  rw [ht, Except.bind_ok'] at hy
  obtain ⟨d, hd, hy⟩ := ok_of_bind hy
  obtain ⟨b, hb, hy⟩ := ok_of_bind hy
  obtain ⟨l, hl, hy⟩ := ok_of_bind hy
  have href : ∀ {u : Ten α}, t.refine d.names = .ok u → u = { t with names := d.names } := by
    intro u hu
    unfold Ten.refine at hu
    split at hu
    · cases hu; rfl
    · cases hu
  split at hy
  · cases hy
  split at hy
  · rename_i hc
    obtain ⟨u, hu, hy⟩ := ok_of_bind hy
    cases hy
    refine ⟨d, x.md, hd, ?_, by rw [href hu]⟩
    rw [hb, hl]
    simp only [Except.bind_ok']
    rw [if_pos hc]
  · rename_i hc
    obtain ⟨u, hu, hy⟩ := ok_of_bind hy
    obtain ⟨m, hm, hy⟩ := ok_of_bind hy
    cases hy
    refine ⟨d, m, hd, ?_, by rw [href hu]⟩
    rw [hb, hl]
    simp only [Except.bind_ok']
    rw [if_neg hc]
    exact hm

/-- **C158 for Ellipses that are not neighbours (partial).** At least two Ellipses, no two of them neighbours, where torch accepts the index. If they stand for one axis each when the entries are counted
(as many entries other than `None` as axes), the result has torch's data, where the first Ellipsis takes all the axes, under the names and metadata of the index in which each Ellipsis is a full slice;
otherwise IndexError.
Missing: the names and metadata of the axes that torch gives, see `C158_ellipses_false`. -/
theorem C158_apart_partial (junk : Int) (x : STen α) (es : List Ix) (h : Apart es) (h2 : 2 ≤ es.count .ellipsis) (t : Ten α) (ht : torchGetitem x.t.unnamed (.tup es) = .ok t) :
    ((es.filter fun e => decide (e ≠ .none)).length ≠ x.t.names.length → getitem junk x (.tup es) = .error .indexError) ∧
    ((es.filter fun e => decide (e ≠ .none)).length = x.t.names.length → ∀ y z, getitem junk x (.tup es) = .ok y →
      getitem junk x (.tup (es.map fun e => if e = .ellipsis then .slice {} else e)) = .ok z → y.t.shape = t.shape ∧ y.t.val = t.val ∧ y.t.names = z.t.names ∧ y.md = z.md) := by
  have hr := replaceEllipsis_apart h h2 x.t.names.length
  refine ⟨?_, ?_⟩
  · intro hn
    rw [if_pos (by unfold numIndexed; omega)] at hr
    unfold getitem
    rw [ht, Except.bind_ok']
    have : describe x.t.names (.tup es) = .error .indexError := by
      show describeTuple x.t.names es = _
      unfold describeTuple
      rw [hr, Except.bind_error']
    rw [this, Except.bind_error']
  · intro hn y z hy hz
    rw [if_neg (by unfold numIndexed; omega)] at hr
    have hne : Ix.ellipsis ∉ oneEach es := by
      unfold oneEach
      intro hm
      obtain ⟨e, -, he⟩ := List.mem_map.1 hm
      split at he
      · cases he
      · rename_i h; exact h he
    have hd : describe x.t.names (.tup es) = describe x.t.names (.tup (oneEach es)) := by
      show describeTuple x.t.names es = describeTuple x.t.names (oneEach es)
      unfold describeTuple
      rw [hr]
      have : replaceEllipsis (oneEach es) x.t.names.length = .ok (oneEach es) := by
        unfold replaceEllipsis; rw [if_pos hne]
      rw [this]
    obtain ⟨d, m, hd1, hm1, hy1⟩ := getitem_parts ht hy
    have ht' := hz
    unfold getitem at ht'
    obtain ⟨t', ht', -⟩ := ok_of_bind ht'
    obtain ⟨d', m', hd2, hm2, hz1⟩ := getitem_parts ht' hz
    have hdd : d' = d := by
      have : describe x.t.names (.tup (oneEach es)) = .ok d' := hd2
      rw [← hd, hd1] at this
      cases this; rfl
    subst hdd
    have hmm : m' = m := by rw [hm1] at hm2; cases hm2; rfl
    subst hmm
    rw [hy1, hz1]
    exact ⟨rfl, rfl, rfl, rfl⟩

/-- `x[..., 0, ...]` has as many entries as axes; `x[..., None, ...]` has fewer, IndexError. -/
example : Apart [.ellipsis, .int 0, .ellipsis] ∧ ∃ x : STen (List Nat), x.Describes 0 2 ∧ x.t.names.length = 3 ∧
    (∃ t y z, torchGetitem x.t.unnamed (.tup [.ellipsis, .int 0, .ellipsis]) = .ok t ∧ getitem 0 x (.tup [.ellipsis, .int 0, .ellipsis]) = .ok y ∧
      getitem 0 x (.tup [.slice {}, .int 0, .slice {}]) = .ok z ∧ y.t.shape = [2, 4] ∧ z.t.shape = [2, 3] ∧ z.t.names = [some "B", some "L"]) ∧
    (∃ t, torchGetitem x.t.unnamed (.tup [.ellipsis, .none, .ellipsis]) = .ok t) ∧ getitem 0 x (.tup [.ellipsis, .none, .ellipsis]) = .error .indexError := by
  refine ⟨?_, _, exBFL_describes, rfl, ⟨_, _, _, rfl, rfl, rfl, rfl, rfl, rfl⟩, ⟨_, rfl⟩, rfl⟩
  intro k h1 h2
  match k with
  | 0 => simp at h2
  | 1 => simp at h1
  | 2 => simp at h2
  | k + 3 => simp at h1

/-- **C158 is false.** `x[..., 0, ...]` on a (batch, feature, length) tensor: the first Ellipsis takes two axes in torch, so the data are those of `x[:, :, 0]`, one frame of every row, but
`replace_ellipsis` reads the index as `x[:, 0, :]` (overrides.py:309-311): the result is named (batch, length) over an axis of features and keeps the metadata of all frames. -/
theorem C158_ellipses_false : ∃ x : STen (List Nat), x.Describes 0 2 ∧ x.t.names = [some "B", some "F", some "L"] ∧ x.t.shape = [2, 4, 3] ∧
    ∃ y z, getitem 0 x (.tup [.ellipsis, .int 0, .ellipsis]) = .ok y ∧ getitem 0 x (.tup [.slice {}, .slice {}, .int 0]) = .ok z ∧
      y.t.shape = z.t.shape ∧ y.t.val = z.t.val ∧ z.t.names = [some "B", some "F"] ∧ y.t.names = [some "B", some "L"] ∧ y.md = x.md ∧ y.t.shape = [2, 4] ∧ x.md.lengths = [3, 2] :=
  ⟨_, exBFL_describes, rfl, rfl, _, _, rfl, rfl, rfl, rfl, rfl, rfl, rfl, rfl, rfl⟩

/-- **C158 is false**, also by refusing: on a (batch, length) tensor `x[..., ..., None, ...]` is accepted by torch, and so is `x[..., None]`, its other spelling, here; but the first is refused, because
the entries replaced by full slices are looked up at the positions from before collapsing (overrides.py:310-311), which by then are those of other entries. -/
theorem C158_positions_false : ∃ x : STen (List Nat), x.Describes 0 1 ∧ x.t.shape = [2, 3] ∧
    (∃ t, torchGetitem x.t.unnamed (.tup [.ellipsis, .ellipsis, .none, .ellipsis]) = .ok t ∧ t.shape = [2, 3, 1]) ∧
    (∃ y, getitem 0 x (.tup [.ellipsis, .none]) = .ok y ∧ y.t.shape = [2, 3, 1]) ∧
    getitem 0 x (.tup [.ellipsis, .ellipsis, .none, .ellipsis]) = .error .runtimeError :=
  ⟨⟨exBL, exM2⟩, ⟨by decide, rfl, rfl, by decide, rfl, 3, rfl, by decide⟩, rfl, ⟨_, rfl, rfl⟩, ⟨_, rfl, rfl⟩, rfl⟩

end DS.Tn
