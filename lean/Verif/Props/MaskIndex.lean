import Verif.Model.MaskIndex
import Verif.Props.Getitem
import Verif.Props.Flatten
import Verif.Props.Mask2D
/-! # C122–C124: indexing with tensors of two or more axes -/

namespace DS.Tn
open Meta

variable {α : Type}

theorem mem_allIx : ∀ (shape p : List Nat), p ∈ allIx shape ↔ Inside p shape
  | [], p => by
    rw [allIx, List.mem_singleton, Inside]
    constructor
    · rintro rfl; exact .nil
    · intro h; cases h; rfl
  | s :: ss, p => by
    rw [allIx, List.mem_flatMap]
    constructor
    · rintro ⟨i, hi, h⟩
      obtain ⟨r, hr, rfl⟩ := List.mem_map.1 h
      exact .cons (List.mem_range.1 hi) ((mem_allIx ss r).1 hr)
    · intro h
      cases h with
      | cons h1 h2 => exact ⟨_, List.mem_range.2 h1, List.mem_map.2 ⟨_, (mem_allIx ss _).2 h2, rfl⟩⟩

theorem allIx_sorted : ∀ shape : List Nat, (allIx shape).Pairwise (· < ·)
  | [] => List.pairwise_singleton _ _
  | s :: ss => by
    rw [allIx, List.pairwise_flatMap]
    constructor
    · intro i _
      rw [List.pairwise_map]
      exact (allIx_sorted ss).imp fun h => List.Lex.cons h
    · refine (List.pairwise_lt_range).imp ?_
      intro i j hij p hp q hq
      obtain ⟨p', -, rfl⟩ := List.mem_map.1 hp
      obtain ⟨q', -, rfl⟩ := List.mem_map.1 hq
      exact List.Lex.rel hij

/-- The positions of `True`: exactly these, in lexicographic (row-major) order. -/
theorem trueAt_spec (m : Ten Bool) : (trueAt m).Pairwise (· < ·) ∧ ∀ p, p ∈ trueAt m ↔ Inside p m.shape ∧ m.val p = true :=
  ⟨(allIx_sorted m.shape).filter _, fun p => by rw [trueAt, List.mem_filter, mem_allIx]⟩

theorem join_ne {ns : List String} (h : 2 ≤ ns.length) : "_".intercalate ns ≠ "" := by
  match ns, h with
  | a :: b :: r, _ =>
    rw [String.intercalate_cons_of_ne_nil (by simp)]
    intro h
    have := congrArg String.length h
    simp [String.length_append] at this

theorem mShape_full (dims : List Nat) : mShape (dims.map fun n => .one (fullSel n)) = dims := by
  induction dims with
  | nil => rfl
  | cons n ns ih => simp only [List.map_cons, fullSel, mShape] at ih ⊢; rw [ih, List.length_range]

theorem mSrc_full : ∀ (dims ix : List Nat), Inside ix dims → mSrc (dims.map fun n => .one (fullSel n)) ix = ix
  | [], _, h => by cases h; rfl
  | n :: ns, ix, h => by
    cases h with
    | cons h1 h2 =>
      simp only [List.map_cons, fullSel, mSrc, List.headD_cons, List.tail_cons]
      have := mSrc_full ns _ h2
      simp only [fullSel] at this
      rw [this, List.getD_eq_getElem?_getD, List.getElem?_range h1, Option.getD_some]

/-- What torch computes for a bare mask. -/
theorem mGetitem_mask (t : Ten α) (m : Ten Bool) (hs : m.shape = t.shape.take m.ndim) :
    ∃ u, mGetitem t (.bare (.mask m)) = .ok u ∧ u.shape = (trueAt m).length :: t.shape.drop m.ndim ∧ u.names = u.shape.map (fun _ => none) ∧
      ∀ (j : Nat) (p rest : List Nat), (trueAt m)[j]? = some p → Inside rest (t.shape.drop m.ndim) → u.val (j :: rest) = t.val (p ++ rest) := by
  unfold mGetitem
  simp only [MTop.entries, mSels]
  rw [if_pos hs.symm, Except.bind_ok', Except.bind_ok']
  refine ⟨_, rfl, ?_, rfl, ?_⟩
  · simp only [mShape, mShape_full]
  · intro j p rest hj hr
    simp only [mSrc, List.headD_cons, List.tail_cons, List.getD_eq_getElem?_getD, hj, Option.getD_some, mSrc_full _ _ hr]

theorem anyBut_length (m : Ten Bool) (a : Nat) : (anyBut m a).length = m.shape.getD a 0 := by simp [anyBut]

theorem anyBut_get (m : Ten Bool) (a j : Nat) : (anyBut m a)[j]? = some true ↔ j < m.shape.getD a 0 ∧ ∃ p, Inside p m.shape ∧ m.val p = true ∧ p.getD a 0 = j := by
  unfold anyBut
  rw [List.getElem?_map]
  by_cases h : j < m.shape.getD a 0
  · rw [List.getElem?_range h]
    simp only [Option.map_some, Option.some.injEq, List.any_eq_true, decide_eq_true_eq, (trueAt_spec m).2, and_assoc, h, true_and]
  · rw [List.getElem?_eq_none (by simpa using h)]
    constructor
    · intro h'; simp at h'
    · rintro ⟨h', -⟩; exact absurd h' h

theorem shape_take {m : Ten Bool} {t : Ten α} (hs : m.shape = t.shape.take m.ndim) {a : Nat} (ha : a < m.ndim) : m.shape.getD a 0 = t.shape.getD a 0 := by
  rw [List.getD_eq_getElem?_getD, List.getD_eq_getElem?_getD, hs, List.getElem?_take, if_pos ha]

theorem joined_ok {x : STen α} (hx : x.t.WF) {k : Nat} {ns : List String} (hns : x.t.names.take k = ns.map some) (h2 : 2 ≤ ns.length)
    (hnew : some ("_".intercalate ns) ∉ x.t.names.drop k) :
    ((some ("_".intercalate ns) :: x.t.names.drop k).filterMap id).Nodup ∧ some "" ∉ some ("_".intercalate ns) :: x.t.names.drop k := by
  obtain ⟨k1, k2⟩ := okNames_sub (List.drop_sublist k x.t.names) hx.2
  refine ⟨?_, ?_⟩
  · rw [List.filterMap_cons]
    simp only [id]
    rw [List.nodup_cons]
    refine ⟨fun hm => hnew ?_, k1⟩
    simpa using hm
  · intro hm
    rcases List.mem_cons.1 hm with h | h
    · exact join_ne h2 (Option.some.inj h).symm
    · exact k2 h

/-- **C122.** `x[mask]` with a mask over the first two or more axes, all of them named: the merged axis holds the entries where the mask is `True`, in row-major order, under the joined names; the remaining axes stay.
If the mask covers batch but not length, the metadata are those of the sequences with a `True`; if it covers length but not batch, the metadata are indexed along length by the frames with a `True`; if it covers neither, they stay;
if it covers both, the result is a plain tensor. -/
theorem C122_mask (junk : Int) (x : STen α) (b l : Nat) (hx : x.Describes b l) (m : Ten Bool) (hk : 2 ≤ m.ndim) (hs : m.shape = x.t.shape.take m.ndim)
    (ns : List String) (hns : x.t.names.take m.ndim = ns.map some) (hnew : some ("_".intercalate ns) ∉ x.t.names.drop m.ndim) :
    ∃ (u : Ten α) (ps : List (List Nat)),
      ps.Pairwise (· < ·) ∧ (∀ p, p ∈ ps ↔ Inside p m.shape ∧ m.val p = true) ∧
      u.names = some ("_".intercalate ns) :: x.t.names.drop m.ndim ∧ u.shape = ps.length :: x.t.shape.drop m.ndim ∧
      (∀ (j : Nat) (p rest : List Nat), ps[j]? = some p → Inside rest (x.t.shape.drop m.ndim) → u.val (j :: rest) = x.t.val (p ++ rest)) ∧
      (b < m.ndim → l < m.ndim → getitemM junk x (.bare (.mask m)) = .ok (.plain u.unnamed)) ∧
      (m.ndim ≤ b → m.ndim ≤ l → getitemM junk x (.bare (.mask m)) = .ok (.stream ⟨u, x.md⟩)) ∧
      (b < m.ndim → m.ndim ≤ l → ∃ md sel, getitemM junk x (.bare (.mask m)) = .ok (.stream ⟨u, md⟩) ∧ x.md.Selects sel md ∧ sel.Pairwise (· < ·) ∧
        ∀ i, i ∈ sel ↔ ∃ p ∈ ps, p.getD b 0 = i) ∧
      (m.ndim ≤ b → l < m.ndim → ∃ fs : List Bool, fs.length = x.t.shape.getD l 0 ∧ (∀ j, fs[j]? = some true ↔ ∃ p ∈ ps, p.getD l 0 = j) ∧
        getitemM junk x (.bare (.mask m)) = (x.md.indexLength junk (.mask fs)).map fun md => .stream ⟨u, md⟩) := by
  have hlen : x.t.names.length = x.t.ndim := hx.wf.1
  have hkn : m.ndim ≤ x.t.ndim := by
    have := congrArg List.length hs
    rw [List.length_take] at this
    have h2 : m.shape.length = m.ndim := rfl
    have h3 : x.t.shape.length = x.t.ndim := rfl
    omega
  have h2 : 2 ≤ ns.length := by
    have := congrArg List.length hns
    rw [List.length_take, List.length_map] at this
    omega
  obtain ⟨u, hu, hsh, hnm, hval⟩ := mGetitem_mask x.t.unnamed m hs
  have hB := nameIndex_of hx.wf.2.1 hx.batch
  have hL := nameIndex_of hx.wf.2.1 hx.length
  change nameIndex _ BATCH = _ at hB
  change nameIndex _ LENGTH = _ at hL
  have hdesc : mDescribe x.t.names (.bare (.mask m)) = .ok ⟨[.multi (.mask m)], [List.range' 0 m.ndim], some ("_".intercalate ns) :: x.t.names.drop m.ndim, false⟩ := by
    unfold mDescribe
    simp only [hns]
    rw [joinNames, mapM_some]
    rfl
  have hrefine : u.refine (some ("_".intercalate ns) :: x.t.names.drop m.ndim) = .ok { u with names := some ("_".intercalate ns) :: x.t.names.drop m.ndim } := by
    apply refine_ok
    · show _ = u.shape.length
      rw [hsh]
      simp only [List.length_cons, List.length_drop, Ten.unnamed]
      have h3 : x.t.shape.length = x.t.ndim := rfl
      omega
    · exact joined_ok hx.wf hns h2 hnew
  have hmem : ∀ a, a ∈ List.range' 0 m.ndim ↔ a < m.ndim := by intro a; rw [List.mem_range']; constructor
                                                               · rintro ⟨i, h, rfl⟩; omega
                                                               · intro h; exact ⟨a, h, by omega⟩
  have hgo : getitemM junk x (.bare (.mask m)) = (if ¬ b < m.ndim ∧ ¬ l < m.ndim then .ok (.stream ⟨{ u with names := some ("_".intercalate ns) :: x.t.names.drop m.ndim }, x.md⟩)
      else if b < m.ndim ∧ l < m.ndim then .ok (.plain u)
      else (x.md.index2 junk (if b < m.ndim then .mask (anyBut m b) else .none) (if l < m.ndim then .mask (anyBut m l) else .none)).map
        fun md => .stream ⟨{ u with names := some ("_".intercalate ns) :: x.t.names.drop m.ndim }, md⟩) := by
    unfold getitemM
    rw [hu, Except.bind_ok', hdesc, Except.bind_ok', hB, Except.bind_ok', hL, Except.bind_ok']
    simp only [List.flatten_cons, List.flatten_nil, List.append_nil, hmem, findMask, hrefine, Except.bind_ok', Nat.sub_zero]
    split
    · rfl
    · split
      · rfl
      · have e1 : (if b < m.ndim then BIx.mask (anyBut m b) else (mEntryAt ⟨[.multi (.mask m)], [List.range' 0 m.ndim], some ("_".intercalate ns) :: x.t.names.drop m.ndim, false⟩ b).toB) =
            if b < m.ndim then BIx.mask (anyBut m b) else .none := by
          by_cases h : b < m.ndim
          · rw [if_pos h, if_pos h]
          · rw [if_neg h, if_neg h]
            unfold mEntryAt
            rw [if_neg (by simpa [hmem] using h)]
            rfl
        have e2 : (if l < m.ndim then LIx.mask (anyBut m l) else (mEntryAt ⟨[.multi (.mask m)], [List.range' 0 m.ndim], some ("_".intercalate ns) :: x.t.names.drop m.ndim, false⟩ l).toL) =
            if l < m.ndim then LIx.mask (anyBut m l) else .none := by
          by_cases h : l < m.ndim
          · rw [if_pos h, if_pos h]
          · rw [if_neg h, if_neg h]
            unfold mEntryAt
            rw [if_neg (by simpa [hmem] using h)]
            rfl
        rw [e1, e2]
        cases x.md.index2 junk (if b < m.ndim then .mask (anyBut m b) else .none) (if l < m.ndim then .mask (anyBut m l) else .none) <;> rfl
  obtain ⟨hp1, hp2⟩ := trueAt_spec m
  refine ⟨{ u with names := some ("_".intercalate ns) :: x.t.names.drop m.ndim }, trueAt m, hp1, hp2, rfl, hsh, hval, ?_, ?_, ?_, ?_⟩
  · intro hb hl
    rw [hgo, if_neg (by omega), if_pos ⟨hb, hl⟩]
    show _ = Except.ok (Opd.plain { u with names := u.shape.map fun _ => none })
    rw [← hnm]
  · intro hb hl
    rw [hgo, if_pos (by omega)]
  · intro hb hl
    rw [hgo, if_neg (by omega), if_neg (by omega), if_pos hb, if_neg (by omega)]
    have hrows : m.shape.getD b 0 = x.md.ids.length := by
      rw [shape_take hs hb, List.getD_eq_getElem?_getD, hx.rows]; rfl
    obtain ⟨md, e1, hsel⟩ := C01_index_batch x.md hx.mdwf (.mask (anyBut m b)) (.ok (truePos (anyBut m b))) (by
      simp only [batchSel, anyBut_length, hrows, if_true])
    refine ⟨md, truePos (anyBut m b), ?_, hsel, truePos_sorted _, ?_⟩
    · show Except.map _ (do let m' ← x.md.indexBatch (.mask (anyBut m b)); m'.indexLength junk .none) = _
      rw [e1, Except.bind_ok']
      rfl
    · intro i
      rw [mem_truePos, anyBut_get]
      constructor
      · rintro ⟨-, p, h1, h2, h3⟩
        exact ⟨p, (hp2 p).2 ⟨h1, h2⟩, h3⟩
      · rintro ⟨p, h1, h3⟩
        obtain ⟨h4, h5⟩ := (hp2 p).1 h1
        refine ⟨?_, p, h4, h5, h3⟩
        rw [← h3]
        exact inside_lt h4 hb
  · intro hb hl
    refine ⟨anyBut m l, by rw [anyBut_length, shape_take hs hl], ?_, ?_⟩
    · intro j
      rw [anyBut_get]
      constructor
      · rintro ⟨-, p, h1, h2, h3⟩
        exact ⟨p, (hp2 p).2 ⟨h1, h2⟩, h3⟩
      · rintro ⟨p, h1, h3⟩
        obtain ⟨h4, h5⟩ := (hp2 p).1 h1
        refine ⟨?_, p, h4, h5, h3⟩
        rw [← h3]
        exact inside_lt h4 hl
    · rw [hgo, if_neg (by omega), if_neg (by omega), if_neg (by omega), if_pos hl]
      rfl
where
  /-- coordinates are within the sizes -/
  inside_lt {p s : List Nat} (h : Inside p s) {a : Nat} (ha : a < s.length) : p.getD a 0 < s.getD a 0 := by
    induction h generalizing a with
    | nil => simp at ha
    | cons h1 _ ih =>
      cases a with
      | zero => simpa using h1
      | succ a => simpa using ih (by simpa using ha)

/-! ## An index tensor at the end of a tuple -/

/-- torch on entries that index one axis each, followed by other entries. -/
theorem mSels_one (K : Nat) (es : List Ix) (hes : ∀ e ∈ es, e.OneAxis) (r : List Ent) (dims : List Nat) (names : List (Option String)) (hlen : names.length = dims.length)
    (ms : List MSel) (h : mSels K dims (es.map .one ++ r) = .ok ms) :
    es.length ≤ dims.length ∧ ∃ ss rest, ms = ss ++ rest ∧ mSels K (dims.drop es.length) r = .ok rest ∧
      (mShape ms).length = (keptNames 0 (names.take es.length) es).length + (mShape rest).length := by
  induction es generalizing dims names ms with
  | nil => exact ⟨by simp, [], ms, rfl, h, by simp [keptNames]⟩
  | cons e es ih =>
    have h1 := hes e (by simp)
    have hes' : ∀ e ∈ es, e.OneAxis := fun e he => hes e (by simp [he])
    cases dims with
    | nil =>
      exfalso
      cases e <;> first | exact absurd rfl h1.1 | exact absurd rfl h1.2 | (rw [List.map_cons, List.cons_append] at h; simp [mSels] at h)
    | cons n ds =>
      have hstep : mSels K (n :: ds) (.one e :: (es.map .one ++ r)) = (do
          let s ← torchSel n e
          let rest ← mSels K ds (es.map .one ++ r)
          .ok (.one s :: rest)) := by
        cases e <;> first | exact absurd rfl h1.1 | exact absurd rfl h1.2 | (rw [mSels] <;> simp)
      rw [List.map_cons, List.cons_append, hstep] at h
      obtain ⟨s, hs, h⟩ := ok_of_bind h
      obtain ⟨rs, hr, h⟩ := ok_of_bind h
      obtain rfl := Except.ok.inj h
      cases names with
      | nil => simp at hlen
      | cons nm names =>
        obtain ⟨i1, ss, rest, rfl, i2, i3⟩ := ih hes' ds names (by simpa using hlen) rs hr
        refine ⟨by simpa using i1, .one s :: ss, rest, rfl, by simpa using i2, ?_⟩
        rw [List.length_cons, List.take_succ_cons, keptNames]
        cases e with
        | none => exact absurd rfl h1.1
        | ellipsis => exact absurd rfl h1.2
        | int i =>
          obtain ⟨p, -, hs⟩ := ok_of_bind hs
          obtain rfl := Except.ok.inj hs
          rw [mShape, if_pos (by rfl), i3]
        | slice sl =>
          simp only [torchSel] at hs
          split at hs
          · simp at hs
          · obtain ⟨p, -, hs⟩ := ok_of_bind hs
            obtain rfl := Except.ok.inj hs
            rw [mShape, if_neg (by simp [Ix.drops]), List.length_cons, List.length_cons, i3]; omega
        | list is =>
          obtain ⟨p, -, hs⟩ := ok_of_bind hs
          obtain rfl := Except.ok.inj hs
          rw [mShape, if_neg (by simp [Ix.drops]), List.length_cons, List.length_cons, i3]; omega
        | ints is =>
          obtain ⟨p, -, hs⟩ := ok_of_bind hs
          obtain rfl := Except.ok.inj hs
          rw [mShape, if_neg (by simp [Ix.drops]), List.length_cons, List.length_cons, i3]; omega
        | mask bs =>
          simp only [torchSel] at hs
          split at hs
          · obtain rfl := Except.ok.inj hs
            rw [mShape, if_neg (by simp [Ix.drops]), List.length_cons, List.length_cons, i3]; omega
          · simp at hs

/-- The code's description of such a tuple. -/
theorem mDescribe_one (names : List (Option String)) (es : List Ix) (r : List Ent) (i : Nat) (aff : List Nat) (nm : List (Option String))
    (h : describeEntries names i es = .ok (aff, nm)) :
    ∃ gs, gs.flatten = aff ∧ gs.length = es.length ∧ mDescribeEntries names i (es.map .one ++ r) =
      (mDescribeEntries names (i + es.length) r).map fun d => (gs ++ d.1, nm ++ d.2) := by
  induction es generalizing i aff nm with
  | nil =>
    rw [describeEntries] at h
    obtain ⟨rfl, rfl⟩ := Prod.mk.inj (Except.ok.inj h)
    refine ⟨[], rfl, rfl, ?_⟩
    rw [List.map_nil, List.nil_append, List.length_nil, Nat.add_zero]
    cases mDescribeEntries names i r <;> rfl
  | cons e es ih =>
    rw [describeEntries] at h
    obtain ⟨d, hd, h⟩ := ok_of_bind h
    obtain ⟨rest, hr, h⟩ := ok_of_bind h
    obtain ⟨rfl, rfl⟩ := Prod.mk.inj (Except.ok.inj h)
    obtain ⟨gs, h1, h2, h3⟩ := ih (i + 1) rest.1 rest.2 hr
    refine ⟨d.1 :: gs, by simp [h1], by simp [h2], ?_⟩
    have hi : i + 1 + es.length = i + (e :: es).length := by simp; omega
    rw [List.map_cons, List.cons_append, mDescribeEntries, mDescribeEntry, hd, Except.bind_ok', h3, hi]
    cases mDescribeEntries names (i + (e :: es).length) r with
    | error e => rfl
    | ok v =>
      rw [map_ok', Except.bind_ok', map_ok']
      simp

theorem findMask_one (es : List Ix) (gs : List (List Nat)) (hl : gs.length = es.length) (i : Nat) (m : Multi) (d : List Nat) :
    findMask i (es.map .one ++ [.multi m]) (gs ++ [d]) = (match m with | .mask m => some (i + es.length, d, m) | .ints _ => none) := by
  induction es generalizing i gs with
  | nil =>
    obtain rfl := List.length_eq_zero_iff.1 hl
    cases m <;> rfl
  | cons e es ih =>
    cases gs with
    | nil => simp at hl
    | cons g gs =>
      rw [List.map_cons, List.cons_append, List.cons_append, findMask, ih gs (by simpa using hl)]
      · cases m with
        | mask m => simp only [List.length_cons]; congr 2; omega
        | ints m => rfl
      · intro m'; simp

theorem mNumIndexed_one (es : List Ix) (hes : ∀ e ∈ es, e.OneAxis) (m : Multi) : mNumIndexed (es.map .one ++ [.multi m]) = es.length + 1 := by
  induction es with
  | nil => rfl
  | cons e es ih =>
    have h1 := hes e (by simp)
    rw [List.map_cons, List.cons_append, List.length_cons]
    have := ih fun e he => hes e (by simp [he])
    cases e <;> first | exact absurd rfl h1.1 | (rw [mNumIndexed, this]; omega; simp)

theorem noEllipsis_one (es : List Ix) (hes : ∀ e ∈ es, e.OneAxis) (m : Multi) (n : Nat) : mReplaceEllipsis (es.map .one ++ [.multi m]) n = es.map .one ++ [.multi m] := by
  unfold mReplaceEllipsis
  rw [if_neg]
  rw [List.any_eq_true]
  rintro ⟨e, he, h⟩
  rcases List.mem_append.1 he with he | he
  · obtain ⟨e', he', rfl⟩ := List.mem_map.1 he
    have h1 := hes e' he'
    cases e' <;> first | exact absurd rfl h1.2 | simp [Ent.isEllipsis] at h
  · rw [List.mem_singleton] at he; subst he; simp [Ent.isEllipsis] at h

theorem keptNames_take (names : List (Option String)) (es : List Ix) (h : es.length ≤ names.length) :
    keptNames 0 names es = keptNames 0 (names.take es.length) es ++ names.drop es.length := by
  induction es generalizing names with
  | nil => simp [keptNames]
  | cons e es ih =>
    cases names with
    | nil => simp at h
    | cons n ns =>
      rw [List.length_cons, List.take_succ_cons, List.drop_succ_cons, keptNames, keptNames, ih ns (by simpa using h)]
      split <;> simp

/-- The entry that the metadata see at axis `a`, if the axis is among the first ones. -/
theorem mEntryAt_one (es : List Ix) (aff : List Nat) (gs : List (List Nat)) (nm : List (Option String)) (m : Multi) (d : List Nat) (hgs : gs.flatten = aff)
    (haff : ∀ a, a ∈ aff ↔ ∃ e, es[a]? = some e ∧ e ≠ .slice {}) (a : Nat) (ha : a ∉ d) :
    mEntryAt ⟨es.map .one ++ [.multi m], gs ++ [d], nm, true⟩ a = .one (mdEntry (axisEntry es a)) := by
  unfold mEntryAt mdEntry axisEntry
  simp only [List.flatten_append, List.flatten_cons, List.flatten_nil, List.append_nil, List.mem_append, hgs, ha, or_false, haff, if_true]
  have hg : es.getD a (.slice {}) = (es[a]?).getD (.slice {}) := List.getD_eq_getElem?_getD
  rw [hg]
  by_cases h : a < es.length
  · rw [List.getElem?_eq_getElem h, Option.getD_some]
    by_cases he : es[a] = .slice {}
    · rw [if_pos he, if_neg]; rintro ⟨e, h1, h2⟩; exact h2 ((Option.some.inj h1).symm.trans he)
    · rw [if_neg he, if_pos ⟨_, rfl, he⟩, List.getD_eq_getElem?_getD, List.getElem?_append_left (by simpa using h), List.getElem?_map, List.getElem?_eq_getElem h]; rfl
  · rw [List.getElem?_eq_none (by omega)]
    simp

/-- An int or a slice. -/
def Ix.Basic : Ix → Prop
  | .int _ => True
  | .slice _ => True
  | _ => False

theorem Ix.Basic.one {e : Ix} (h : e.Basic) : e.OneAxis := by
  cases e <;> simp [Ix.Basic, Ix.OneAxis] at h ⊢

/-- **C123, what holds.** A tuple of ints and slices that ends with a mask over two or more axes, as far as torch accepts it (`t'` is torch's result): the axes under the mask become one axis with the joined names, the other names
are those of the axes not indexed by an int; if the mask covers both batch and length the result is plain, otherwise the metadata are indexed by the entries at the batch and length axes, or by the sequences or frames with a `True`
if the mask covers that axis. Missing: entries after the mask, Ellipsis or `None` before it (`C123_mask_in_tuple_false`). -/
theorem C123_mask_in_tuple_partial (junk : Int) (x : STen α) (b l : Nat) (hx : x.Describes b l) (es : List Ix) (hbas : ∀ e ∈ es, e.Basic) (m : Ten Bool) (hk : 2 ≤ m.ndim)
    (t' : Ten α) (ht : mGetitem x.t.unnamed (.tup (es.map .one ++ [.multi (.mask m)])) = .ok t') (ns : List String)
    (hns : (x.t.names.drop es.length).take m.ndim = ns.map some)
    (hnew : some ("_".intercalate ns) ∉ keptNames 0 (x.t.names.take es.length) es ++ x.t.names.drop (es.length + m.ndim)) :
    let names := keptNames 0 (x.t.names.take es.length) es ++ some ("_".intercalate ns) :: x.t.names.drop (es.length + m.ndim)
    let covers := fun a => es.length ≤ a ∧ a < es.length + m.ndim
    (covers b → covers l → getitemM junk x (.tup (es.map .one ++ [.multi (.mask m)])) = .ok (.plain t')) ∧
    (¬(covers b ∧ covers l) → ∃ (bi : BIx) (li : LIx),
      getitemM junk x (.tup (es.map .one ++ [.multi (.mask m)])) = (x.md.index2 junk bi li).map (fun md => .stream ⟨{ t' with names := names }, md⟩) ∧
      (¬covers b → bi = (mdEntry (axisEntry es b)).toB) ∧ (¬covers l → li = (mdEntry (axisEntry es l)).toL) ∧
      (covers b → ∃ bs, bi = .mask bs ∧ bs.length = x.md.ids.length ∧ ∀ i, bs[i]? = some true ↔ ∃ p, Inside p m.shape ∧ m.val p = true ∧ p.getD (b - es.length) 0 = i) ∧
      (covers l → ∃ fs, li = .mask fs ∧ fs.length = x.t.shape.getD l 0 ∧ ∀ j, fs[j]? = some true ↔ ∃ p, Inside p m.shape ∧ m.val p = true ∧ p.getD (l - es.length) 0 = j)) := by
  intro names covers
  have hes : ∀ e ∈ es, e.OneAxis := fun e he => (hbas e he).one
  have hlen : x.t.names.length = x.t.ndim := hx.wf.1
  have hlen' : x.t.names.length = x.t.shape.length := hx.wf.1
  obtain ⟨sels, hsels, ht2⟩ := ok_of_bind ht
  simp only [MTop.entries] at hsels
  obtain ⟨hle, ss, rest, -, hrest, hshape⟩ := mSels_one _ es hes [.multi (.mask m)] x.t.unnamed.shape x.t.names hlen sels hsels
  have hle : es.length ≤ x.t.shape.length := hle
  have hrest : mSels _ (x.t.shape.drop es.length) [.multi (.mask m)] = .ok rest := hrest
  simp only [mSels] at hrest
  by_cases hs : (x.t.shape.drop es.length).take m.ndim = m.shape
  swap
  · rw [if_neg hs] at hrest; simp at hrest
  rw [if_pos hs, Except.bind_ok'] at hrest
  obtain rfl := Except.ok.inj hrest
  have hkn : es.length + m.ndim ≤ x.t.shape.length := by
    have := congrArg List.length hs
    rw [List.length_take, List.length_drop] at this
    have h2 : m.shape.length = m.ndim := rfl
    omega
  have h2 : 2 ≤ ns.length := by
    have := congrArg List.length hns
    rw [List.length_take, List.length_drop, List.length_map] at this
    omega
  simp only [mShape, mShape_full, List.length_cons, List.length_drop] at hshape
  have ht' : t'.shape = mShape sels := by rw [← Except.ok.inj ht2]
  obtain ⟨aff, nm, hd, haff, hnames⟩ := describe_entries x.t.names 0 es hes 0 (by omega)
  simp only [List.replicate_zero, List.append_nil, List.drop_zero, Nat.zero_add, Nat.zero_le, true_and, Nat.sub_zero] at hd haff hnames
  have hnm : nm = keptNames 0 (x.t.names.take es.length) es := by
    rw [keptNames_take _ _ (by omega)] at hnames
    exact (List.append_cancel_right hnames).symm
  obtain ⟨gs, hg1, hg2, hg3⟩ := mDescribe_one x.t.names es [.multi (.mask m)] 0 aff nm hd
  have hdesc : mDescribe x.t.names (.tup (es.map .one ++ [.multi (.mask m)])) =
      .ok ⟨es.map .one ++ [.multi (.mask m)], gs ++ [List.range' es.length m.ndim], names, true⟩ := by
    unfold mDescribe
    simp only [noEllipsis_one es hes]
    rw [hg3]
    simp only [Nat.zero_add, mDescribeEntries, mDescribeEntry, hns, joinNames, mapM_some, Except.bind_ok', map_ok', List.append_nil]
    rw [if_neg (by simp), mNumIndexed_one es hes]
    have hlast : lastSurplus (es.map .one ++ [.multi (.mask m)]) = m.ndim - 1 := by
      unfold lastSurplus
      rw [List.getLast?_append]
      simp
    rw [hlast]
    congr 2
    rw [hnm]
    show _ = keptNames 0 (x.t.names.take es.length) es ++ some ("_".intercalate ns) :: x.t.names.drop (es.length + m.ndim)
    split
    · rename_i hm
      rw [List.append_assoc, List.singleton_append]
      congr 3
      omega
    · rename_i hm
      rw [List.drop_eq_nil_of_le (by omega)]
  have hB := nameIndex_of hx.wf.2.1 hx.batch
  have hL := nameIndex_of hx.wf.2.1 hx.length
  change nameIndex _ BATCH = _ at hB
  change nameIndex _ LENGTH = _ at hL
  have hrefine : t'.refine names = .ok { t' with names := names } := by
    apply refine_ok
    · show names.length = t'.shape.length
      rw [ht', hshape]
      simp only [names, List.length_append, List.length_cons, List.length_drop]
      omega
    · have hsub : (keptNames 0 (x.t.names.take es.length) es ++ x.t.names.drop (es.length + m.ndim)).filterMap id |>.Sublist (x.t.names.filterMap id) := by
        rw [List.filterMap_append]
        conv_rhs => rw [← List.take_append_drop es.length x.t.names, List.filterMap_append]
        exact List.Sublist.append (keptNames_sub 0 _ es).1 ((List.drop_sublist_drop_left _ (by omega)).filterMap _)
      have hemp : some "" ∉ keptNames 0 (x.t.names.take es.length) es ++ x.t.names.drop (es.length + m.ndim) := by
        intro h
        rcases List.mem_append.1 h with h | h
        · exact hx.wf.2.2 (List.mem_of_mem_take ((keptNames_sub 0 _ es).2 h))
        · exact hx.wf.2.2 (List.mem_of_mem_drop h)
      have hp : names.Perm (some ("_".intercalate ns) :: (keptNames 0 (x.t.names.take es.length) es ++ x.t.names.drop (es.length + m.ndim))) := List.perm_middle
      refine okNames_perm hp ⟨?_, ?_⟩
      · rw [List.filterMap_cons]
        simp only [id]
        rw [List.nodup_cons]
        refine ⟨fun hm => hnew ?_, hsub.nodup hx.wf.2.1⟩
        obtain ⟨o, ho, ho'⟩ := List.mem_filterMap.1 hm
        rw [← ho']
        exact ho
      · intro hm
        rcases List.mem_cons.1 hm with h | h
        · exact join_ne h2 (Option.some.inj h).symm
        · exact hemp h
  have hmem : ∀ a, a ∈ List.range' es.length m.ndim ↔ covers a := by
    intro a
    rw [List.mem_range'_1]
  have hentry := fun a (ha : ¬covers a) => mEntryAt_one es aff gs names (.mask m) (List.range' es.length m.ndim) hg1 haff a (by rw [hmem]; exact ha)
  have hnone : ∀ a, ¬covers a → a ∉ aff → mdEntry (axisEntry es a) = .none := by
    intro a hc ha
    have h := hentry a hc
    unfold mEntryAt at h
    rw [if_neg (by simp only [List.flatten_append, List.flatten_cons, List.flatten_nil, List.append_nil, List.mem_append, hg1, hmem]; simp [ha, hc])] at h
    exact (Ent.one.inj h).symm
  have hgo : getitemM junk x (.tup (es.map .one ++ [.multi (.mask m)])) =
      (if covers b ∧ covers l then .ok (.plain t')
      else (x.md.index2 junk (if covers b then .mask (anyBut m (b - es.length)) else (mdEntry (axisEntry es b)).toB) (if covers l then .mask (anyBut m (l - es.length)) else (mdEntry (axisEntry es l)).toL)).map
        fun md => .stream ⟨{ t' with names := names }, md⟩) := by
    unfold getitemM
    rw [ht, Except.bind_ok', hdesc, Except.bind_ok', hB, Except.bind_ok', hL, Except.bind_ok', findMask_one es gs hg2]
    simp only [List.flatten_append, List.flatten_cons, List.flatten_nil, List.append_nil, List.mem_append, hmem, hg1, hrefine, Except.bind_ok', Nat.zero_add]
    split
    · rename_i h
      rw [not_or, not_or] at h
      rw [if_neg (fun h' => h.1.2 h'.1), if_neg h.1.2, if_neg h.2.2, hnone b h.1.2 h.1.1, hnone l h.2.2 h.2.1]
      obtain ⟨m1, e1, hs⟩ := C01_index_batch x.md hx.mdwf .none (.ok (List.range x.md.ids.length)) rfl
      rw [selects_range hx.mdwf hs] at e1
      show _ = Except.map _ (do let m' ← x.md.indexBatch .none; m'.indexLength junk .none)
      rw [e1]
      rfl
    · split
      · rfl
      · have e1 : (if covers b then BIx.mask (anyBut m (b - es.length)) else (mEntryAt ⟨es.map .one ++ [.multi (.mask m)], gs ++ [List.range' es.length m.ndim], names, true⟩ b).toB) =
            if covers b then BIx.mask (anyBut m (b - es.length)) else (mdEntry (axisEntry es b)).toB := by
          by_cases h : covers b
          · rw [if_pos h, if_pos h]
          · rw [if_neg h, if_neg h, hentry b h]; rfl
        have e2 : (if covers l then LIx.mask (anyBut m (l - es.length)) else (mEntryAt ⟨es.map .one ++ [.multi (.mask m)], gs ++ [List.range' es.length m.ndim], names, true⟩ l).toL) =
            if covers l then LIx.mask (anyBut m (l - es.length)) else (mdEntry (axisEntry es l)).toL := by
          by_cases h : covers l
          · rw [if_pos h, if_pos h]
          · rw [if_neg h, if_neg h, hentry l h]; rfl
        rw [e1, e2]
        cases x.md.index2 junk (if covers b then .mask (anyBut m (b - es.length)) else (mdEntry (axisEntry es b)).toB) (if covers l then .mask (anyBut m (l - es.length)) else (mdEntry (axisEntry es l)).toL) <;> rfl
  have hsz : ∀ a, covers a → m.shape.getD (a - es.length) 0 = x.t.shape.getD a 0 := by
    intro a ha
    rw [List.getD_eq_getElem?_getD, List.getD_eq_getElem?_getD, ← hs, List.getElem?_take, if_pos (by omega), List.getElem?_drop]
    congr 2
    omega
  have hany : ∀ a, covers a → ∀ i : Nat, (anyBut m (a - es.length))[i]? = some true ↔ ∃ p, Inside p m.shape ∧ m.val p = true ∧ p.getD (a - es.length) 0 = i := by
    intro a ha i
    rw [anyBut_get]
    constructor
    · rintro ⟨-, h⟩; exact h
    · rintro ⟨p, h1, h2, h3⟩
      refine ⟨?_, p, h1, h2, h3⟩
      rw [← h3]
      exact C122_mask.inside_lt h1 (show a - es.length < m.ndim by omega)
  constructor
  · intro hb hl
    rw [hgo, if_pos ⟨hb, hl⟩]
  · intro hn
    refine ⟨_, _, by rw [hgo, if_neg hn], fun h => by rw [if_neg h], fun h => by rw [if_neg h], fun h => ⟨_, by rw [if_pos h], ?_, hany b h⟩, fun h => ⟨_, by rw [if_pos h], ?_, hany l h⟩⟩
    · rw [anyBut_length, hsz b h, List.getD_eq_getElem?_getD, hx.rows]; rfl
    · rw [anyBut_length, hsz l h]

/-- The mask over `(B, F)` of the examples: `True` at sequence 1, features 0 and 2. -/
def exMask (p q : Nat) : Ten Bool := ⟨[p, q], [none, none], fun ix => ix == [1, 0] || ix == [1, 2]⟩

/-- A `(B, L, F)` tensor for the examples. -/
theorem exBLF_describes : STen.Describes ⟨exT [2, 3, 4] [some "B", some "L", some "F"], exM2⟩ 0 1 :=
  ⟨by decide, rfl, rfl, by decide, rfl, 3, rfl, by decide⟩

example : ∃ x : STen (List Nat), x.Describes 0 2 ∧ (exMask 2 4).shape = x.t.shape.take 2 ∧ ∃ u md, getitemM 0 x (.bare (.mask (exMask 2 4))) = .ok (.stream ⟨u, md⟩) ∧
    u.names = [some "B_F", some "L"] ∧ u.shape = [2, 3] ∧ u.val [1, 0] = [1, 2, 0] ∧ md.ids = ["b"] :=
  ⟨_, exBFL_describes, rfl, _, _, rfl, rfl, rfl, rfl, rfl⟩
example : ∃ x : STen (List Nat), x.Describes 0 1 ∧ ∃ u, getitemM 0 x (.bare (.mask (exMask 2 3))) = .ok (.plain u) ∧ u.shape = [2, 4] ∧ u.val [1, 3] = [1, 2, 3] :=
  ⟨_, exBLF_describes, _, rfl, rfl, rfl⟩
example : ∃ x : STen (List Nat), x.Describes 0 2 ∧ ∃ u md, getitemM 0 x (.tup [.one (.int 1), .multi (.mask (exMask 4 3))]) = .ok (.stream ⟨u, md⟩) ∧
    u.names = [some "F_L"] ∧ u.shape = [2] ∧ u.val [1] = [1, 1, 2] ∧ md.ids = ["b"] ∧ md.lengths = [1] :=
  ⟨_, exBFL_describes, _, _, rfl, rfl, rfl, rfl, rfl, rfl⟩

/-- **C123 is false of the code.** `x[mask, 0:1]` with a mask over the first two axes: torch indexes axis 2 with the slice, the code takes the name of axis 1 for it and refuses the names. -/
theorem C123_mask_in_tuple_false : ∃ x : STen (List Nat), x.Describes 0 2 ∧
    (∃ t, mGetitem x.t.unnamed (.tup [.multi (.mask (exMask 2 4)), .one (.slice { start := some 0, stop := some 1 })]) = .ok t ∧ t.shape = [2, 1]) ∧
    ∀ junk, getitemM junk x (.tup [.multi (.mask (exMask 2 4)), .one (.slice { start := some 0, stop := some 1 })]) = .error .runtimeError :=
  ⟨_, exBFL_describes, ⟨_, rfl, rfl⟩, fun _ => rfl⟩

/-- **C123 is false of the code**, Ellipsis: `x[..., mask]` with a mask over the last two axes. The Ellipsis stands for one axis, the code replaces it with two. -/
theorem C123_ellipsis_false : ∃ x : STen (List Nat), x.Describes 0 2 ∧
    (∃ t, mGetitem x.t.unnamed (.tup [.one .ellipsis, .multi (.mask (exMask 4 3))]) = .ok t ∧ t.shape = [2, 2]) ∧
    ∀ junk, getitemM junk x (.tup [.one .ellipsis, .multi (.mask (exMask 4 3))]) = .error .runtimeError :=
  ⟨_, exBFL_describes, ⟨_, rfl, rfl⟩, fun _ => rfl⟩

/-- **C123 is false of the code**, `None`: `x[None, mask]` on `(B, L, F)` with a mask over batch and length is accepted as a stream; the mask is taken to cover length and features, so the names are wrong
and the frames are counted with the mask's rows, which are sequences. -/
theorem C123_none_false : ∃ (x : STen (List Nat)) (u : Ten (List Nat)) (md : Meta), x.Describes 0 1 ∧
    (∀ junk, getitemM junk x (.tup [.one .none, .multi (.mask (exMask 2 3))]) = .ok (.stream ⟨u, md⟩)) ∧
    u.names = [none, some "L_F", some "F"] ∧ u.shape = [1, 2, 4] ∧ u.val [0, 1, 3] = [1, 2, 3] ∧ md.ids = ["a", "b"] ∧ md.lengths = [1, 1] :=
  ⟨_, _, _, exBLF_describes, fun _ => rfl, rfl, rfl, rfl, rfl, rfl⟩

/-! ## Integer tensors with several axes -/

theorem mem_okNames_none {k : Nat} {a c names : List (Option String)} (h : ((a ++ c).filterMap id).Sublist (names.filterMap id)) (hok : (names.filterMap id).Nodup ∧ some "" ∉ names) :
    ((a ++ (List.replicate k none ++ c)).filterMap id).Nodup ∧ some "" ∉ a ++ (List.replicate k none ++ c) := by
  have h0 : (List.replicate k (none : Option String)).filterMap id = [] := by
    induction k with
    | zero => rfl
    | succ k ih => rw [List.replicate_succ, List.filterMap_cons]; exact ih
  have e : (a ++ (List.replicate k none ++ c)).filterMap id = (a ++ c).filterMap id := by simp only [List.filterMap_append, h0, List.nil_append]
  refine ⟨by rw [e]; exact h.nodup hok.1, fun hm => hok.2 ?_⟩
  have h1 : "" ∈ (a ++ (List.replicate k none ++ c)).filterMap id := List.mem_filterMap.2 ⟨_, hm, rfl⟩
  rw [e] at h1
  obtain ⟨o, ho, ho'⟩ := List.mem_filterMap.1 (h.subset h1)
  have ho' : o = some "" := ho'
  rw [← ho']; exact ho

/-- **C124.** `x[idx]` with an integer tensor of two or more axes whose entries are in range: refused with IndexError if the first axis is batch or length; otherwise the first axis is replaced by the axes of `idx`, the last of
which keeps the name, the entries are gathered (negative ones from the end) and the metadata stay. -/
theorem C124_ints (junk : Int) (x : STen α) (b l : Nat) (hx : x.Describes b l) (m : Ten Int) (hk : 2 ≤ m.ndim) (n : Nat) (dims : List Nat) (hs : x.t.shape = n :: dims)
    (hm : ∀ p, Inside p m.shape → -n ≤ m.val p ∧ m.val p < n) :
    (b = 0 ∨ l = 0 → getitemM junk x (.bare (.ints m)) = .error .indexError) ∧
    (b ≠ 0 → l ≠ 0 → ∃ u, getitemM junk x (.bare (.ints m)) = .ok (.stream ⟨u, x.md⟩) ∧ u.names = List.replicate (m.ndim - 1) none ++ x.t.names ∧ u.shape = m.shape ++ dims ∧
      ∀ (p rest : List Nat) (i : Nat), Inside p m.shape → Inside rest dims → (m.val p = i ∨ m.val p = (i : Int) - n) → i < n → u.val (p ++ rest) = x.t.val (i :: rest)) := by
  have hlen : x.t.names.length = x.t.shape.length := hx.wf.1
  have hB := nameIndex_of hx.wf.2.1 hx.batch
  have hL := nameIndex_of hx.wf.2.1 hx.length
  change nameIndex _ BATCH = _ at hB
  change nameIndex _ LENGTH = _ at hL
  have hall : ((allIx m.shape).all fun p => decide (-(n : Int) ≤ m.val p ∧ m.val p < n)) = true := by
    rw [List.all_eq_true]
    intro p hp
    exact decide_eq_true (hm p ((mem_allIx _ _).1 hp))
  have hget : mGetitem x.t.unnamed (.bare (.ints m)) = .ok ⟨m.shape ++ dims, (m.shape ++ dims).map fun _ => none,
      fun ix => x.t.val (mSrc (.spread m.shape (fun ix => wrapPos n (m.val ix)) :: dims.map fun n => .one (fullSel n)) ix)⟩ := by
    unfold mGetitem
    simp only [MTop.entries, Ten.unnamed, hs]
    rw [mSels, if_pos hall, mSels, Except.bind_ok', Except.bind_ok']
    simp only [mShape, mShape_full]
  have hrefine : (⟨m.shape ++ dims, (m.shape ++ dims).map fun _ => none,
      fun ix => x.t.val (mSrc (.spread m.shape (fun ix => wrapPos n (m.val ix)) :: dims.map fun n => .one (fullSel n)) ix)⟩ : Ten α).refine (List.replicate (m.ndim - 1) none ++ x.t.names) =
      .ok ⟨m.shape ++ dims, List.replicate (m.ndim - 1) none ++ x.t.names,
      fun ix => x.t.val (mSrc (.spread m.shape (fun ix => wrapPos n (m.val ix)) :: dims.map fun n => .one (fullSel n)) ix)⟩ := by
    apply refine_ok
    · show _ = (m.shape ++ dims).length
      rw [List.length_append, List.length_append, List.length_replicate, hlen, hs, List.length_cons]
      have h3 : m.shape.length = m.ndim := rfl
      omega
    · exact mem_okNames_none (a := []) (List.Sublist.refl _) hx.wf.2
  have hne : b ≠ l := by
    intro h
    have h1 := hx.batch
    rw [h, hx.length] at h1
    exact absurd h1 (by decide)
  constructor
  · intro h0
    unfold getitemM
    rw [hget, Except.bind_ok', mDescribe, Except.bind_ok', hB, Except.bind_ok', hL, Except.bind_ok']
    simp only [List.flatten_cons, List.flatten_nil, List.append_nil, List.mem_singleton, findMask, hrefine, Except.bind_ok']
    rw [if_neg (by omega)]
    rcases h0 with h0 | h0
    · subst h0; rfl
    · subst h0
      have e1 : mEntryAt ⟨[.multi (.ints m)], [[0]], List.replicate (m.ndim - 1) none ++ x.t.names, false⟩ b = .one .none := by
        unfold mEntryAt; rw [if_neg (by simpa using hne)]
      rw [e1]; rfl
  · intro hb hl
    refine ⟨⟨m.shape ++ dims, List.replicate (m.ndim - 1) none ++ x.t.names,
      fun ix => x.t.val (mSrc (.spread m.shape (fun ix => wrapPos n (m.val ix)) :: dims.map fun n => .one (fullSel n)) ix)⟩, ?_, rfl, rfl, ?_⟩
    · unfold getitemM
      rw [hget, Except.bind_ok', mDescribe, Except.bind_ok', hB, Except.bind_ok', hL, Except.bind_ok']
      simp only [List.flatten_cons, List.flatten_nil, List.append_nil, List.mem_singleton]
      rw [if_pos ⟨hb, hl⟩, hrefine]
      rfl
    · intro p rest i hp hr hi hin
      have hpl : p.length = m.shape.length := hp.length_eq
      show x.t.val (mSrc _ _) = _
      have hw : wrapPos n (m.val p) = i := by unfold wrapPos; split <;> omega
      rw [mSrc, ← hpl, List.take_left, List.drop_left, mSrc_full _ _ hr, hw]

/-- **C124, what holds in tuples.** Ints and slices followed by an integer tensor of two or more axes, as far as torch accepts it (`t'` is torch's result): refused if the tensor is at the batch axis, and, once the batch entry
is accepted, if it is at the length axis; otherwise the names are those of the axes not indexed by an int, with the new unnamed axes before the gathered one, and the metadata are indexed by the entries at the batch and length axes.
Missing: entries after the tensor, Ellipsis or `None` before it (`C124_none_false`). -/
theorem C124_tuple_partial (junk : Int) (x : STen α) (b l : Nat) (hx : x.Describes b l) (es : List Ix) (hbas : ∀ e ∈ es, e.Basic) (m : Ten Int) (hk : 2 ≤ m.ndim)
    (t' : Ten α) (ht : mGetitem x.t.unnamed (.tup (es.map .one ++ [.multi (.ints m)])) = .ok t') :
    (b = es.length → getitemM junk x (.tup (es.map .one ++ [.multi (.ints m)])) = .error .indexError) ∧
    (l = es.length → getitemM junk x (.tup (es.map .one ++ [.multi (.ints m)])) = (x.md.indexBatch (mdEntry (axisEntry es b)).toB).bind fun _ => .error .indexError) ∧
    (b ≠ es.length → l ≠ es.length → getitemM junk x (.tup (es.map .one ++ [.multi (.ints m)])) =
      (x.md.index2 junk (mdEntry (axisEntry es b)).toB (mdEntry (axisEntry es l)).toL).map fun md =>
        .stream ⟨{ t' with names := keptNames 0 (x.t.names.take es.length) es ++ (List.replicate (m.ndim - 1) none ++ x.t.names.drop es.length) }, md⟩) := by
  have hes : ∀ e ∈ es, e.OneAxis := fun e he => (hbas e he).one
  have hlen : x.t.names.length = x.t.ndim := hx.wf.1
  have hlen' : x.t.names.length = x.t.shape.length := hx.wf.1
  have hne : b ≠ l := by
    intro h
    have h1 := hx.batch
    rw [h, hx.length] at h1
    exact absurd h1 (by decide)
  obtain ⟨sels, hsels, ht2⟩ := ok_of_bind ht
  simp only [MTop.entries] at hsels
  obtain ⟨hle, ss, rest, -, hrest, hshape⟩ := mSels_one _ es hes [.multi (.ints m)] x.t.unnamed.shape x.t.names hlen sels hsels
  have hle : es.length ≤ x.t.shape.length := hle
  have hrest : mSels _ (x.t.shape.drop es.length) [.multi (.ints m)] = .ok rest := hrest
  have hlt : es.length < x.t.shape.length := by
    rcases Nat.lt_or_ge es.length x.t.shape.length with h | h
    · exact h
    · rw [List.drop_eq_nil_of_le h] at hrest; simp [mSels] at hrest
  rw [List.drop_eq_getElem_cons hlt, mSels] at hrest
  split at hrest
  swap
  · simp at hrest
  rw [mSels, Except.bind_ok'] at hrest
  obtain rfl := Except.ok.inj hrest
  simp only [mShape, mShape_full, List.length_append, List.length_drop] at hshape
  have ht' : t'.shape = mShape sels := by rw [← Except.ok.inj ht2]
  obtain ⟨aff, nm, hd, haff, hnames⟩ := describe_entries x.t.names 0 es hes 0 (by omega)
  simp only [List.replicate_zero, List.append_nil, List.drop_zero, Nat.zero_add, Nat.zero_le, true_and, Nat.sub_zero] at hd haff hnames
  have hnm : nm = keptNames 0 (x.t.names.take es.length) es := by
    rw [keptNames_take _ _ (by omega)] at hnames
    exact (List.append_cancel_right hnames).symm
  obtain ⟨gs, hg1, hg2, hg3⟩ := mDescribe_one x.t.names es [.multi (.ints m)] 0 aff nm hd
  have hltn : es.length < x.t.names.length := by omega
  have hpy : pyGet x.t.names (es.length : Int) = .ok x.t.names[es.length] := pyGet_names (posOf_nat _ _ hltn) _ (List.getElem?_eq_getElem hltn)
  have hdesc : mDescribe x.t.names (.tup (es.map .one ++ [.multi (.ints m)])) =
      .ok ⟨es.map .one ++ [.multi (.ints m)], gs ++ [[es.length]], keptNames 0 (x.t.names.take es.length) es ++ (List.replicate (m.ndim - 1) none ++ x.t.names.drop es.length), true⟩ := by
    unfold mDescribe
    simp only [noEllipsis_one es hes]
    rw [hg3]
    simp only [Nat.zero_add, mDescribeEntries, mDescribeEntry, hpy, Except.bind_ok', map_ok', List.append_nil]
    rw [if_neg (by simp), mNumIndexed_one es hes]
    have hlast : lastSurplus (es.map .one ++ [.multi (.ints m)]) = 0 := by
      unfold lastSurplus
      rw [List.getLast?_append]
      simp
    rw [hlast]
    congr 2
    rw [hnm]
    rw [List.drop_eq_getElem_cons hltn]
    split
    · rename_i hm
      rw [List.append_assoc, List.append_assoc, List.singleton_append]
      congr 4
      omega
    · rename_i hm
      rw [List.drop_eq_nil_of_le (by omega)]
  have hB := nameIndex_of hx.wf.2.1 hx.batch
  have hL := nameIndex_of hx.wf.2.1 hx.length
  change nameIndex _ BATCH = _ at hB
  change nameIndex _ LENGTH = _ at hL
  have hrefine : t'.refine (keptNames 0 (x.t.names.take es.length) es ++ (List.replicate (m.ndim - 1) none ++ x.t.names.drop es.length)) =
      .ok { t' with names := keptNames 0 (x.t.names.take es.length) es ++ (List.replicate (m.ndim - 1) none ++ x.t.names.drop es.length) } := by
    apply refine_ok
    · show _ = t'.shape.length
      rw [ht', hshape]
      simp only [List.length_append, List.length_replicate, List.length_drop, List.length_cons]
      have h3 : m.shape.length = m.ndim := rfl
      omega
    · refine mem_okNames_none ?_ hx.wf.2
      rw [List.filterMap_append]
      conv_rhs => rw [← List.take_append_drop es.length x.t.names, List.filterMap_append]
      exact List.Sublist.append (keptNames_sub 0 _ es).1 (List.Sublist.refl _)
  have hentry := fun a (ha : a ≠ es.length) => mEntryAt_one es aff gs (keptNames 0 (x.t.names.take es.length) es ++ (List.replicate (m.ndim - 1) none ++ x.t.names.drop es.length))
    (.ints m) [es.length] hg1 haff a (by rw [List.mem_singleton]; exact ha)
  have hat : mEntryAt ⟨es.map .one ++ [.multi (.ints m)], gs ++ [[es.length]], keptNames 0 (x.t.names.take es.length) es ++ (List.replicate (m.ndim - 1) none ++ x.t.names.drop es.length), true⟩ es.length =
      .multi (.ints m) := by
    unfold mEntryAt
    rw [if_pos (by simp), if_pos rfl, List.getD_eq_getElem?_getD, List.getElem?_append_right (by simp)]
    simp
  have hnone : ∀ a, a ≠ es.length → a ∉ aff → mdEntry (axisEntry es a) = .none := by
    intro a hc ha
    have h := hentry a hc
    unfold mEntryAt at h
    rw [if_neg (by simp [hg1, ha, hc])] at h
    exact (Ent.one.inj h).symm
  have hgo : ∀ D, D = (⟨es.map .one ++ [.multi (.ints m)], gs ++ [[es.length]], keptNames 0 (x.t.names.take es.length) es ++ (List.replicate (m.ndim - 1) none ++ x.t.names.drop es.length), true⟩ : MDesc) →
      getitemM junk x (.tup (es.map .one ++ [.multi (.ints m)])) = (x.md.index2 junk (mEntryAt D b).toB (mEntryAt D l).toL).map fun md =>
        .stream ⟨{ t' with names := keptNames 0 (x.t.names.take es.length) es ++ (List.replicate (m.ndim - 1) none ++ x.t.names.drop es.length) }, md⟩ := by
    intro D hD
    unfold getitemM
    rw [ht, Except.bind_ok', hdesc, Except.bind_ok', hB, Except.bind_ok', hL, Except.bind_ok', findMask_one es gs hg2]
    simp only [List.flatten_append, List.flatten_cons, List.flatten_nil, List.append_nil, List.mem_append, List.mem_singleton, hg1, hrefine, Except.bind_ok']
    split
    · rename_i h
      rw [not_or, not_or] at h
      rw [hD, hentry b h.1.2, hentry l h.2.2, hnone b h.1.2 h.1.1, hnone l h.2.2 h.2.1]
      obtain ⟨m1, e1, hs⟩ := C01_index_batch x.md hx.mdwf .none (.ok (List.range x.md.ids.length)) rfl
      rw [selects_range hx.mdwf hs] at e1
      show _ = Except.map _ (do let m' ← x.md.indexBatch .none; m'.indexLength junk .none)
      rw [e1]
      rfl
    · rw [hD]
      cases x.md.index2 junk _ _ <;> rfl
  have hgo := hgo _ rfl
  refine ⟨?_, ?_, ?_⟩
  · intro h
    rw [hgo, h, hat]; rfl
  · intro h
    rw [hgo, h, hat, hentry b (by omega)]
    show Except.map _ (do let m' ← x.md.indexBatch _; m'.indexLength junk .multi) = _
    show Except.map _ (Except.bind (x.md.indexBatch (mdEntry (axisEntry es b)).toB) _) = _
    cases x.md.indexBatch (mdEntry (axisEntry es b)).toB <;> rfl
  · intro h1 h2
    rw [hgo, hentry b h1, hentry l h2]; rfl

/-- **C124 is false of the code**, `None`: `x[None, idx]` on axes `(B, None, L)`: torch gathers sequences, which the property refuses; the code takes axis 1 to be gathered, keeps the metadata of both sequences
and gives the batch axis no name. -/
theorem C124_none_false : ∃ (x : STen (List Nat)) (u : Ten (List Nat)), x.Describes 0 2 ∧
    (∀ junk, getitemM junk x (.tup [.one .none, .multi (.ints ⟨[2, 2], [none, none], fun _ => 1⟩)]) = .ok (.stream ⟨u, x.md⟩)) ∧
    u.shape = [1, 2, 2, 4, 3] ∧ u.names = [none, none, none, none, some "L"] ∧ u.val [0, 0, 0, 3, 2] = [1, 3, 2] ∧ x.md.ids = ["a", "b"] :=
  ⟨⟨exT [2, 4, 3] [some "B", none, some "L"], exM2⟩, _, ⟨by decide, rfl, rfl, by decide, rfl, 3, rfl, by decide⟩, fun _ => rfl, rfl, rfl, rfl, rfl⟩

/-- **C124 is false of the code**, `None`: on `(F, B, L)`, where torch gathers features, `x[None, idx]` is refused: the batch name is given twice. -/
theorem C124_none_refused_false : ∃ (x : STen (List Nat)), x.Describes 1 2 ∧
    (∃ t, mGetitem x.t.unnamed (.tup [.one .none, .multi (.ints ⟨[2, 2], [none, none], fun _ => 1⟩)]) = .ok t) ∧
    ∀ junk, getitemM junk x (.tup [.one .none, .multi (.ints ⟨[2, 2], [none, none], fun _ => 1⟩)]) = .error .runtimeError :=
  ⟨⟨exT [4, 2, 3] [some "F", some "B", some "L"], exM2⟩, ⟨by decide, rfl, rfl, by decide, rfl, 3, rfl, by decide⟩, ⟨_, rfl⟩, fun _ => rfl⟩

example : ∃ x : STen (List Nat), x.Describes 1 2 ∧ ∃ u, getitemM 0 x (.bare (.ints ⟨[2, 2], [none, none], fun ix => if ix == [0, 1] then -1 else 2⟩)) = .ok (.stream ⟨u, x.md⟩) ∧
    u.names = [none, some "F", some "B", some "L"] ∧ u.shape = [2, 2, 2, 3] ∧ u.val [0, 1, 1, 2] = [3, 1, 2] :=
  ⟨⟨exT [4, 2, 3] [some "F", some "B", some "L"], exM2⟩, ⟨by decide, rfl, rfl, by decide, rfl, 3, rfl, by decide⟩, _, rfl, rfl, rfl, rfl⟩
example : ∃ x : STen (List Nat), x.Describes 0 2 ∧ ∃ u md, getitemM 0 x (.tup [.one (.slice { start := some 1 }), .multi (.ints ⟨[2, 2], [none, none], fun _ => -2⟩)]) = .ok (.stream ⟨u, md⟩) ∧
    u.names = [some "B", none, some "F", some "L"] ∧ u.val [0, 1, 1, 2] = [1, 2, 2] ∧ md.ids = ["b"] :=
  ⟨_, exBFL_describes, _, _, rfl, rfl, rfl, rfl⟩

end DS.Tn
