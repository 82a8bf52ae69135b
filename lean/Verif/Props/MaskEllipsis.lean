import Verif.Props.MaskIndex
import Verif.Props.DimNames
/-! # C123: masks of two or more axes next to an Ellipsis -/

namespace DS.Tn
open Meta

variable {α : Type}

theorem describe_full (names : List (Option String)) : ∀ (n i : Nat) (r : List Ent), i + n ≤ names.length →
    mDescribeEntries names i (List.replicate n (.one (.slice {})) ++ r) =
      (mDescribeEntries names (i + n) r).map fun d => (List.replicate n [] ++ d.1, (names.drop i).take n ++ d.2)
  | 0, i, r, _ => by
    simp only [List.replicate_zero, List.nil_append, Nat.add_zero, List.take_zero]
    cases mDescribeEntries names i r <;> rfl
  | n + 1, i, r, h => by
    rw [List.replicate_succ, List.cons_append, mDescribeEntries, describe_full names n (i + 1) r (by omega)]
    have hi : i < names.length := by omega
    have hd : mDescribeEntry names i (.one (.slice {})) = .ok ([], [names[i]]) := by
      simp only [mDescribeEntry, describeEntry]
      rw [pyGet_of_get names i names[i] (List.getElem?_eq_getElem hi), Except.bind_ok']
      rfl
    rw [hd, Except.bind_ok', show i + 1 + n = i + (n + 1) by omega]
    cases mDescribeEntries names (i + (n + 1)) r with
    | error e => rfl
    | ok d =>
      simp only [Except.map, Except.bind_ok', List.replicate_succ, List.cons_append]
      rw [List.drop_eq_getElem_cons hi, List.take_succ_cons]
      rfl

theorem numIndexed_full (n : Nat) (r : List Ent) : mNumIndexed (List.replicate n (.one (.slice {})) ++ r) = n + mNumIndexed r := by
  induction n with
  | zero => simp
  | succ n ih =>
    rw [List.replicate_succ, List.cons_append]
    simp only [mNumIndexed, ih]
    omega

theorem findMask_full (n : Nat) : ∀ (i : Nat) (m : Ten Bool) (d : List Nat),
    findMask i (List.replicate n (.one (.slice {})) ++ [.multi (.mask m)]) (List.replicate n [] ++ [d]) = some (i + n, d, m) := by
  induction n with
  | zero => intro i m d; rfl
  | succ n ih =>
    intro i m d
    rw [List.replicate_succ, List.replicate_succ, List.cons_append, List.cons_append, findMask, ih]
    · rw [show i + 1 + n = i + (n + 1) by omega]
    · intro m' h
      simp at h

theorem mShape_app (ss : List MSel) (dims : List Nat) : mShape (dims.map (fun n => MSel.one (fullSel n)) ++ ss) = dims ++ mShape ss := by
  induction dims with
  | nil => rfl
  | cons n ns ih => simp only [List.map_cons, List.cons_append, fullSel, mShape, List.length_range] at ih ⊢; rw [ih]

theorem mSrc_app (ss : List MSel) : ∀ (dims ix rest : List Nat), Inside ix dims → mSrc (dims.map (fun n => MSel.one (fullSel n)) ++ ss) (ix ++ rest) = ix ++ mSrc ss rest
  | [], _, _, h => by cases h; rfl
  | n :: ns, ix, rest, h => by
    cases h with
    | cons h1 h2 =>
      simp only [List.map_cons, List.cons_append, fullSel, mSrc, List.headD_cons, List.tail_cons]
      have := mSrc_app ss ns _ rest h2
      simp only [fullSel] at this
      rw [this, List.getD_eq_getElem?_getD, List.getElem?_range h1, Option.getD_some]

theorem refine_short (t : Ten α) (ns : List (Option String)) (h : ns.length ≠ t.ndim) : t.refine ns = .error .runtimeError := by
  unfold Ten.refine
  rw [if_neg fun hh => h hh.1]

/-- **C123, Ellipsis first.** A mask of two or more axes that fits the last axes: torch takes `x[..., mask]` and merges these axes into one, of the entries with a `True` in row-major order. The code never does: it raises a RuntimeError
(it counts the mask as one axis, so it has too many names for the result), or a TypeError if the last axis has no name. Missing: the result. -/
theorem C123_ellipsis_first_partial (junk : Int) (x : STen α) (b l : Nat) (hx : x.Describes b l) (m : Ten Bool) (hk : 2 ≤ m.ndim) (hkn : m.ndim ≤ x.t.ndim)
    (hs : m.shape = x.t.shape.drop (x.t.ndim - m.ndim)) :
    (∃ (t : Ten α) (ps : List (List Nat)), ps.Pairwise (· < ·) ∧ (∀ p, p ∈ ps ↔ Inside p m.shape ∧ m.val p = true) ∧
      mGetitem x.t.unnamed (.tup [.one .ellipsis, .multi (.mask m)]) = .ok t ∧ t.shape = x.t.shape.take (x.t.ndim - m.ndim) ++ [ps.length] ∧
      ∀ (j : Nat) (p lead : List Nat), ps[j]? = some p → Inside lead (x.t.shape.take (x.t.ndim - m.ndim)) → t.val (lead ++ [j]) = x.t.val (lead ++ p)) ∧
    (∀ s, x.t.names.getLast? = some (some s) → getitemM junk x (.tup [.one .ellipsis, .multi (.mask m)]) = .error .runtimeError) ∧
    (x.t.names.getLast? = some none → getitemM junk x (.tup [.one .ellipsis, .multi (.mask m)]) = .error .typeError) := by
  have hlen : x.t.names.length = x.t.ndim := hx.wf.1
  have hsl : x.t.shape.length = x.t.ndim := rfl
  have hsel : mSels (x.t.ndim - m.ndim) x.t.shape [.one .ellipsis, .multi (.mask m)] =
      .ok ((x.t.shape.take (x.t.ndim - m.ndim)).map (fun n => .one (fullSel n)) ++ [.merged (trueAt m)]) := by
    rw [mSels]
    have : mSels (x.t.ndim - m.ndim) (x.t.shape.drop (x.t.ndim - m.ndim)) [.multi (.mask m)] = .ok [.merged (trueAt m)] := by
      rw [mSels, if_pos]
      · have h0 : (x.t.shape.drop (x.t.ndim - m.ndim)).drop m.ndim = [] := by
          apply List.drop_eq_nil_of_le
          rw [List.length_drop]
          omega
        rw [h0]
        rfl
      · rw [← hs]
        exact List.take_of_length_le (Nat.le_refl _)
    rw [this]
    rfl
  have hget : ∃ t : Ten α, mGetitem x.t.unnamed (.tup [.one .ellipsis, .multi (.mask m)]) = .ok t ∧ t.shape = x.t.shape.take (x.t.ndim - m.ndim) ++ [(trueAt m).length] ∧
      ∀ (j : Nat) (p lead : List Nat), (trueAt m)[j]? = some p → Inside lead (x.t.shape.take (x.t.ndim - m.ndim)) → t.val (lead ++ [j]) = x.t.val (lead ++ p) := by
    unfold mGetitem
    simp only [MTop.entries, mSpecified, Ten.unnamed, Nat.add_zero, hsl, hsel, Except.bind_ok']
    refine ⟨_, rfl, ?_, ?_⟩
    · simp only [mShape_app]
      rfl
    · intro j p lead hj hl
      simp only [mSrc_app _ _ _ _ hl, mSrc, List.headD_cons, List.getD_eq_getElem?_getD, hj, Option.getD_some, List.append_nil]
  obtain ⟨t, h1, h2, h3⟩ := hget
  refine ⟨⟨t, trueAt m, (trueAt_spec m).1, (trueAt_spec m).2, h1, h2, h3⟩, ?_⟩
  have hB := nameIndex_of hx.wf.2.1 hx.batch
  have hL := nameIndex_of hx.wf.2.1 hx.length
  change nameIndex _ BATCH = _ at hB
  change nameIndex _ LENGTH = _ at hL
  have hbl : b < x.t.names.length ∧ l < x.t.names.length := by
    constructor
    · by_contra hc
      have := hx.batch
      rw [List.getElem?_eq_none (by omega)] at this
      cases this
    · by_contra hc
      have := hx.length
      rw [List.getElem?_eq_none (by omega)] at this
      cases this
  have hne : b ≠ l := by
    intro h
    have h1 := hx.batch
    have h2 := hx.length
    rw [h, h2] at h1
    exact absurd h1 (by decide)
  have hrep : mReplaceEllipsis [.one .ellipsis, .multi (.mask m)] x.t.names.length = List.replicate (x.t.ndim - 1) (.one (.slice {})) ++ [.multi (.mask m)] := by
    unfold mReplaceEllipsis
    rw [if_pos (by rfl), show (([.one .ellipsis, .multi (.mask m)] : List Ent).findIdx Ent.isEllipsis) = 0 by rfl]
    have : ((x.t.names.length : Int) - (mNumIndexed [.one .ellipsis, .multi (.mask m)] : Int) + 1).toNat = x.t.ndim - 1 := by
      simp only [mNumIndexed]
      omega
    rw [this]
    rfl
  have hlast : (x.t.names.drop (x.t.ndim - 1)).take m.ndim = x.t.names.getLast?.toList := by
    rw [List.take_of_length_le (by rw [List.length_drop]; omega)]
    rcases List.eq_nil_or_concat x.t.names with h | ⟨ns, a, h⟩
    · rw [h] at hlen; simp at hlen; omega
    · rw [List.concat_eq_append] at h
      rw [h] at hlen ⊢
      rw [List.length_append] at hlen
      simp only [List.length_singleton] at hlen
      rw [show x.t.ndim - 1 = ns.length by omega]
      simp
  have hdes := describe_full x.t.names (x.t.ndim - 1) 0 [.multi (.mask m)] (by omega)
  rw [Nat.zero_add] at hdes
  constructor
  · intro s hs'
    have hd : mDescribe x.t.names (.tup [.one .ellipsis, .multi (.mask m)]) =
        .ok ⟨List.replicate (x.t.ndim - 1) (.one (.slice {})) ++ [.multi (.mask m)], List.replicate (x.t.ndim - 1) [] ++ [List.range' (x.t.ndim - 1) m.ndim],
          x.t.names.take (x.t.ndim - 1) ++ [some s], true⟩ := by
      unfold mDescribe
      simp only [hrep, hdes]
      have e1 : mDescribeEntries x.t.names (x.t.ndim - 1) [.multi (.mask m)] = .ok ([List.range' (x.t.ndim - 1) m.ndim], [some s]) := by
        simp only [mDescribeEntries, mDescribeEntry, hlast, hs', Option.toList_some]
        rfl
      rw [e1]
      simp only [Except.map, Except.bind_ok', List.drop_zero]
      rw [if_neg (by simp), if_neg]
      rw [numIndexed_full]
      simp only [mNumIndexed]
      omega
    unfold getitemM
    rw [h1, Except.bind_ok', hd, Except.bind_ok', hB, Except.bind_ok', hL, Except.bind_ok']
    have hr : t.refine (x.t.names.take (x.t.ndim - 1) ++ [some s]) = .error .runtimeError := by
      apply refine_short
      have : t.ndim = t.shape.length := rfl
      rw [this, h2]
      simp only [List.length_append, List.length_take, List.length_singleton]
      omega
    simp only [hr, findMask_full]
    split
    · rfl
    · rw [if_neg]
      · rfl
      · rintro ⟨hb, hl⟩
        rw [List.mem_range'] at hb hl
        obtain ⟨i, -, hi⟩ := hb
        obtain ⟨j, -, hj⟩ := hl
        omega
  · intro hs'
    have hd : mDescribe x.t.names (.tup [.one .ellipsis, .multi (.mask m)]) = .error .typeError := by
      unfold mDescribe
      simp only [hrep, hdes]
      have e1 : mDescribeEntries x.t.names (x.t.ndim - 1) [.multi (.mask m)] = .error .typeError := by
        simp only [mDescribeEntries, mDescribeEntry, hlast, hs', Option.toList_some]
        rfl
      rw [e1]
      rfl
    unfold getitemM
    rw [h1, Except.bind_ok', hd]
    rfl

/-- **C123, Ellipsis last.** A mask of two or more axes that fits the first axes: for torch `x[mask, ...]` is `x[mask]`. If the mask covers batch and length, the code gives this plain tensor; if all its axes are named but it does not cover
both, the code raises a RuntimeError, although `x[mask]` is accepted (C122). Missing: the result; unnamed axes under the mask (`C123_ellipsis_last_unnamed_partial`). -/
theorem C123_ellipsis_last_partial (junk : Int) (x : STen α) (b l : Nat) (hx : x.Describes b l) (m : Ten Bool) (hk : 2 ≤ m.ndim)
    (hs : m.shape = x.t.shape.take m.ndim) (ns : List String) (hns : x.t.names.take m.ndim = ns.map some) :
    mGetitem x.t.unnamed (.tup [.multi (.mask m), .one .ellipsis]) = mGetitem x.t.unnamed (.bare (.mask m)) ∧
    (b < m.ndim → l < m.ndim → getitemM junk x (.tup [.multi (.mask m), .one .ellipsis]) = (mGetitem x.t.unnamed (.bare (.mask m))).map Opd.plain) ∧
    (¬(b < m.ndim ∧ l < m.ndim) → getitemM junk x (.tup [.multi (.mask m), .one .ellipsis]) = .error .runtimeError) := by
  have hlen : x.t.names.length = x.t.ndim := hx.wf.1
  have hsl : x.t.shape.length = x.t.ndim := rfl
  have hkn : m.ndim ≤ x.t.ndim := by
    have := congrArg List.length hs
    rw [List.length_take] at this
    have h2 : m.shape.length = m.ndim := rfl
    omega
  have hsel : ∀ K, mSels K x.t.shape [.multi (.mask m)] = .ok (.merged (trueAt m) :: (x.t.shape.drop m.ndim).map fun n => .one (fullSel n)) := by
    intro K
    rw [mSels, if_pos hs.symm]
    rfl
  have hsel' : mSels (x.t.ndim - m.ndim) x.t.shape [.multi (.mask m), .one .ellipsis] = .ok (.merged (trueAt m) :: (x.t.shape.drop m.ndim).map fun n => .one (fullSel n)) := by
    rw [mSels, if_pos hs.symm]
    have : mSels (x.t.ndim - m.ndim) (x.t.shape.drop m.ndim) [.one .ellipsis] = .ok ((x.t.shape.drop m.ndim).map fun n => .one (fullSel n)) := by
      rw [mSels, List.drop_eq_nil_of_le (by rw [List.length_drop]; omega), List.take_of_length_le (by rw [List.length_drop]; omega)]
      simp [mSels, Except.bind_ok']
    rw [this]
    rfl
  have heq : mGetitem x.t.unnamed (.tup [.multi (.mask m), .one .ellipsis]) = mGetitem x.t.unnamed (.bare (.mask m)) := by
    unfold mGetitem
    simp only [MTop.entries, mSpecified, Ten.unnamed, Nat.add_zero, hsl, hsel, hsel']
  refine ⟨heq, ?_⟩
  obtain ⟨u, hu, hsh, -, -⟩ := mGetitem_mask x.t.unnamed m hs
  rw [← and_imp]
  have hB := nameIndex_of hx.wf.2.1 hx.batch
  have hL := nameIndex_of hx.wf.2.1 hx.length
  change nameIndex _ BATCH = _ at hB
  change nameIndex _ LENGTH = _ at hL
  have hrep : mReplaceEllipsis [.multi (.mask m), .one .ellipsis] x.t.names.length = .multi (.mask m) :: (List.replicate (x.t.ndim - 1) (.one (.slice {})) ++ []) := by
    unfold mReplaceEllipsis
    rw [if_pos (by rfl), show (([.multi (.mask m), .one .ellipsis] : List Ent).findIdx Ent.isEllipsis) = 1 by rfl]
    have : ((x.t.names.length : Int) - (mNumIndexed [.multi (.mask m), .one .ellipsis] : Int) + 1).toNat = x.t.ndim - 1 := by
      simp only [mNumIndexed]
      omega
    rw [this]
    rfl
  have hdes := describe_full x.t.names (x.t.ndim - 1) 1 [] (by omega)
  have hd : mDescribe x.t.names (.tup [.multi (.mask m), .one .ellipsis]) =
      .ok ⟨.multi (.mask m) :: (List.replicate (x.t.ndim - 1) (.one (.slice {})) ++ []), List.range' 0 m.ndim :: (List.replicate (x.t.ndim - 1) [] ++ []),
        some ("_".intercalate ns) :: ((x.t.names.drop 1).take (x.t.ndim - 1) ++ []), true⟩ := by
    unfold mDescribe
    simp only [hrep]
    rw [mDescribeEntries, hdes]
    have e1 : mDescribeEntry x.t.names 0 (.multi (.mask m)) = .ok (List.range' 0 m.ndim, [some ("_".intercalate ns)]) := by
      simp only [mDescribeEntry, List.drop_zero, hns]
      rw [joinNames, mapM_some]
      rfl
    rw [e1]
    simp only [mDescribeEntries, Except.map, Except.bind_ok']
    rw [if_neg (by simp), if_neg]
    · rfl
    · have e2 : mNumIndexed (.multi (.mask m) :: (List.replicate (x.t.ndim - 1) (.one (.slice {})) ++ [])) = x.t.ndim := by
        simp only [mNumIndexed]
        rw [numIndexed_full]
        simp only [mNumIndexed]
        omega
      rw [e2]
      omega
  have hmem : ∀ a, a ∈ List.range' 0 m.ndim ↔ a < m.ndim := by
    intro a
    rw [List.mem_range']
    constructor
    · rintro ⟨i, h, rfl⟩; omega
    · intro h; exact ⟨a, h, by omega⟩
  have hr : u.refine (some ("_".intercalate ns) :: ((x.t.names.drop 1).take (x.t.ndim - 1) ++ [])) = .error .runtimeError := by
    apply refine_short
    have : u.ndim = u.shape.length := rfl
    rw [this, hsh]
    simp only [List.length_cons, List.length_append, List.length_take, List.length_drop, List.length_nil, Ten.unnamed]
    omega
  have hfl : (List.range' 0 m.ndim :: (List.replicate (x.t.ndim - 1) [] ++ [])).flatten = List.range' 0 m.ndim := by simp
  have hgo : getitemM junk x (.tup [.multi (.mask m), .one .ellipsis]) = if b < m.ndim ∧ l < m.ndim then .ok (.plain u) else .error .runtimeError := by
    unfold getitemM
    rw [heq, hu, Except.bind_ok', hd, Except.bind_ok', hB, Except.bind_ok', hL, Except.bind_ok']
    simp only [hfl, hmem, hr, findMask]
    split
    · rename_i h
      rw [if_neg fun hh => h.1 hh.1]
      rfl
    · rfl
  rw [hgo, hu]
  exact ⟨fun h => by rw [if_pos h]; rfl, fun h => by rw [if_neg h]⟩

/-- **C123, Ellipsis last**, the other tensors: if an axis under the mask has no name, `x[mask, ...]` raises a TypeError, while torch gives `x[mask]`. Missing: the result. -/
theorem C123_ellipsis_last_unnamed_partial (junk : Int) (x : STen α) (b l : Nat) (hx : x.Describes b l) (m : Ten Bool) (hk : 2 ≤ m.ndim)
    (hs : m.shape = x.t.shape.take m.ndim) (hns : none ∈ x.t.names.take m.ndim) :
    (∃ t, mGetitem x.t.unnamed (.tup [.multi (.mask m), .one .ellipsis]) = .ok t ∧ mGetitem x.t.unnamed (.bare (.mask m)) = .ok t) ∧
    getitemM junk x (.tup [.multi (.mask m), .one .ellipsis]) = .error .typeError := by
  have hlen : x.t.names.length = x.t.ndim := hx.wf.1
  have hsl : x.t.shape.length = x.t.ndim := rfl
  have hkn : m.ndim ≤ x.t.ndim := by
    have := congrArg List.length hs
    rw [List.length_take] at this
    have h2 : m.shape.length = m.ndim := rfl
    omega
  have hsel : ∀ K, mSels K x.t.shape [.multi (.mask m)] = .ok (.merged (trueAt m) :: (x.t.shape.drop m.ndim).map fun n => .one (fullSel n)) := by
    intro K
    rw [mSels, if_pos hs.symm]
    rfl
  have hsel' : mSels (x.t.ndim - m.ndim) x.t.shape [.multi (.mask m), .one .ellipsis] = .ok (.merged (trueAt m) :: (x.t.shape.drop m.ndim).map fun n => .one (fullSel n)) := by
    rw [mSels, if_pos hs.symm]
    have : mSels (x.t.ndim - m.ndim) (x.t.shape.drop m.ndim) [.one .ellipsis] = .ok ((x.t.shape.drop m.ndim).map fun n => .one (fullSel n)) := by
      rw [mSels, List.drop_eq_nil_of_le (by rw [List.length_drop]; omega), List.take_of_length_le (by rw [List.length_drop]; omega)]
      simp [mSels, Except.bind_ok']
    rw [this]
    rfl
  have heq : mGetitem x.t.unnamed (.tup [.multi (.mask m), .one .ellipsis]) = mGetitem x.t.unnamed (.bare (.mask m)) := by
    unfold mGetitem
    simp only [MTop.entries, mSpecified, Ten.unnamed, Nat.add_zero, hsl, hsel, hsel']
  obtain ⟨u, hu, -⟩ := mGetitem_mask x.t.unnamed m hs
  refine ⟨⟨u, heq.trans hu, hu⟩, ?_⟩
  have hrep : mReplaceEllipsis [.multi (.mask m), .one .ellipsis] x.t.names.length = .multi (.mask m) :: (List.replicate (x.t.ndim - 1) (.one (.slice {})) ++ []) := by
    unfold mReplaceEllipsis
    rw [if_pos (by rfl), show (([.multi (.mask m), .one .ellipsis] : List Ent).findIdx Ent.isEllipsis) = 1 by rfl]
    have : ((x.t.names.length : Int) - (mNumIndexed [.multi (.mask m), .one .ellipsis] : Int) + 1).toNat = x.t.ndim - 1 := by
      simp only [mNumIndexed]
      omega
    rw [this]
    rfl
  have hd : mDescribe x.t.names (.tup [.multi (.mask m), .one .ellipsis]) = .error .typeError := by
    unfold mDescribe
    simp only [hrep]
    have e1 : mDescribeEntry x.t.names 0 (.multi (.mask m)) = .error .typeError := by
      simp only [mDescribeEntry, List.drop_zero]
      rw [C179_unnamed _ hns]
      rfl
    rw [mDescribeEntries, e1]
    rfl
  unfold getitemM
  rw [heq, hu, Except.bind_ok', hd]
  rfl

example : ∃ x : STen (List Nat), x.Describes 0 2 ∧ (exMask 4 3).shape = x.t.shape.drop (x.t.ndim - (exMask 4 3).ndim) ∧ x.t.names.getLast? = some (some "L") :=
  ⟨_, exBFL_describes, rfl, rfl⟩
-- a mask over batch and length, and one over batch and features
example : ∃ x y : STen (List Nat), x.Describes 0 1 ∧ y.Describes 0 2 ∧ (exMask 2 3).shape = x.t.shape.take 2 ∧ (exMask 2 4).shape = y.t.shape.take 2 ∧
    (∃ u, getitemM 0 x (.tup [.multi (.mask (exMask 2 3)), .one .ellipsis]) = .ok (.plain u) ∧ u.shape = [2, 4] ∧ u.val [1, 3] = [1, 2, 3]) ∧
    getitemM 0 y (.tup [.multi (.mask (exMask 2 4)), .one .ellipsis]) = .error .runtimeError :=
  ⟨_, _, exBLF_describes, exBFL_describes, rfl, rfl, ⟨_, rfl, rfl, rfl⟩, rfl⟩
-- an unnamed axis between batch and length
example : STen.Describes ⟨exT [2, 4, 3] [some "B", none, some "L"], exM2⟩ 0 2 ∧ (exMask 2 4).shape = (exT [2, 4, 3] [some "B", none, some "L"]).shape.take 2 ∧
    none ∈ (exT [2, 4, 3] [some "B", none, some "L"]).names.take (exMask 2 4).ndim := ⟨⟨by decide, rfl, rfl, by decide, rfl, 3, rfl, by decide⟩, rfl, by decide⟩

end DS.Tn
