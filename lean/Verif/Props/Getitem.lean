import Verif.Props.Narrow
import Verif.Spec.Index
/-! # C41-C44, C89: indexing and select -/

namespace DS.Tn
open Meta

variable {α : Type}

/-! ## C42 -/

theorem torchSel_full (n : Nat) : torchSel n (.slice {}) = .ok (fullSel n) := by
  have h := rangePositions_slice {} n Int.one_pos
  have e : Slice.indices {} n = .ok (sliceLo n {}, sliceHi n {}, 1) := by
    unfold Slice.indices
    simp [sliceLo, sliceHi]
  unfold fullSel
  simp only [torchSel]
  rw [if_neg (by decide), e, Except.bind_ok']
  change Except.ok (Sel.keep ((rangePositions (sliceLo n {}) (sliceHi n {}) (({} : Slice).step.getD 1)).map Int.toNat)) = _
  rw [h, List.map_map, slicePos_full]
  congr 2
  apply List.ext_getElem?
  intro j
  rw [List.getElem?_map]
  cases (List.range n)[j]? <;> simp

theorem map_bind_ok {β γ : Type} (x : Py β) (f : β → γ) : (x >>= fun a => Except.ok (f a)) = x.map f := by cases x <;> rfl

/-- Full slices take the axes whole. -/
theorem torchSels_full (K k : Nat) (dims : List Nat) (post : List Ix) (h : k ≤ dims.length) :
    torchSels K dims (List.replicate k (.slice {}) ++ post) = (torchSels K (dims.drop k) post).map fun rest => (dims.take k).map fullSel ++ rest := by
  induction k generalizing dims with
  | zero =>
    simp only [List.replicate_zero, List.nil_append, List.drop_zero, List.take_zero, List.map_nil]
    cases torchSels K dims post <;> rfl
  | succ k ih =>
    cases dims with
    | nil => simp at h
    | cons n dims =>
      rw [List.replicate_succ, List.cons_append, torchSels, torchSel_full, Except.bind_ok', ih dims (by simpa using h)]
      rw [List.drop_succ_cons, List.take_succ_cons]
      cases torchSels K (dims.drop k) post <;> rfl
      all_goals simp

theorem specified_append (a c : List Ix) : specified (a ++ c) = specified a + specified c := by
  unfold specified; rw [List.filter_append, List.length_append]

theorem specified_cons_one {e : Ix} (h : e.OneAxis) (r : List Ix) : specified (e :: r) = specified r + 1 := by
  unfold specified
  rw [List.filter_cons, if_pos (by simpa [Ix.OneAxis] using h), List.length_cons]

/-- torch's meaning of one Ellipsis. -/
theorem torchSels_ellipsis (K k : Nat) (pre post : List Ix) (hpre : .ellipsis ∉ pre) (dims : List Nat)
    (hk : specified pre ≤ dims.length → k ≤ dims.length - specified pre) :
    torchSels k dims (pre ++ .ellipsis :: post) = torchSels k dims (pre ++ (List.replicate k (.slice {}) ++ post)) := by
  induction pre generalizing dims with
  | nil =>
    rw [List.nil_append, List.nil_append, torchSels_full k k dims post (by simpa [specified] using hk), torchSels]
    rw [map_bind_ok]
  | cons e pre ih =>
    have hpre' : .ellipsis ∉ pre := fun h => hpre (by simp [h])
    have he : e ≠ .ellipsis := fun h => hpre (by simp [h])
    by_cases hn : e = .none
    · subst hn
      rw [List.cons_append, List.cons_append, torchSels, torchSels, ih hpre' dims (by simpa [specified] using hk)]
    · have h1 : e.OneAxis := ⟨hn, he⟩
      rw [specified_cons_one h1] at hk
      cases dims with
      | nil => cases e <;> first | rfl | exact absurd rfl hn | exact absurd rfl he
      | cons n dims =>
        have := ih hpre' dims (by intro h; have := hk (by simp; omega); simp at this; omega)
        cases e <;> first
          | exact absurd rfl hn
          | exact absurd rfl he
          | (rw [List.cons_append, List.cons_append, torchSels, torchSels, this] <;> simp)

theorem numIndexed_eq {es : List Ix} (h : .ellipsis ∉ es) : numIndexed es = specified es := by
  unfold numIndexed specified
  congr 2
  apply List.filter_congr
  intro e he
  have : e ≠ .ellipsis := fun h' => h (h' ▸ he)
  simp [this]

theorem numIndexed_append (a c : List Ix) : numIndexed (a ++ c) = numIndexed a + numIndexed c := by
  unfold numIndexed; rw [List.filter_append, List.length_append]; push_cast; rfl

theorem expandFirst_eq (pre post : List Ix) (hpre : .ellipsis ∉ pre) (hpost : .ellipsis ∉ post) (ndim : Nat) :
    expandFirst (pre ++ .ellipsis :: post) ndim = pre ++ (List.replicate (ndim - specified (pre ++ post)) (.slice {}) ++ post) := by
  have hidx : (pre ++ Ix.ellipsis :: post).idxOf .ellipsis = pre.length := by
    rw [List.idxOf_append_of_notMem hpre]; simp
  have hnum : (ndim : Int) - numIndexed (pre ++ .ellipsis :: post) + 1 = ndim - specified (pre ++ post) := by
    rw [show pre ++ Ix.ellipsis :: post = pre ++ ([Ix.ellipsis] ++ post) from rfl, numIndexed_append, numIndexed_append, numIndexed_eq hpre, numIndexed_eq hpost, specified_append]
    have : numIndexed [Ix.ellipsis] = 1 := by decide
    omega
  unfold expandFirst
  simp only [hidx, hnum]
  rw [List.take_left' rfl, show (pre ++ Ix.ellipsis :: post).drop (pre.length + 1) = post by simp [List.drop_append], List.append_assoc]
  congr 3
  omega

theorem replaceEllipsis_one (pre post : List Ix) (hpre : .ellipsis ∉ pre) (hpost : .ellipsis ∉ post) (ndim : Nat) :
    replaceEllipsis (pre ++ .ellipsis :: post) ndim = .ok (pre ++ (List.replicate (ndim - specified (pre ++ post)) (.slice {}) ++ post)) := by
  unfold replaceEllipsis
  rw [if_neg (by simp)]
  have hc : (pre ++ Ix.ellipsis :: post).count .ellipsis = 1 := by
    rw [List.count_append, List.count_cons, List.count_eq_zero_of_not_mem hpre, List.count_eq_zero_of_not_mem hpost]; simp
  simp only [hc]
  rw [if_neg (by omega), expandFirst_eq pre post hpre hpost]

/-- **C42.** One Ellipsis in an index tuple means: as many full slices as it takes to index every axis. Whatever else is in the tuple (ints, slices, lists, `None`), the two spellings give
the same result or the same exception. -/
theorem C42_ellipsis (junk : Int) (x : STen α) (b l : Nat) (hx : x.Describes b l) (pre post : List Ix) (hpre : .ellipsis ∉ pre) (hpost : .ellipsis ∉ post) :
    getitem junk x (.tup (pre ++ .ellipsis :: post)) =
      getitem junk x (.tup (pre ++ (List.replicate (x.t.ndim - specified (pre ++ post)) (.slice {}) ++ post))) := by
  have hrep : ∀ (k : Nat), specified (List.replicate k (.slice {})) = k := by
    intro k
    induction k with
    | zero => rfl
    | succ k ih => rw [List.replicate_succ, specified_cons_one (by decide), ih]
  have hell : specified (pre ++ .ellipsis :: post) = specified (pre ++ post) := by
    rw [show pre ++ Ix.ellipsis :: post = pre ++ ([Ix.ellipsis] ++ post) from rfl, specified_append, specified_append, specified_append]
    have : specified [Ix.ellipsis] = 0 := by decide
    omega
  have hnot : .ellipsis ∉ pre ++ (List.replicate (x.t.ndim - specified (pre ++ post)) (.slice {}) ++ post) := by
    simp only [List.mem_append, List.mem_replicate, not_or]
    exact ⟨hpre, by simp, hpost⟩
  have htorch : torchGetitem x.t.unnamed (.tup (pre ++ .ellipsis :: post)) =
      torchGetitem x.t.unnamed (.tup (pre ++ (List.replicate (x.t.ndim - specified (pre ++ post)) (.slice {}) ++ post))) := by
    unfold torchGetitem Top.entries
    show (torchSels (x.t.shape.length - specified (pre ++ .ellipsis :: post)) x.t.shape _ >>= _) = (torchSels (x.t.shape.length - specified _) x.t.shape _ >>= _)
    rw [hell, torchSels_ellipsis 0 _ pre post hpre _ (by rw [specified_append]; omega)]
    have key : ∀ (K K' : Nat) (es : List Ix), .ellipsis ∉ es → ∀ dims, torchSels K dims es = torchSels K' dims es := by
      intro K K' es
      induction es with
      | nil => intros; rw [torchSels, torchSels]
      | cons e es ih =>
        intro h dims
        have h' : .ellipsis ∉ es := fun hh => h (by simp [hh])
        have he : e ≠ .ellipsis := fun hh => h (by simp [hh])
        by_cases hn : e = .none
        · subst hn; rw [torchSels, torchSels, ih h']
        · cases dims with
          | nil => cases e <;> first | rfl | exact absurd rfl hn | exact absurd rfl he
          | cons n dims =>
            cases e <;> first
              | exact absurd rfl hn
              | exact absurd rfl he
              | (rw [torchSels, torchSels, ih h' dims] <;> simp)
    rw [key _ _ _ hnot]
    rfl
  have hdesc : describe x.t.names (.tup (pre ++ .ellipsis :: post)) =
      describe x.t.names (.tup (pre ++ (List.replicate (x.t.ndim - specified (pre ++ post)) (.slice {}) ++ post))) := by
    have hll : x.t.names.length = x.t.ndim := hx.wf.1
    show describeTuple _ _ = describeTuple _ _
    unfold describeTuple
    rw [replaceEllipsis_one pre post hpre hpost]
    rw [show replaceEllipsis (pre ++ (List.replicate (x.t.ndim - specified (pre ++ post)) (.slice {}) ++ post)) x.t.names.length =
      .ok (pre ++ (List.replicate (x.t.ndim - specified (pre ++ post)) (.slice {}) ++ post)) by unfold replaceEllipsis; rw [if_pos hnot]]
    rw [hll]
  have hadv : ((Top.tup (pre ++ .ellipsis :: post)).entries.filter Ix.adv).length =
      ((Top.tup (pre ++ (List.replicate (x.t.ndim - specified (pre ++ post)) (.slice {}) ++ post))).entries.filter Ix.adv).length := by
    have : ∀ k, (List.replicate k (Ix.slice {})).filter Ix.adv = [] := by
      intro k; rw [List.filter_eq_nil_iff]; intro e he; rw [(List.mem_replicate.1 he).2]; decide
    show ((pre ++ .ellipsis :: post).filter Ix.adv).length = ((pre ++ (List.replicate _ (Ix.slice {}) ++ post)).filter Ix.adv).length
    rw [List.filter_append, List.filter_append, List.filter_append, this, List.filter_cons]
    simp [Ix.adv]
  unfold getitem
  rw [htorch, hdesc, hadv]

example : ∃ x : STen (List Nat), x.Describes 0 2 ∧ ∃ y, getitem 0 x (.tup [.ellipsis, .slice { stop := some 2 }]) = .ok y ∧ y.t.shape = [2, 4, 2] ∧ y.md.lengths = [2, 2] ∧
    getitem 0 x (.tup [.slice {}, .slice {}, .slice { stop := some 2 }]) = .ok y := ⟨_, exBFL_describes, _, rfl, rfl, rfl, rfl⟩

/-! ## C43, C44 -/

theorem torchSels_none (K : Nat) (k : Nat) (dims : List Nat) : torchSels K dims (List.replicate k .none) = .ok (List.replicate k .new ++ dims.map fullSel) := by
  induction k with
  | zero => rw [List.replicate_zero, torchSels]; rfl
  | succ k ih => rw [List.replicate_succ, torchSels, ih]; rfl

theorem selShape_full (dims : List Nat) : (selShape (dims.map fullSel)).length = dims.length := by
  induction dims with
  | nil => rfl
  | cons n dims ih => rw [List.map_cons, fullSel, selShape, List.length_cons, ih, List.length_cons]

theorem selShape_new (k : Nat) (s : List Sel) : (selShape (List.replicate k .new ++ s)).length = k + (selShape s).length := by
  induction k with
  | zero => simp
  | succ k ih => rw [List.replicate_succ, List.cons_append, selShape, List.length_cons, ih]; omega

/-- torch succeeds only if there are enough axes, and then there is one name per axis. -/
theorem torchSels_names (K k : Nat) (es : List Ix) (hes : ∀ e ∈ es, e.OneAxis) (dims : List Nat) (names : List (Option String)) (hlen : names.length = dims.length)
    (sels : List Sel) (h : torchSels K dims (es ++ List.replicate k .none) = .ok sels) :
    es.length ≤ dims.length ∧ (keptNames k names es).length = (selShape sels).length := by
  induction es generalizing dims names sels with
  | nil =>
    rw [List.nil_append, torchSels_none] at h
    obtain rfl := Except.ok.inj h
    refine ⟨by simp, ?_⟩
    rw [selShape_new, selShape_full, keptNames, List.length_append, List.length_replicate, hlen]
  | cons e es ih =>
    have h1 := hes e (by simp)
    have hes' : ∀ e ∈ es, e.OneAxis := fun e he => hes e (by simp [he])
    have hcons : ∀ n ds, dims = n :: ds → ∃ s rest, torchSel n e = .ok s ∧ torchSels K ds (es ++ List.replicate k .none) = .ok rest ∧ sels = s :: rest := by
      intro n ds hd
      subst hd
      have : torchSels K (n :: ds) (e :: (es ++ List.replicate k .none)) = (do
          let s ← torchSel n e
          let rest ← torchSels K ds (es ++ List.replicate k .none)
          .ok (s :: rest)) := by
        cases e <;> first | exact absurd rfl h1.1 | exact absurd rfl h1.2 | (rw [torchSels] <;> simp)
      rw [List.cons_append, this] at h
      obtain ⟨s, hs, h⟩ := ok_of_bind h
      obtain ⟨rest, hr, h⟩ := ok_of_bind h
      exact ⟨s, rest, hs, hr, (Except.ok.inj h).symm⟩
    cases dims with
    | nil =>
      exfalso
      cases e <;> first | exact absurd rfl h1.1 | exact absurd rfl h1.2 | (rw [List.cons_append] at h; simp [torchSels] at h)
    | cons n ds =>
      cases names with
      | nil => simp at hlen
      | cons nm names =>
        obtain ⟨s, rest, hs, hr, rfl⟩ := hcons n ds rfl
        obtain ⟨i1, i2⟩ := ih hes' ds names (by simpa using hlen) rest hr
        refine ⟨by simpa using i1, ?_⟩
        rw [keptNames]
        cases e with
        | none => exact absurd rfl h1.1
        | ellipsis => exact absurd rfl h1.2
        | int i =>
          obtain ⟨p, -, hs⟩ := ok_of_bind hs
          obtain rfl := Except.ok.inj hs
          rw [selShape, if_pos (by rfl), i2]
        | slice sl =>
          simp only [torchSel] at hs
          split at hs
          · simp at hs
          · obtain ⟨p, -, hs⟩ := ok_of_bind hs
            obtain rfl := Except.ok.inj hs
            rw [selShape, if_neg (by simp [Ix.drops]), List.length_cons, List.length_cons, i2]
        | list is =>
          obtain ⟨p, -, hs⟩ := ok_of_bind hs
          obtain rfl := Except.ok.inj hs
          rw [selShape, if_neg (by simp [Ix.drops]), List.length_cons, List.length_cons, i2]
        | ints is =>
          obtain ⟨p, -, hs⟩ := ok_of_bind hs
          obtain rfl := Except.ok.inj hs
          rw [selShape, if_neg (by simp [Ix.drops]), List.length_cons, List.length_cons, i2]
        | mask bs =>
          simp only [torchSel] at hs
          split at hs
          · obtain rfl := Except.ok.inj hs
            rw [selShape, if_neg (by simp [Ix.drops]), List.length_cons, List.length_cons, i2]
          · simp at hs

theorem keptNames_sub (k : Nat) (names : List (Option String)) (es : List Ix) :
    ((keptNames k names es).filterMap id).Sublist (names.filterMap id) ∧ (some "" ∈ keptNames k names es → some "" ∈ names) := by
  induction es generalizing names with
  | nil =>
    rw [keptNames, List.filterMap_append]
    have : (List.replicate k (none : Option String)).filterMap id = [] := by
      rw [List.filterMap_eq_nil_iff]; intro a ha; rw [(List.mem_replicate.1 ha).2]; rfl
    rw [this]
    refine ⟨by simp, ?_⟩
    intro h
    rcases List.mem_append.1 h with h | h
    · exact absurd (List.mem_replicate.1 h).2 (by simp)
    · exact h
  | cons e es ih =>
    cases names with
    | nil => rw [keptNames]; simp
    | cons n ns =>
      obtain ⟨h1, h2⟩ := ih ns
      rw [keptNames]
      split
      · refine ⟨h1.trans ?_, fun h => by simp [h2 h]⟩
        cases n <;> simp
      · refine ⟨?_, ?_⟩
        · cases n
          · simpa using h1
          · simpa using h1
        · intro h
          rcases List.mem_cons.1 h with h | h
          · simp [h]
          · simp [h2 h]

theorem describe_none (names : List (Option String)) (k i : Nat) : describeEntries names i (List.replicate k .none) = .ok ([], List.replicate k none) := by
  induction k generalizing i with
  | zero => rw [List.replicate_zero, describeEntries]; rfl
  | succ k ih => rw [List.replicate_succ, describeEntries, describeEntry, Except.bind_ok', ih]; rfl

/-- What the code finds out about entries that index one axis each, followed by `None`s. -/
theorem describe_entries (names : List (Option String)) (k : Nat) (es : List Ix) (hes : ∀ e ∈ es, e.OneAxis) (i : Nat) (hi : i + es.length ≤ names.length) :
    ∃ aff nm, describeEntries names i (es ++ List.replicate k .none) = .ok (aff, nm) ∧
      (∀ a, a ∈ aff ↔ i ≤ a ∧ ∃ e, es[a - i]? = some e ∧ e ≠ .slice {}) ∧
      keptNames k (names.drop i) es = nm ++ names.drop (i + es.length) := by
  induction es generalizing i with
  | nil => exact ⟨[], List.replicate k none, by rw [List.nil_append, describe_none], by simp, by rw [keptNames]; simp⟩
  | cons e es ih =>
    simp only [List.length_cons] at hi
    obtain ⟨aff, nm, h1, h2, h3⟩ := ih (fun e he => hes e (by simp [he])) (i + 1) (by omega)
    have hi' : i < names.length := by omega
    have hg : pyGet names i = .ok names[i] := pyGet_names (posOf_nat _ _ hi') _ (List.getElem?_eq_getElem hi')
    have hdrop : names.drop i = names[i] :: names.drop (i + 1) := List.drop_eq_getElem_cons hi'
    have hlen : i + (e :: es).length = i + 1 + es.length := by simp; omega
    have h1' := hes e (by simp)
    have hmem : ∀ a, (i + 1 ≤ a ∧ ∃ e', es[a - (i + 1)]? = some e' ∧ e' ≠ .slice {}) ↔ i < a ∧ ∃ e', (e :: es)[a - i]? = some e' ∧ e' ≠ .slice {} := by
      intro a
      by_cases ha : i < a
      · have : a - i = (a - (i + 1)) + 1 := by omega
        rw [this, List.getElem?_cons_succ]
        simp [ha]; omega
      · constructor <;> rintro ⟨h, -⟩ <;> omega
    have hself : ∀ (P : Prop), (P ↔ e ≠ .slice {}) → ∀ a, ((P ∧ a = i) ∨ (i + 1 ≤ a ∧ ∃ e', es[a - (i + 1)]? = some e' ∧ e' ≠ .slice {})) ↔
        i ≤ a ∧ ∃ e', (e :: es)[a - i]? = some e' ∧ e' ≠ .slice {} := by
      intro P hP a
      rw [hmem]
      constructor
      · rintro (⟨hp, rfl⟩ | ⟨h, h'⟩)
        · exact ⟨le_rfl, e, by simp, hP.1 hp⟩
        · exact ⟨by omega, h'⟩
      · rintro ⟨h, h'⟩
        by_cases e' : a = i
        · subst e'
          left
          obtain ⟨e', he', hne⟩ := h'
          simp at he'
          subst he'
          exact ⟨hP.2 hne, rfl⟩
        · right; exact ⟨by omega, h'⟩
    rw [List.cons_append, describeEntries, hlen, hdrop, keptNames]
    have hone : ∀ e', e = e' → (describeEntry names i e = .ok ([i], [names[i]])) → e ≠ .slice {} → e.drops = false →
        ∃ aff nm, (do let d ← describeEntry names i e; let rest ← describeEntries names (i + 1) (es ++ List.replicate k .none); Except.ok (d.1 ++ rest.1, d.2 ++ rest.2) : Py _) = .ok (aff, nm) ∧
          (∀ a, a ∈ aff ↔ i ≤ a ∧ ∃ e', (e :: es)[a - i]? = some e' ∧ e' ≠ .slice {}) ∧
          (if e.drops then keptNames k (names.drop (i + 1)) es else names[i] :: keptNames k (names.drop (i + 1)) es) = nm ++ names.drop (i + 1 + es.length) := by
      intro e' _ hd hne hdr
      refine ⟨i :: aff, names[i] :: nm, by rw [hd, Except.bind_ok', h1]; rfl, ?_, by rw [hdr, h3]; rfl⟩
      intro a
      rw [List.mem_cons, h2, ← hself True (by simpa using hne)]
      simp
    cases e with
    | none => exact absurd rfl h1'.1
    | ellipsis => exact absurd rfl h1'.2
    | int j =>
      refine ⟨i :: aff, nm, by rw [describeEntry, Except.bind_ok', h1]; rfl, ?_, by rw [if_pos (by rfl), h3]⟩
      intro a
      rw [List.mem_cons, h2, ← hself True (by simp)]
      simp
    | slice s =>
      by_cases hs : s = {}
      · subst hs
        refine ⟨aff, names[i] :: nm, by rw [describeEntry, hg, Except.bind_ok', if_pos rfl, Except.bind_ok', h1]; rfl, ?_, by rw [if_neg (by decide), h3]; rfl⟩
        intro a
        rw [h2, ← hself False (by simp)]
        simp
      · exact hone _ rfl (by rw [describeEntry, hg, Except.bind_ok', if_neg hs]) (by simpa using hs) rfl
    | list is => exact hone _ rfl (by rw [describeEntry, describeEntry.one, hg]; rfl) (by simp) rfl
    | ints is => exact hone _ rfl (by rw [describeEntry, describeEntry.one, hg]; rfl) (by simp) rfl
    | mask is => exact hone _ rfl (by rw [describeEntry, describeEntry.one, hg]; rfl) (by simp) rfl

/-- Indexing with entries that index one axis each, followed by `k` times `None`. -/
theorem getitem_tuple (junk : Int) (x : STen α) (b l : Nat) (hx : x.Describes b l) (es : List Ix) (k : Nat) (hes : ∀ e ∈ es, e.OneAxis) (hne : 0 < es.length + k)
    (hadv : (es.filter Ix.adv).length ≤ 1) (t' : Ten α) (ht : torchGetitem x.t.unnamed (.tup (es ++ List.replicate k .none)) = .ok t') :
    getitem junk x (.tup (es ++ List.replicate k .none)) =
      (x.md.index2 junk (mdEntry (axisEntry es b)).toB (mdEntry (axisEntry es l)).toL).map fun m => ⟨{ t' with names := keptNames k x.t.names es }, m⟩ := by
  have hll : x.t.names.length = x.t.ndim := hx.wf.1
  obtain ⟨sels, hsels, ht2⟩ := ok_of_bind ht
  obtain ⟨hle, hnl⟩ := torchSels_names _ k es hes x.t.shape x.t.names hx.wf.1 sels hsels
  have hshape : t'.shape = selShape sels := by rw [← Except.ok.inj ht2]
  obtain ⟨aff, nm, hd, haff, hnames⟩ := describe_entries x.t.names k es hes 0 (by rw [hx.wf.1]; simpa using hle)
  simp only [List.drop_zero, Nat.zero_add, Nat.zero_le, true_and, Nat.sub_zero] at haff hnames
  have hnell : .ellipsis ∉ es ++ List.replicate k .none := by
    simp only [List.mem_append, List.mem_replicate, not_or]
    exact ⟨fun h => (hes _ h).2 rfl, by simp⟩
  have hnum : numIndexed (es ++ List.replicate k .none) = es.length := by
    unfold numIndexed
    congr 1
    rw [List.filter_append]
    have h1 : es.filter (fun e => decide (e ≠ .none)) = es := by
      rw [List.filter_eq_self]; intro e he; simpa using (hes e he).1
    have h2 : (List.replicate k Ix.none).filter (fun e => decide (e ≠ .none)) = [] := by
      rw [List.filter_eq_nil_iff]; intro e he; rw [(List.mem_replicate.1 he).2]; decide
    rw [h1, h2, List.append_nil]
  have hdesc : describe x.t.names (.tup (es ++ List.replicate k .none)) = .ok ⟨es ++ List.replicate k .none, aff, keptNames k x.t.names es, true⟩ := by
    show describeTuple _ _ = _
    unfold describeTuple
    rw [show replaceEllipsis (es ++ List.replicate k .none) x.t.names.length = .ok (es ++ List.replicate k .none) by unfold replaceEllipsis; rw [if_pos hnell]]
    rw [Except.bind_ok', hd, Except.bind_ok', if_neg (by rw [List.length_append, List.length_replicate]; omega)]
    simp only [hnum]
    congr 2
    rw [hnames]
    have hle' : es.length ≤ x.t.names.length := by rw [hll]; exact hle
    split
    · rename_i hm
      congr 2
      omega
    · rename_i hm
      rw [List.drop_eq_nil_of_le (by omega), List.append_nil]
  have hb := nameIndex_of hx.wf.2.1 hx.batch
  have hl := nameIndex_of hx.wf.2.1 hx.length
  change nameIndex _ BATCH = _ at hb
  change nameIndex _ LENGTH = _ at hl
  have hsub := keptNames_sub k x.t.names es
  have hrefine : t'.refine (keptNames k x.t.names es) = .ok { t' with names := keptNames k x.t.names es } := by
    apply refine_ok
    · rw [hnl]; unfold Ten.ndim; rw [hshape]
    · exact ⟨hsub.1.nodup hx.wf.2.1, fun h => hx.wf.2.2 (hsub.2 h)⟩
  have hadv' : ((Top.tup (es ++ List.replicate k .none)).entries.filter Ix.adv).length = (es.filter Ix.adv).length := by
    show ((es ++ List.replicate k Ix.none).filter Ix.adv).length = _
    have h2 : (List.replicate k Ix.none).filter Ix.adv = [] := by
      rw [List.filter_eq_nil_iff]; intro e he; rw [(List.mem_replicate.1 he).2]; decide
    rw [List.filter_append, h2, List.append_nil]
  have hentry : ∀ a, entryAt ⟨es ++ List.replicate k .none, aff, keptNames k x.t.names es, true⟩ a = mdEntry (axisEntry es a) := by
    intro a
    unfold entryAt mdEntry axisEntry
    simp only [haff]
    have hg : es.getD a (.slice {}) = (es[a]?).getD (.slice {}) := List.getD_eq_getElem?_getD
    rw [hg]
    by_cases ha : a < es.length
    · rw [List.getElem?_eq_getElem ha, Option.getD_some]
      by_cases he : es[a] = .slice {}
      · rw [if_pos he, if_neg]; rintro ⟨e, h1, h2⟩; exact h2 ((Option.some.inj h1).symm.trans he)
      · rw [if_neg he, if_pos ⟨_, rfl, he⟩, if_true, List.getD_eq_getElem?_getD, List.getElem?_append_left ha, List.getElem?_eq_getElem ha]; rfl
    · rw [List.getElem?_eq_none (by omega)]
      simp
  unfold getitem
  rw [ht, Except.bind_ok', hdesc, Except.bind_ok', hb, Except.bind_ok', hl, Except.bind_ok', hadv', if_neg (by omega)]
  simp only [hrefine, Except.bind_ok', hentry]
  split
  · rename_i h
    have hn : ∀ a, a ∉ aff → mdEntry (axisEntry es a) = .none := by
      intro a ha
      rw [← hentry]
      unfold entryAt
      exact if_neg ha
    rw [hn b h.1, hn l h.2]
    obtain ⟨m1, e1, hs⟩ := C01_index_batch x.md hx.mdwf .none (.ok (List.range x.md.ids.length)) rfl
    rw [selects_range hx.mdwf hs] at e1
    show _ = Except.map _ (do let m' ← x.md.indexBatch .none; m'.indexLength junk .none)
    rw [e1]
    rfl
  · cases x.md.index2 junk (mdEntry (axisEntry es b)).toB (mdEntry (axisEntry es l)).toL <;> rfl

/-- **C43.** An index tuple of ints, slices and at most one index list, tensor or mask, as far as torch accepts it (`t'` is torch's result): the result's names are the names of the axes not
indexed by an int, in order, and the metadata are indexed by exactly the entries at the batch and length axes (an axis taken whole is not indexed). Ellipsis: see C42. -/
theorem C43_getitem (junk : Int) (x : STen α) (b l : Nat) (hx : x.Describes b l) (es : List Ix) (hes : ∀ e ∈ es, e.OneAxis) (hne : es ≠ [])
    (hadv : (es.filter Ix.adv).length ≤ 1) (t' : Ten α) (ht : torchGetitem x.t.unnamed (.tup es) = .ok t') :
    getitem junk x (.tup es) =
      (x.md.index2 junk (mdEntry (axisEntry es b)).toB (mdEntry (axisEntry es l)).toL).map fun m => ⟨{ t' with names := keptNames 0 x.t.names es }, m⟩ := by
  have h := getitem_tuple junk x b l hx es 0 hes (by have := List.length_pos_of_ne_nil hne; omega) hadv t' (by simpa using ht)
  simpa using h

/-- **C43**, what torch refuses is refused with torch's exception. -/
theorem C43_getitem_refuses (junk : Int) (x : STen α) (top : Top) (e : PyErr) (ht : torchGetitem x.t.unnamed top = .error e) : getitem junk x top = .error e := by
  unfold getitem; rw [ht, Except.bind_error']

/-- **C43**, a single index is a tuple of one. -/
theorem C43_getitem_bare (junk : Int) (x : STen α) (b l : Nat) (hx : x.Describes b l) (e : Ix) (he : e.OneAxis) (t' : Ten α) (ht : torchGetitem x.t.unnamed (.bare e) = .ok t') :
    getitem junk x (.bare e) =
      (x.md.index2 junk (mdEntry (axisEntry [e] b)).toB (mdEntry (axisEntry [e] l)).toL).map fun m => ⟨{ t' with names := keptNames 0 x.t.names [e] }, m⟩ := by
  have hll : x.t.names.length = x.t.ndim := hx.wf.1
  rw [← C43_getitem junk x b l hx [e] (by simpa using he) (by simp) (Nat.le_trans (List.length_filter_le _ _) (by simp)) t' ht]
  have hpos : x.t.names ≠ [] := by
    intro h
    have := hx.batch
    rw [h] at this
    simp at this
  obtain ⟨n, ns, hn⟩ := List.exists_cons_of_ne_nil hpos
  have key : ∃ d d', describe x.t.names (.bare e) = .ok d ∧ describe x.t.names (.tup [e]) = .ok d' ∧ d.affected = d'.affected ∧ d.names = d'.names ∧
      ∀ a, entryAt d a = entryAt d' a := by
    have hmiss : ((n :: ns).length : Int) - 1 > 0 → (n :: ns).drop ((n :: ns).length - (((n :: ns).length : Int) - 1).toNat) = ns := by
      intro h
      have : (n :: ns).length - (((n :: ns).length : Int) - 1).toNat = 1 := by simp at h ⊢
      rw [this]; rfl
    have hmiss' : ¬ (((n :: ns).length : Int) - 1 > 0) → ns = [] := by
      intro h
      apply List.length_eq_zero_iff.1
      simp at h
      simpa using h
    have hent : ∀ (e : Ix) (nm nm' : List (Option String)) (a : Nat), entryAt ⟨[e], [0], nm, false⟩ a = entryAt ⟨[e], [0], nm', true⟩ a := by
      intro e nm nm' a
      unfold entryAt
      by_cases h : a = 0
      · subst h; simp
      · simp [h]
    have hget : pyGet (n :: ns) ((0 : Nat) : Int) = .ok n := pyGet_names (posOf_nat _ _ (by simp)) _ rfl
    rw [hn]
    have htup : ∀ (e : Ix) (aff : List Nat) (nm : List (Option String)), e.OneAxis → describeEntry (n :: ns) 0 e = .ok (aff, nm) →
        describe (n :: ns) (.tup [e]) = .ok ⟨[e], aff, nm ++ ns, true⟩ := by
      intro e aff nm he hd
      show describeTuple _ _ = _
      unfold describeTuple replaceEllipsis
      rw [if_pos (by simpa using he.2.symm), Except.bind_ok']
      unfold describeEntries
      rw [hd, Except.bind_ok']
      unfold describeEntries
      rw [Except.bind_ok', Except.bind_ok', if_neg (by simp)]
      have hnum : numIndexed [e] = 1 := by
        unfold numIndexed; rw [List.filter_cons, if_pos (by simpa using he.1)]; rfl
      simp only [hnum, List.append_nil]
      congr 2
      split
      · rename_i h; rw [hmiss h]
      · rename_i h; rw [hmiss' h, List.append_nil]
    cases e with
    | none => exact absurd rfl he.1
    | ellipsis => exact absurd rfl he.2
    | int i => exact ⟨_, _, rfl, htup _ [0] [] he (by rw [describeEntry]), rfl, rfl, hent _ _ _⟩
    | slice s =>
      refine ⟨_, _, rfl, htup _ (if s = {} then [] else [0]) [n] he (by rw [describeEntry, hget, Except.bind_ok']), rfl, rfl, ?_⟩
      intro a
      by_cases h : s = {}
      · simp [entryAt, h]
      · rw [if_neg h]; exact hent _ _ _ a
    | list is => exact ⟨_, _, rfl, htup _ [0] [n] he (by rw [describeEntry, describeEntry.one, hget]; rfl), rfl, rfl, hent _ _ _⟩
    | ints is => exact ⟨_, _, rfl, htup _ [0] [n] he (by rw [describeEntry, describeEntry.one, hget]; rfl), rfl, rfl, hent _ _ _⟩
    | mask is => exact ⟨_, _, rfl, htup _ [0] [n] he (by rw [describeEntry, describeEntry.one, hget]; rfl), rfl, rfl, hent _ _ _⟩
  obtain ⟨d, d', h1, h2, h3, h4, h5⟩ := key
  unfold getitem
  rw [h1, h2, show torchGetitem x.t.unnamed (.bare e) = torchGetitem x.t.unnamed (.tup [e]) from rfl]
  simp only [Except.bind_ok', h3, h4, h5]
  rfl

example : ∃ x : STen (List Nat), x.Describes 0 2 ∧ ∃ y, getitem 0 x (.tup [.slice { start := some 1 }, .int 2, .slice { stop := some 1 }]) = .ok y ∧
    y.t.names = [some "B", some "L"] ∧ y.md.ids = ["b"] ∧ y.md.lengths = [1] ∧ y.t.val [0, 0] = [1, 2, 0] ∧
    keptNames 0 [some "B", some "F", some "L"] [.slice { start := some 1 }, .int 2, .slice { stop := some 1 }] = [some "B", some "L"] := ⟨_, exBFL_describes, _, rfl, rfl, rfl, rfl, rfl, rfl⟩
example : ∃ x : STen (List Nat), x.Describes 0 2 ∧ ∃ y, getitem 0 x (.bare (.ints [1, 0, -1])) = .ok y ∧ y.md.ids = ["b", "a", "b"] := ⟨_, exBFL_describes, _, rfl, rfl⟩

/-- **C44 is false of the code.** `x[:, None, 0]` takes feature 0 of a `(B, F, L)` tensor and adds an axis; the metadata are indexed at frame 0 of the length axis instead: every sequence is
now said to be one frame long while the data keep all frames. -/
theorem C44_none_false : ∃ (x y : STen (List Nat)), x.Describes 0 2 ∧ (∀ junk, getitem junk x (.tup [.slice {}, .none, .int 0]) = .ok y) ∧
    y.t.shape = [2, 1, 3] ∧ y.t.names = [some "B", none, some "L"] ∧ x.md.lengths = [3, 2] ∧ y.md.lengths = [1, 1] ∧ y.md.eos = [false, false] :=
  ⟨_, _, exBFL_describes, fun _ => rfl, rfl, rfl, rfl, rfl, rfl⟩

/-- **C44 is false of the code**, names: a new axis before a full slice makes the indexing fail, `x[:, None, :]`. -/
theorem C44_none_names_false : ∃ x : STen (List Nat), x.Describes 0 2 ∧ (∃ t, torchGetitem x.t.unnamed (.tup [.slice {}, .none, .slice {}]) = .ok t ∧ t.shape = [2, 1, 4, 3]) ∧
    ∀ junk, getitem junk x (.tup [.slice {}, .none, .slice {}]) = .error .runtimeError :=
  ⟨_, exBFL_describes, ⟨_, rfl, rfl⟩, fun _ => rfl⟩

/-- **C44, the part that holds.** `None`s after all other entries of the tuple: unnamed axes appear after the indexed ones, the other names and the metadata are those
without the `None`s. Missing: `None`s before other entries (`C44_none_false`). -/
theorem C44_none_partial (junk : Int) (x : STen α) (b l : Nat) (hx : x.Describes b l) (es : List Ix) (k : Nat) (hes : ∀ e ∈ es, e.OneAxis) (hne : 0 < es.length + k)
    (hadv : (es.filter Ix.adv).length ≤ 1) (t' : Ten α) (ht : torchGetitem x.t.unnamed (.tup (es ++ List.replicate k .none)) = .ok t') :
    getitem junk x (.tup (es ++ List.replicate k .none)) =
      (x.md.index2 junk (mdEntry (axisEntry es b)).toB (mdEntry (axisEntry es l)).toL).map fun m => ⟨{ t' with names := keptNames k x.t.names es }, m⟩ :=
  getitem_tuple junk x b l hx es k hes hne hadv t' ht

/-- **C44, the part that holds.** `x[None]`. Missing: `None` together with other entries (`C44_none_false`). -/
theorem C44_none_bare_partial (junk : Int) (x : STen α) (b l : Nat) (hx : x.Describes b l) :
    ∃ y, getitem junk x (.bare .none) = .ok y ∧ y.t.names = none :: x.t.names ∧ y.t.shape = 1 :: x.t.shape ∧ y.md = x.md := by
  have hb := nameIndex_of hx.wf.2.1 hx.batch
  have hl := nameIndex_of hx.wf.2.1 hx.length
  change nameIndex _ BATCH = _ at hb
  change nameIndex _ LENGTH = _ at hl
  have hsh : selShape (Sel.new :: x.t.shape.map fullSel) = 1 :: x.t.shape := by
    have : ∀ dims : List Nat, selShape (dims.map fullSel) = dims := by
      intro dims
      induction dims with
      | nil => rfl
      | cons n dims ih => rw [List.map_cons, fullSel, selShape, ih, List.length_range]
    rw [selShape, this]
  obtain ⟨t', ht, hs⟩ : ∃ t', torchGetitem x.t.unnamed (.bare .none) = .ok t' ∧ t'.shape = 1 :: x.t.shape := by
    refine ⟨_, rfl, hsh⟩
  refine ⟨⟨{ t' with names := none :: x.t.names }, x.md⟩, ?_, rfl, hs, rfl⟩
  unfold getitem
  rw [ht, Except.bind_ok', describe, Except.bind_ok', hb, Except.bind_ok', hl, Except.bind_ok', if_neg (by decide), if_pos (by simp), refine_ok]
  · rfl
  · show x.t.names.length + 1 = t'.shape.length
    rw [hs, hx.wf.1]; rfl
  · simpa using hx.wf.2

example : ∃ x : STen (List Nat), x.Describes 0 2 ∧ ∃ y, getitem 0 x (.tup [.int 1, .slice {}, .none]) = .ok y ∧ y.t.names = [some "F", none, some "L"] ∧ y.md.ids = ["b"] :=
  ⟨_, exBFL_describes, _, rfl, rfl, rfl⟩

/-! ## C41 -/

/-- **C41.** `select` on either spelling of an axis is the integer index at that axis. -/
theorem C41_select (junk : Int) (x : STen α) (d : Int) (a : Nat) (hd : posOf x.t.ndim d = some a) (i : Int) :
    select junk x d i = getitem junk x (.tup (List.replicate a (.slice {}) ++ [.int i])) := by
  unfold select
  have := posOf_iff.1 hd
  have e : (if d ≥ 0 then d else x.t.ndim + d).toNat = a := by split <;> omega
  simp only [e]

theorem keptNames_select (names : List (Option String)) (a : Nat) (i : Int) (h : a < names.length) :
    keptNames 0 names (List.replicate a (.slice {}) ++ [.int i]) = names.eraseIdx a := by
  induction a generalizing names with
  | zero =>
    cases names with
    | nil => simp at h
    | cons n ns => simp [keptNames, Ix.drops]
  | succ a ih =>
    cases names with
    | nil => simp at h
    | cons n ns =>
      rw [List.replicate_succ, List.cons_append, keptNames, if_neg (by decide), ih ns (by simpa using h), List.eraseIdx_cons_succ]

theorem torchPos_ok {n : Nat} {i : Int} {p : Nat} (h : posOf n i = some p) : torchPos n i = .ok p := by
  have := posOf_iff.1 h
  unfold torchPos
  have e : (if i < 0 then i + (n : Int) else i) = p := by split <;> omega
  simp only [e]
  have : p < n := posOf_lt h
  rw [if_pos (by omega)]
  simp

/-- torch's own integer index at axis `a`: the axis disappears. -/
theorem torch_select (t : Ten α) (a : Nat) (i : Int) (w p : Nat) (hw : t.shape[a]? = some w) (hp : posOf w i = some p) :
    ∃ t', torchGetitem t (.tup (List.replicate a (.slice {}) ++ [.int i])) = .ok t' ∧ t'.shape = t.shape.eraseIdx a ∧
      ∀ ix : List Nat, (∀ k j : Nat, ix[k]? = some j → ∀ n : Nat, t'.shape[k]? = some n → j < n) → ix.length = t'.shape.length → t'.val ix = t.val (ix.insertIdx a p) := by
  have ha := (List.getElem?_eq_some_iff.1 hw).1
  have hdrop : t.shape.drop a = w :: t.shape.drop (a + 1) := by
    rw [List.drop_eq_getElem_cons ha, (List.getElem?_eq_some_iff.1 hw).2]
  have hsels : ∀ K, torchSels K t.shape (List.replicate a (.slice {}) ++ [.int i]) =
      .ok ((t.shape.take a).map fullSel ++ .pick p :: (t.shape.drop (a + 1)).map fullSel) := by
    intro K
    rw [torchSels_full K a t.shape _ (by omega), hdrop, torchSels, torchSel, torchPos_ok hp, Except.bind_ok', Except.bind_ok', torchSels]
    · rfl
    all_goals simp
  have hfull : ∀ dims : List Nat, selShape (dims.map fullSel) = dims := by
    intro dims
    induction dims with
    | nil => rfl
    | cons n dims ih => rw [List.map_cons, fullSel, selShape, ih, List.length_range]
  have hsh : ∀ (dims rest : List Nat), selShape (dims.map fullSel ++ .pick p :: rest.map fullSel) = dims ++ rest := by
    intro dims rest
    induction dims with
    | nil => rw [List.map_nil, List.nil_append, selShape, hfull]; rfl
    | cons n dims ih => rw [List.map_cons, List.cons_append, fullSel, selShape, ih, List.length_range]; rfl
  have hsrcfull : ∀ (dims ix : List Nat), ix.length = dims.length → (∀ k j : Nat, ix[k]? = some j → ∀ n : Nat, dims[k]? = some n → j < n) → selSrc (dims.map fullSel) ix = ix := by
    intro dims
    induction dims with
    | nil => intro ix h _; cases ix with
      | nil => rfl
      | cons _ _ => simp at h
    | cons n dims ih =>
      intro ix h hb
      cases ix with
      | nil => simp at h
      | cons j ix =>
        have hj := hb 0 j rfl n rfl
        rw [List.map_cons, fullSel, selSrc, List.tail_cons, ih ix (by simpa using h) (fun k j' h1 n' h2 => hb (k + 1) j' h1 n' h2)]
        simp [List.getD_eq_getElem?_getD, List.getElem?_range hj]
  have hsrc : ∀ (dims rest ix : List Nat), ix.length = (dims ++ rest).length → (∀ k j : Nat, ix[k]? = some j → ∀ n : Nat, (dims ++ rest)[k]? = some n → j < n) →
      selSrc (dims.map fullSel ++ .pick p :: rest.map fullSel) ix = ix.insertIdx dims.length p := by
    intro dims rest
    induction dims with
    | nil =>
      intro ix h hb
      rw [List.map_nil, List.nil_append, selSrc, hsrcfull rest ix (by simpa using h) (by simpa using hb)]
      simp
    | cons n dims ih =>
      intro ix h hb
      cases ix with
      | nil => simp at h
      | cons j ix =>
        have hj := hb 0 j rfl n rfl
        rw [List.map_cons, List.cons_append, fullSel, selSrc, List.tail_cons, ih ix (by simpa using h) (fun k j' h1 n' h2 => hb (k + 1) j' h1 n' h2)]
        simp [List.getD_eq_getElem?_getD, List.getElem?_range hj]
  have herase : t.shape.take a ++ t.shape.drop (a + 1) = t.shape.eraseIdx a := List.eraseIdx_eq_take_drop_succ .. |>.symm
  refine ⟨_, by unfold torchGetitem Top.entries; rw [hsels, Except.bind_ok'], ?_, ?_⟩
  · show selShape _ = _
    rw [hsh, herase]
  · intro ix hb hlen
    simp only [hsh] at hb hlen
    show t.val (selSrc _ ix) = _
    rw [hsrc _ _ ix hlen hb, List.length_take, Nat.min_eq_left (by omega)]

/-- **C41**, spelled out: the axis disappears from names and shape, the data are those at position `p`, and the metadata are those of the integer index on batch or length, unchanged for
another axis. -/
theorem C41_select_result (junk : Int) (x : STen α) (b l : Nat) (hx : x.Describes b l) (d : Int) (a : Nat) (hd : posOf x.t.ndim d = some a)
    (i : Int) (w p : Nat) (hw : x.t.shape[a]? = some w) (hp : posOf w i = some p) :
    ∃ t' : Ten α, t'.names = x.t.names.eraseIdx a ∧ t'.shape = x.t.shape.eraseIdx a ∧
      (∀ ix : List Nat, (∀ k j : Nat, ix[k]? = some j → ∀ n : Nat, t'.shape[k]? = some n → j < n) → ix.length = t'.shape.length → t'.val ix = x.t.val (ix.insertIdx a p)) ∧
      (a = b → select junk x d i = (x.md.indexBatch (.int i)).map fun m => ⟨t', m⟩) ∧
      (a = l → select junk x d i = (x.md.indexLength junk (.int i)).map fun m => ⟨t', m⟩) ∧
      (a ≠ b → a ≠ l → select junk x d i = .ok ⟨t', x.md⟩) := by
  have hll : x.t.names.length = x.t.ndim := hx.wf.1
  have ha := posOf_lt hd
  obtain ⟨t', ht, hsh, hv⟩ := torch_select x.t.unnamed a i w p hw hp
  have hC := C43_getitem junk x b l hx (List.replicate a (.slice {}) ++ [.int i]) (by
    intro e he
    rcases List.mem_append.1 he with h | h
    · rw [(List.mem_replicate.1 h).2]; decide
    · rw [List.mem_singleton.1 h]; simp [Ix.OneAxis]) (by simp) (by
    rw [List.filter_append]
    have : (List.replicate a (Ix.slice {})).filter Ix.adv = [] := by
      rw [List.filter_eq_nil_iff]; intro e he; rw [(List.mem_replicate.1 he).2]; decide
    rw [this]; simp [Ix.adv]) t' ht
  rw [← C41_select junk x d a hd i, keptNames_select _ _ _ (by rw [hll]; exact ha)] at hC
  have hself : axisEntry (List.replicate a (.slice {}) ++ [.int i]) a = .int i := by
    unfold axisEntry
    rw [List.getD_eq_getElem?_getD, List.getElem?_append_right (by simp)]; simp
  have hoth : ∀ c, c ≠ a → mdEntry (axisEntry (List.replicate a (.slice {}) ++ [.int i]) c) = .none := by
    intro c hc
    have : axisEntry (List.replicate a (.slice {}) ++ [.int i]) c = .slice {} := by
      unfold axisEntry
      rw [List.getD_eq_getElem?_getD]
      by_cases h : c < a
      · rw [List.getElem?_append_left (by simpa using h), List.getElem?_replicate, if_pos h]; rfl
      · rw [List.getElem?_append_right (by simp; omega), List.getElem?_eq_none (by simp; omega)]; rfl
    rw [this]; rfl
  have hbn : x.md.indexBatch .none = .ok x.md := by
    obtain ⟨m1, e1, hs⟩ := C01_index_batch x.md hx.mdwf .none (.ok (List.range x.md.ids.length)) rfl
    rw [selects_range hx.mdwf hs] at e1
    exact e1
  have hbl := Describes.ne hx
  refine ⟨{ t' with names := x.t.names.eraseIdx a }, rfl, hsh, hv, ?_, ?_, ?_⟩
  · rintro rfl
    rw [hC, hself, hoth l (Ne.symm hbl)]
    show Except.map _ (do let m' ← x.md.indexBatch (.int i); m'.indexLength junk .none) = _
    cases x.md.indexBatch (.int i) <;> rfl
  · rintro rfl
    rw [hC, hself, hoth b hbl]
    show Except.map _ (do let m' ← x.md.indexBatch .none; m'.indexLength junk (.int i)) = _
    rw [hbn]
    rfl
  · intro h1 h2
    rw [hC, hoth b (Ne.symm h1), hoth l (Ne.symm h2)]
    show Except.map _ (do let m' ← x.md.indexBatch .none; m'.indexLength junk .none) = _
    rw [hbn]
    rfl

example : ∃ x : STen (List Nat), x.Describes 0 2 ∧ posOf x.t.ndim (-3) = some 0 ∧ ∃ y, select 0 x (-3) (-1) = .ok y ∧ y.t.names = [some "F", some "L"] ∧ y.md.ids = ["b"] ∧
    y.t.val [3, 1] = [1, 3, 1] := ⟨_, exBFL_describes, rfl, _, rfl, rfl, rfl, rfl⟩

/-! ## C89 -/

/-- **C89 is false of the code.** Once the batch or the length axis was selected away, nothing between the brackets works any more: whatever torch and the name analysis would accept, the
override raises ValueError because it looks for both names. -/
theorem C89_index_again_false (junk : Int) (y : STen α) (h : BATCH ∉ y.t.names ∨ LENGTH ∉ y.t.names) (top : Top) (t' : Ten α) (ht : torchGetitem y.t.unnamed top = .ok t')
    (d : Desc) (hd : describe y.t.names top = .ok d) : getitem junk y top = .error .valueError := by
  unfold getitem
  rw [ht, Except.bind_ok', hd, Except.bind_ok']
  unfold nameIndex
  by_cases hb : BATCH ∈ y.t.names
  · rw [if_pos hb, Except.bind_ok', if_neg (h.resolve_left (fun h => h hb)), Except.bind_error']
  · rw [if_neg hb, Except.bind_error']

/-- **C89**, witness: `x[0][1]` raises ValueError, `x[0, 1]` works. -/
theorem C89_witness_false : ∃ x y z : STen (List Nat), x.Describes 0 2 ∧ (∀ junk, getitem junk x (.bare (.int 0)) = .ok y) ∧ (∀ junk, getitem junk y (.bare (.int 1)) = .error .valueError) ∧
    ∀ junk, getitem junk x (.tup [.int 0, .int 1]) = .ok z := ⟨_, _, _, exBFL_describes, fun _ => rfl, fun _ => rfl, fun _ => rfl⟩

theorem getElem?_eraseIdx_shift {β : Type} (xs : List β) (a k : Nat) (h : a ≠ k) : (xs.eraseIdx a)[if a < k then k - 1 else k]? = xs[k]? := by
  rw [List.getElem?_eraseIdx]
  by_cases hk : a < k
  · rw [if_pos hk, if_neg (by omega)]
    congr 1
    omega
  · rw [if_neg hk, if_pos (by omega)]

/-- **C89, the part that holds.** After one entry of a feature axis was selected, both names are still there: the result is described by its metadata, which are those of the source, and can be indexed
again like any described tensor (C43). Missing: selecting an entry of the batch or of the length axis. -/
theorem C89_index_again_partial (junk : Int) (x : STen α) (b l : Nat) (hx : x.Describes b l) (d : Int) (a : Nat) (hd : posOf x.t.ndim d = some a) (hab : a ≠ b) (hal : a ≠ l)
    (i : Int) (w p : Nat) (hw : x.t.shape[a]? = some w) (hp : posOf w i = some p) :
    ∃ y : STen α, select junk x d i = .ok y ∧ y.md = x.md ∧ y.t.names = x.t.names.eraseIdx a ∧ y.Describes (if a < b then b - 1 else b) (if a < l then l - 1 else l) ∧
      ∀ (es : List Ix), (∀ e ∈ es, e.OneAxis) → es ≠ [] → (es.filter Ix.adv).length ≤ 1 → ∀ t' : Ten α, torchGetitem y.t.unnamed (.tup es) = .ok t' →
        getitem junk y (.tup es) = (x.md.index2 junk (mdEntry (axisEntry es (if a < b then b - 1 else b))).toB (mdEntry (axisEntry es (if a < l then l - 1 else l))).toL).map
          fun m => ⟨{ t' with names := keptNames 0 (x.t.names.eraseIdx a) es }, m⟩ := by
  obtain ⟨t', e1, e2, -, -, -, e3⟩ := C41_select_result junk x b l hx d a hd i w p hw hp
  have hy : (⟨t', x.md⟩ : STen α).Describes (if a < b then b - 1 else b) (if a < l then l - 1 else l) := by
    refine ⟨⟨?_, ?_, ?_⟩, ?_, ?_, hx.mdwf, ?_, ?_⟩
    · show t'.names.length = t'.shape.length
      rw [e1, e2, List.length_eraseIdx, List.length_eraseIdx, hx.wf.1]
    · show (t'.names.filterMap id).Nodup
      rw [e1]
      exact hx.wf.2.1.sublist ((List.eraseIdx_sublist ..).filterMap _)
    · show some "" ∉ t'.names
      rw [e1]
      exact fun h => hx.wf.2.2 (List.mem_of_mem_eraseIdx h)
    · show t'.names[_]? = _
      rw [e1, getElem?_eraseIdx_shift _ _ _ hab]
      exact hx.batch
    · show t'.names[_]? = _
      rw [e1, getElem?_eraseIdx_shift _ _ _ hal]
      exact hx.length
    · show t'.shape[_]? = _
      rw [e2, getElem?_eraseIdx_shift _ _ _ hab]
      exact hx.rows
    · show ∃ w : Nat, t'.shape[_]? = some w ∧ _
      rw [e2, getElem?_eraseIdx_shift _ _ _ hal]
      exact hx.fits
  refine ⟨⟨t', x.md⟩, e3 hab hal, rfl, e1, hy, ?_⟩
  intro es h1 h2 h3 t'' ht
  have := C43_getitem junk _ _ _ hy es h1 h2 h3 t'' ht
  simp only [e1] at this
  exact this

example : ∃ x : STen (List Nat), x.Describes 0 2 ∧ posOf x.t.ndim 1 = some 1 ∧ ∃ y, (∀ junk, select junk x 1 0 = .ok y) ∧ ∃ z, ∀ junk, getitem junk y (.tup [.int 0, .int 1]) = .ok z :=
  ⟨_, exBFL_describes, rfl, _, fun _ => rfl, _, fun _ => rfl⟩

end DS.Tn
