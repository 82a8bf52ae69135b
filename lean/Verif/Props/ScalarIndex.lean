import Verif.Model.ScalarIndex
import Verif.Props.Getitem
/-! # C188: integer tensors without axes as indices -/

namespace DS.Tn
open Meta

variable {α : Type}

/-- **C188 is false of the code.** `x[torch.tensor(1)]` raises RuntimeError, `x[1]` gives the row. -/
theorem C188_scalar_false : ∃ x : STen (List Nat), x.Describes 0 2 ∧ (∀ junk, getitemZ junk x (.bare (.zero 1)) = .error .runtimeError) ∧ ∀ junk, ∃ y, getitem junk x (.bare (.int 1)) = .ok y ∧ y.md.ids = ["b"] :=
  ⟨_, exBFL_describes, fun _ => rfl, fun _ => ⟨_, rfl, rfl⟩⟩

/-- An int. -/
def Ix.isInt : Ix → Bool
  | .int _ => true
  | _ => false

/-- An integer tensor without axes. -/
def ZIx.isZero : ZIx → Bool
  | .zero _ => true
  | _ => false

/-- The number of axes after torch's indexing: an int takes one away, a `None` adds one. -/
theorem torchSels_rank (k : Nat) (es : List Ix) (dims : List Nat) (sels : List Sel) (h : torchSels k dims es = .ok sels) :
    (selShape sels).length + es.countP (·.isInt) = dims.length + es.count .none ∧ specified es ≤ dims.length := by
  induction es generalizing dims sels with
  | nil =>
    rw [torchSels] at h
    obtain rfl := Except.ok.inj h
    rw [selShape_full]
    simp [specified]
  | cons e es ih =>
    by_cases hn : e = .none
    · subst hn
      rw [torchSels] at h
      obtain ⟨rest, hr, h⟩ := ok_of_bind h
      obtain rfl := Except.ok.inj h
      obtain ⟨h1, h2⟩ := ih _ _ hr
      rw [selShape, List.length_cons, List.countP_cons_of_neg (by simp [Ix.isInt]), List.count_cons_self]
      refine ⟨by omega, ?_⟩
      have : specified (.none :: es) = specified es := by simp [specified]
      omega
    by_cases hel : e = .ellipsis
    · subst hel
      rw [torchSels] at h
      obtain ⟨rest, hr, h⟩ := ok_of_bind h
      obtain rfl := Except.ok.inj h
      obtain ⟨h1, h2⟩ := ih _ _ hr
      have ha : ∀ (a : List Nat) (b : List Sel), (selShape (a.map fullSel ++ b)).length = a.length + (selShape b).length := by
        intro a b
        induction a with
        | nil => simp
        | cons n a ih => rw [List.map_cons, List.cons_append, fullSel, selShape, List.length_cons, List.length_cons, ih]; omega
      rw [ha, List.countP_cons_of_neg (by simp [Ix.isInt]), List.count_cons_of_ne (by simp)]
      simp only [List.length_drop, List.length_take] at *
      have : specified (.ellipsis :: es) = specified es := by simp [specified]
      omega
    · cases dims with
      | nil => cases e <;> first | exact absurd rfl hn | exact absurd rfl hel | simp [torchSels] at h
      | cons n dims =>
        have hu : torchSels k (n :: dims) (e :: es) = (do
            let s ← torchSel n e
            let rest ← torchSels k dims es
            .ok (s :: rest)) := by
          cases e <;> first | exact absurd rfl hn | exact absurd rfl hel | (rw [torchSels] <;> simp)
        rw [hu] at h
        obtain ⟨s, hs, h⟩ := ok_of_bind h
        obtain ⟨rest, hr, h⟩ := ok_of_bind h
        obtain rfl := Except.ok.inj h
        obtain ⟨h1, h2⟩ := ih _ _ hr
        rw [specified_cons_one ⟨hn, hel⟩, List.count_cons_of_ne hn, List.length_cons]
        refine ⟨?_, by omega⟩
        have hk : ∀ ps, s = .keep ps → e.isInt = false → (selShape (s :: rest)).length + (e :: es).countP (·.isInt) = dims.length + 1 + es.count .none := by
          intro ps hs he
          rw [hs, selShape, List.length_cons, List.countP_cons_of_neg (by simp [he])]
          omega
        cases e with
        | none => exact absurd rfl hn
        | ellipsis => exact absurd rfl hel
        | int i =>
          obtain ⟨p, -, hs⟩ := ok_of_bind hs
          obtain rfl := Except.ok.inj hs
          rw [selShape, List.countP_cons_of_pos (by simp [Ix.isInt])]
          omega
        | slice sl =>
          simp only [torchSel] at hs
          split at hs
          · simp at hs
          · obtain ⟨p, -, hs⟩ := ok_of_bind hs
            exact hk _ (Except.ok.inj hs).symm rfl
        | list is =>
          obtain ⟨p, -, hs⟩ := ok_of_bind hs
          exact hk _ (Except.ok.inj hs).symm rfl
        | ints is =>
          obtain ⟨p, -, hs⟩ := ok_of_bind hs
          exact hk _ (Except.ok.inj hs).symm rfl
        | mask bs =>
          simp only [torchSel] at hs
          split at hs
          · exact hk _ (Except.ok.inj hs).symm rfl
          · simp at hs

/-- The number of names that the loop over the entries collects. -/
theorem describeEntries_rank (names : List (Option String)) (es : List Ix) (hel : .ellipsis ∉ es) (i : Nat) (d : List Nat × List (Option String)) (h : describeEntries names i es = .ok d) :
    d.2.length + es.countP (·.isInt) = es.length := by
  induction es generalizing i d with
  | nil =>
    obtain rfl := Except.ok.inj h
    rfl
  | cons e es ih =>
    rw [describeEntries] at h
    obtain ⟨a, ha, h⟩ := ok_of_bind h
    obtain ⟨r, hr, h⟩ := ok_of_bind h
    obtain rfl := Except.ok.inj h
    have h1 := ih (fun hh => hel (by simp [hh])) _ _ hr
    have hk : a.2.length = 1 → e.isInt = false → (a.2 ++ r.2).length + (e :: es).countP (·.isInt) = (e :: es).length := by
      intro h2 h3
      rw [List.length_append, List.countP_cons_of_neg (by simp [h3]), List.length_cons]
      omega
    cases e with
    | ellipsis => exact absurd List.mem_cons_self hel
    | none =>
      obtain rfl := Except.ok.inj ha
      exact hk rfl rfl
    | int j =>
      obtain rfl := Except.ok.inj ha
      rw [List.length_append, List.countP_cons_of_pos (by simp [Ix.isInt]), List.length_cons]
      simp
      omega
    | slice s =>
      obtain ⟨n, -, ha⟩ := ok_of_bind ha
      obtain rfl := Except.ok.inj ha
      exact hk rfl rfl
    | list is =>
      obtain ⟨n, -, ha⟩ := ok_of_bind ha
      obtain rfl := Except.ok.inj ha
      exact hk rfl rfl
    | ints is =>
      obtain ⟨n, -, ha⟩ := ok_of_bind ha
      obtain rfl := Except.ok.inj ha
      exact hk rfl rfl
    | mask bs =>
      obtain ⟨n, -, ha⟩ := ok_of_bind ha
      obtain rfl := Except.ok.inj ha
      exact hk rfl rfl

theorem length_specified (es : List Ix) (hel : .ellipsis ∉ es) : es.length = specified es + es.count .none := by
  induction es with
  | nil => rfl
  | cons e es ih =>
    have h1 := ih (fun hh => hel (by simp [hh]))
    have he : e ≠ .ellipsis := fun hh => hel (by simp [hh])
    by_cases hn : e = .none
    · subst hn
      have : specified (.none :: es) = specified es := by simp [specified]
      rw [List.length_cons, List.count_cons_self]
      omega
    · rw [List.length_cons, specified_cons_one ⟨hn, he⟩, List.count_cons_of_ne hn]
      omega

/-- The number of names of the description of a tuple with at most one Ellipsis. -/
theorem describeTuple_rank (names : List (Option String)) (es : List Ix) (hel : es.count .ellipsis ≤ 1) (hs : specified es ≤ names.length) (d : Desc) (h : describeTuple names es = .ok d) :
    d.names.length + es.countP (·.isInt) = names.length + es.count .none := by
  have key : ∀ es', .ellipsis ∉ es' → specified es' ≤ names.length → es'.countP (·.isInt) = es.countP (·.isInt) → es'.count .none = es.count .none → replaceEllipsis es names.length = .ok es' →
      d.names.length + es.countP (·.isInt) = names.length + es.count .none := by
    intro es' h1 h2 h3 h4 h5
    unfold describeTuple at h
    rw [h5, Except.bind_ok'] at h
    obtain ⟨a, ha, h⟩ := ok_of_bind h
    have h6 := describeEntries_rank names es' h1 0 a ha
    have h7 := length_specified es' h1
    split at h
    · cases h
    · obtain rfl := Except.ok.inj h
      have hnum : numIndexed es' = specified es' := numIndexed_eq h1
      simp only [hnum]
      split
      · rw [List.length_append, List.length_drop]
        omega
      · omega
  by_cases hm : .ellipsis ∈ es
  · obtain ⟨pre, post, rfl⟩ := List.append_of_mem hm
    rw [List.count_append, List.count_cons_self] at hel
    have hpre : .ellipsis ∉ pre := by
      intro hh
      have := List.count_pos_iff.2 hh
      omega
    have hpost : .ellipsis ∉ post := by
      intro hh
      have := List.count_pos_iff.2 hh
      omega
    have hspec : specified (pre ++ .ellipsis :: post) = specified (pre ++ post) := by
      rw [show pre ++ Ix.ellipsis :: post = pre ++ ([Ix.ellipsis] ++ post) from rfl, specified_append, specified_append, specified_append]
      have : specified [Ix.ellipsis] = 0 := by decide
      omega
    have hrep : ∀ (k : Nat), specified (List.replicate k (.slice {})) = k := by
      intro k
      induction k with
      | zero => rfl
      | succ k ih => rw [List.replicate_succ, specified_cons_one (by decide), ih]
    refine key _ ?_ ?_ ?_ ?_ (replaceEllipsis_one pre post hpre hpost names.length)
    · simp only [List.mem_append, List.mem_replicate, not_or]
      exact ⟨hpre, by simp, hpost⟩
    · rw [specified_append, specified_append, hrep, specified_append]
      rw [hspec, specified_append] at hs
      omega
    · rw [List.countP_append, List.countP_append, List.countP_append, List.countP_cons_of_neg (by simp [Ix.isInt]), List.countP_replicate]
      simp [Ix.isInt]
    · rw [List.count_append, List.count_append, List.count_append, List.count_cons_of_ne (by simp), List.count_replicate]
      simp
  · exact key es hm hs rfl rfl (by unfold replaceEllipsis; rw [if_pos hm])

theorem countP_zero (es : List ZIx) : (es.map ZIx.torch).countP (·.isInt) = (es.map ZIx.code).countP (·.isInt) + es.countP (·.isZero) := by
  induction es with
  | nil => rfl
  | cons e es ih =>
    rw [List.map_cons, List.map_cons, List.countP_cons, List.countP_cons, List.countP_cons, ih]
    cases e with
    | ix e =>
      show _ + (if e.isInt then 1 else 0) = _ + (if e.isInt then 1 else 0) + (_ + 0)
      omega
    | zero i =>
      show _ + 1 = _ + 0 + (_ + 1)
      omega

theorem specified_cons (e : Ix) (es : List Ix) : specified (e :: es) = specified [e] + specified es := specified_append [e] es

theorem count_none_zero (es : List ZIx) : (es.map ZIx.torch).count .none = (es.map ZIx.code).count .none ∧ specified (es.map ZIx.torch) = specified (es.map ZIx.code) := by
  induction es with
  | nil => exact ⟨rfl, rfl⟩
  | cons e es ih =>
    rw [List.map_cons, List.map_cons, List.count_cons, List.count_cons, ih.1, specified_cons, specified_cons e.code, ih.2]
    cases e with
    | ix e => exact ⟨rfl, rfl⟩
    | zero i => exact ⟨rfl, rfl⟩

/-- **C188, refusals.** An index that contains an integer tensor without axes, alone or in a tuple with at most one Ellipsis, never gives a wrong result, because it never gives a result: when torch accepts the index, the description has one name too
many for each such entry, and RuntimeError is raised. Missing: the same result as with the int, which the code does not give (`C188_scalar_false`). -/
theorem C188_refused_partial (junk : Int) (x : STen α) (b l : Nat) (hx : x.Describes b l) (top : ZTop)
    (hz : (∃ i, top = .bare (.zero i)) ∨ ∃ es, top = .tup es ∧ (es.map ZIx.code).count .ellipsis ≤ 1 ∧ ∃ i, .zero i ∈ es) (t : Ten α) (ht : torchGetitem x.t.unnamed top.torch = .ok t)
    (d : Desc) (hd : describe x.t.names top.code = .ok d) : getitemZ junk x top = .error .runtimeError := by
  have hll : x.t.names.length = x.t.shape.length := hx.wf.1
  have hb : nameIndex x.t.names BATCH = .ok b := nameIndex_of hx.wf.2.1 hx.batch
  have hl : nameIndex x.t.names LENGTH = .ok l := nameIndex_of hx.wf.2.1 hx.length
  have hlen : t.ndim < d.names.length := by
    unfold torchGetitem at ht
    obtain ⟨sels, hs, ht⟩ := ok_of_bind ht
    obtain rfl := Except.ok.inj ht
    obtain ⟨h1, h2⟩ := torchSels_rank _ _ _ _ hs
    change (selShape sels).length < _
    change (selShape sels).length + _ = x.t.shape.length + _ at h1
    change _ ≤ x.t.shape.length at h2
    rcases hz with ⟨i, rfl⟩ | ⟨es, rfl, he, i, hi⟩
    · obtain rfl := Except.ok.inj hd
      simp [ZTop.torch, Top.entries, ZIx.torch, Ix.isInt] at h1
      show _ < x.t.names.length
      omega
    · have h3 := countP_zero es
      obtain ⟨h4, h5⟩ := count_none_zero es
      have h6 : 0 < es.countP (·.isZero) := List.countP_pos_iff.2 ⟨_, hi, rfl⟩
      have h7 := describeTuple_rank x.t.names (es.map ZIx.code) he (by rw [← h5, hll]; exact h2) d hd
      simp only [ZTop.torch, Top.entries] at h1
      omega
  unfold getitemZ
  rw [ht, Except.bind_ok', hd, Except.bind_ok', hb, Except.bind_ok', hl, Except.bind_ok']
  have hr : t.refine d.names = .error .runtimeError := by
    unfold Ten.refine
    rw [if_neg (by omega)]
  simp only [hr, Except.bind_error', ite_self]

/-- **C188, refusals, without assumptions on the rest.** Such an index always raises an exception. Missing: as above. -/
theorem C188_never_partial (junk : Int) (x : STen α) (b l : Nat) (hx : x.Describes b l) (top : ZTop)
    (hz : (∃ i, top = .bare (.zero i)) ∨ ∃ es, top = .tup es ∧ (es.map ZIx.code).count .ellipsis ≤ 1 ∧ ∃ i, .zero i ∈ es) : ∃ e, getitemZ junk x top = .error e := by
  cases ht : torchGetitem x.t.unnamed top.torch with
  | error e => exact ⟨e, by unfold getitemZ; rw [ht, Except.bind_error']⟩
  | ok t =>
    cases hd : describe x.t.names top.code with
    | error e => exact ⟨e, by unfold getitemZ; rw [ht, Except.bind_ok', hd, Except.bind_error']⟩
    | ok d => exact ⟨_, C188_refused_partial junk x b l hx top hz t ht d hd⟩

/-- **C188, other indices.** Without such an entry the index does what `C41`-`C44` say. Missing: as above. -/
theorem C188_others_partial (junk : Int) (x : STen α) (es : List Ix) (e : Ix) : getitemZ junk x (.tup (es.map .ix)) = getitem junk x (.tup es) ∧ getitemZ junk x (.bare (.ix e)) = getitem junk x (.bare e) := by
  have h1 : (es.map ZIx.ix).map ZIx.torch = es := by rw [List.map_map]; exact List.map_id es
  have h2 : (es.map ZIx.ix).map ZIx.code = es := by rw [List.map_map]; exact List.map_id es
  refine ⟨?_, rfl⟩
  unfold getitemZ ZTop.torch ZTop.code
  simp only [h1, h2]
  rfl

/-- Second row, all features, last frame. -/
example : ∃ x : STen (List Nat), x.Describes 0 2 ∧ (∃ t, torchGetitem x.t.unnamed (ZTop.tup [.zero 1, .ix .ellipsis, .ix (.int (-1))]).torch = .ok t) ∧
    ∃ d, describe x.t.names (ZTop.tup [.zero 1, .ix .ellipsis, .ix (.int (-1))]).code = .ok d := ⟨_, exBFL_describes, ⟨_, rfl⟩, _, rfl⟩

end DS.Tn
