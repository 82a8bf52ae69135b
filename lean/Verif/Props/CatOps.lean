import Verif.Props.Recouple
import Verif.Props.CatBatch
import Verif.Props.CatLength
/-! # C31, C32, C33, C48: concatenating and unbinding StreamTensors -/

namespace DS.Tn
open Meta

variable {α : Type}

/-! ## C48 -/

/-- **C48**, length axis: ValueError, for every spelling of the axis. -/
theorem C48_unbind_length (x : STen α) (b l : Nat) (hx : x.Describes b l) (d : Int) (hd : posOf x.t.ndim d = some l) :
    unbind x d = .error .valueError := by
  unfold unbind
  have hl : x.t.names.length = x.t.ndim := hx.wf.1
  rw [pyGet_names (by rw [hl]; exact hd) _ hx.length, Except.bind_ok', if_pos rfl]

theorem zipStream_length (ts : List (Ten α)) (ms : List Meta) (h : ts.length = ms.length) : (zipStream ts ms).length = ts.length := by
  induction ts generalizing ms with
  | nil => cases ms <;> simp_all [zipStream]
  | cons t ts ih =>
    cases ms with
    | nil => simp at h
    | cons m ms => simp [zipStream, ih ms (by simpa using h)]

theorem zipStream_get (ts : List (Ten α)) (ms : List Meta) (i : Nat) (y : STen α) :
    (zipStream ts ms)[i]? = some y ↔ ts[i]? = some y.t ∧ ms[i]? = some y.md := by
  induction ts generalizing ms i with
  | nil => cases ms <;> simp [zipStream]
  | cons t ts ih =>
    cases ms with
    | nil => simp [zipStream]
    | cons m ms =>
      cases i with
      | zero =>
        simp only [zipStream, List.getElem?_cons_zero, Option.some.injEq]
        constructor
        · rintro rfl; exact ⟨rfl, rfl⟩
        · rintro ⟨rfl, rfl⟩; rfl
      | succ i => simp only [zipStream, List.getElem?_cons_succ]; exact ih ms i

theorem unbindBatch_spec (m : Meta) (hm : m.WF) : ∃ ps, m.unbindBatch = .ok ps ∧ ps.length = m.ids.length ∧
    ∀ (i : Nat) (p : Meta), ps[i]? = some p → p.WF ∧ m.Selects [i] p := by
  exact C18_unbind m hm

/-- **C48**, batch axis: one tensor per row, in order, holding that row's metadata and that row's data; the batch axis is gone from the
names. -/
theorem C48_unbind_batch (x : STen α) (b l : Nat) (hx : x.Describes b l) (d : Int) (hd : posOf x.t.ndim d = some b) :
    ∃ ys, unbind x d = .ok ys ∧ ys.length = x.md.ids.length ∧ ∀ (i : Nat) (y : STen α), ys[i]? = some y →
      x.md.Selects [i] y.md ∧ y.t.names = x.t.names.eraseIdx b ∧ y.t.shape = x.t.shape.eraseIdx b ∧
      ∀ ix : List Nat, ix[b]? = some i → y.t.val (ix.eraseIdx b) = x.t.val ix := by
  have hl : x.t.names.length = x.t.ndim := hx.wf.1
  obtain ⟨ps, e, hlen, hps⟩ := unbindBatch_spec x.md hx.mdwf
  have hlt : (x.t.unbind b).length = x.md.ids.length := by
    unfold Ten.unbind
    rw [List.length_map, List.length_range, List.getD_eq_getElem?_getD, hx.rows, Option.getD_some]
  refine ⟨zipStream (x.t.unbind b) ps, ?_, ?_, ?_⟩
  · unfold unbind
    rw [pyGet_names (by rw [hl]; exact hd) _ hx.batch, Except.bind_ok', if_neg (by decide), normDim_ok hd, Except.bind_ok', if_pos rfl,
      e, Except.bind_ok', if_neg (by rw [hlt, hlen]; simp)]
  · rw [zipStream_length _ _ (by rw [hlt, hlen]), hlt]
  · intro i y hy
    rw [zipStream_get] at hy
    refine ⟨(hps i _ hy.2).2, ?_⟩
    have h1 := hy.1
    unfold Ten.unbind at h1
    rw [List.getElem?_map] at h1
    simp only [Option.map_eq_some_iff] at h1
    obtain ⟨j, hj, h1⟩ := h1
    have hj' : j = i := by
      obtain ⟨hlt, hj⟩ := List.getElem?_eq_some_iff.1 hj
      simpa using hj.symm
    subst hj'
    rw [← h1]
    refine ⟨rfl, rfl, ?_⟩
    intro ix hix
    show x.t.val _ = _
    obtain ⟨hlt, h0⟩ := List.getElem?_eq_some_iff.1 hix
    rw [← h0, insertIdx_eraseIdx' ix b hlt]
where
  /-- putting an entry back -/
  insertIdx_eraseIdx' {β : Type} (xs : List β) (a : Nat) (h : a < xs.length) : (xs.eraseIdx a).insertIdx a xs[a] = xs := by
    induction xs generalizing a with
    | nil => simp at h
    | cons x xs ih =>
      cases a with
      | zero => simp
      | succ a => simp; exact ih a (by simpa using h)

/-- **C48**, any other axis: one tensor per position, each with the whole metadata. -/
theorem C48_unbind_other (x : STen α) (b l : Nat) (hx : x.Describes b l) (d : Int) (a : Nat) (hd : posOf x.t.ndim d = some a) (hb : a ≠ b) (hl : a ≠ l) :
    unbind x d = .ok ((List.range (x.t.shape.getD a 0)).map fun i => ⟨x.t.pickAt a i, x.md⟩) := by
  have hll : x.t.names.length = x.t.ndim := hx.wf.1
  have ha := posOf_lt hd
  have hn : ∀ (s : String) (c : Nat), x.t.names[c]? = some (some s) → a ≠ c → x.t.names[a]? ≠ some (some s) := by
    intro s c hc hne h
    have h1 := nameIndex_of hx.wf.2.1 hc
    have h2 := nameIndex_of hx.wf.2.1 h
    rw [h1] at h2
    exact hne (Except.ok.inj h2).symm
  have hget : x.t.names[a]? = some (x.t.names[a]'(by omega)) := List.getElem?_eq_getElem _
  unfold unbind
  rw [pyGet_names (by rw [hll]; exact hd) _ hget, Except.bind_ok', if_neg, normDim_ok hd, Except.bind_ok', if_neg]
  · unfold Ten.unbind; rw [List.map_map]; rfl
  · intro h; rw [h] at hget; exact hn "B" b hx.batch hb hget
  · intro h; rw [h] at hget; exact hn "L" l hx.length hl hget

example : ∃ x : STen (List Nat), x.Describes 0 2 ∧ posOf x.t.ndim (-3) = some 0 ∧ posOf x.t.ndim 2 = some 2 ∧ posOf x.t.ndim (-2) = some 1 :=
  ⟨_, exBFL_describes, rfl, rfl, rfl⟩

/-! ## Concatenation of data -/

/-- Where operand `k` begins on axis `a` of a concatenation. -/
def offset (a k : Nat) (ts : List (Ten α)) : Nat := ((ts.take k).map fun u => u.shape.getD a 0).sum

theorem catVal_at (a : Nat) (t : Ten α) (ts : List (Ten α)) (k : Nat) (u : Ten α) (hu : (t :: ts)[k]? = some u) (ix : List Nat) (i : Nat)
    (hi : ix.getD a 0 = offset a k (t :: ts) + i) (hlt : i < u.shape.getD a 0) :
    catVal a t ts ix = u.val (ix.modify a (· - offset a k (t :: ts))) := by
  induction ts generalizing t k ix with
  | nil =>
    cases k with
    | zero =>
      simp at hu; subst hu
      simp [catVal, offset]
      congr 1
      exact (List.modify_id a ix).symm
    | succ k => simp at hu
  | cons s ts ih =>
    cases k with
    | zero =>
      simp at hu; subst hu
      have h0 : offset a 0 (t :: s :: ts) = 0 := rfl
      rw [h0, Nat.zero_add] at hi
      unfold catVal
      rw [if_pos (by omega), h0]
      congr 1
      exact (List.modify_id a ix).symm
    | succ k =>
      have hoff : offset a (k + 1) (t :: s :: ts) = t.shape.getD a 0 + offset a k (s :: ts) := by simp [offset]
      rw [hoff] at hi ⊢
      unfold catVal
      rw [if_neg (by omega), ih s k (by simpa using hu) (ix.modify a (· - t.shape.getD a 0)) (by
        rw [List.getD_eq_getElem?_getD] at hi ⊢
        rw [List.getElem?_modify_eq]
        cases h : ix[a]? with
        | none => rw [h] at hi; simp at hi ⊢; omega
        | some v => rw [h] at hi; simp at hi ⊢; omega)]
      congr 1
      apply List.ext_getElem?
      intro j
      simp only [List.getElem?_modify]
      cases ix[j]? with
      | none => simp
      | some v => by_cases e : a = j <;> simp [e]; omega

/-- Operand `k` of a concatenation is found at its offset. -/
theorem catVal_set (a : Nat) (t : Ten α) (ts : List (Ten α)) (k : Nat) (u : Ten α) (hu : (t :: ts)[k]? = some u) (ix : List Nat) (ha : a < ix.length)
    (i : Nat) (hlt : i < u.shape.getD a 0) : catVal a t ts (ix.set a (offset a k (t :: ts) + i)) = u.val (ix.set a i) := by
  rw [catVal_at a t ts k u hu _ i (by simp [List.getD_eq_getElem?_getD, ha]) hlt]
  congr 1
  apply List.ext_getElem?
  intro j
  rw [List.getElem?_modify, List.getElem?_set, List.getElem?_set]
  by_cases e : a = j
  · subst e; simp [ha]
  · simp [e]

theorem unifyName_self (n : Option String) : unifyName n n = .ok n := by
  cases n <;> simp [unifyName]

theorem unifyNames_self (ns : List (Option String)) : unifyNames ns ns = .ok ns := by
  induction ns with
  | nil => rfl
  | cons n ns ih => simp [unifyNames, unifyName_self, ih, Except.bind_ok']

theorem unifyAll_self (ns : List (Option String)) (ts : List (Ten α)) (h : ∀ t ∈ ts, t.names = ns) : unifyAll ns ts = .ok ns := by
  induction ts with
  | nil => rfl
  | cons t ts ih => rw [unifyAll, h t (by simp), unifyNames_self, Except.bind_ok', ih (fun u hu => h u (by simp [hu]))]

theorem streams_map (xs : List (STen α)) : streams (xs.map .stream) = xs := by
  induction xs with
  | nil => rfl
  | cons x xs ih => simp [streams, ih]

theorem allStream_map (xs : List (STen α)) : allStream (xs.map .stream) = some xs := by
  induction xs with
  | nil => rfl
  | cons x xs ih => simp [allStream, ih]

theorem dimIs_ok (name : Option String) (d : Int) (a : Nat) (xs : List (STen α)) (h : ∀ x ∈ xs, x.t.WF ∧ posOf x.t.ndim d = some a) :
    dimIs name d xs = .ok (xs.map fun x => decide (x.t.names[a]? = some name)) := by
  induction xs with
  | nil => rfl
  | cons x xs ih =>
    obtain ⟨hw, hp⟩ := h x (by simp)
    have hl : x.t.names.length = x.t.ndim := hw.1
    have ha := posOf_lt hp
    have hget : x.t.names[a]? = some (x.t.names[a]'(by omega)) := List.getElem?_eq_getElem _
    rw [dimIs, pyGet_names (by rw [hl]; exact hp) _ hget, Except.bind_ok', ih (fun y hy => h y (by simp [hy])), Except.bind_ok']
    rw [List.map_cons, hget]
    simp

/-! ## C33 -/

/-- **C33.** Two or more StreamTensors with equal names and equal sizes on all axes but batch, concatenated along batch (any spelling of the axis): the result has the
operands' metadata rows in order, the operands' names, a batch axis of the summed sizes, and the data of each operand at its offset. -/
theorem C33_cat_batch (x : STen α) (xs : List (STen α)) (hne : xs ≠ []) (b l : Nat) (hd : ∀ y ∈ x :: xs, y.Describes b l)
    (hn : ∀ y ∈ xs, y.t.names = x.t.names) (hs : ∀ y ∈ xs, y.t.shape.eraseIdx b = x.t.shape.eraseIdx b) (d : Int)
    (hpos : posOf x.t.ndim d = some b) :
    ∃ y, cat (.stream x) (xs.map .stream) d = .ok (.stream y) ∧ y.md.rows = catRows ((x :: xs).map (·.md)) ∧ y.md.WF ∧
      y.t.names = x.t.names ∧ y.t.shape = x.t.shape.set b ((x :: xs).map fun z => z.md.ids.length).sum ∧
      ∀ (k : Nat) (z : STen α), (x :: xs)[k]? = some z → ∀ ix : List Nat, ix.length = x.t.ndim → ∀ i, i < z.md.ids.length →
        y.t.val (ix.set b ((((x :: xs).take k).map fun z => z.md.ids.length).sum + i)) = z.t.val (ix.set b i) := by
  have hlen : ∀ y ∈ xs, y.t.shape.length = x.t.shape.length := by
    intro y hy
    have h1 := (hd y (by simp [hy])).wf.1
    have h2 := (hd x (by simp)).wf.1
    rw [← h1, ← h2, hn y hy]
  have hblt := posOf_lt hpos
  obtain ⟨m, e, hm, hrows, -⟩ := C16_cat_batch ((x :: xs).map (·.md)) (by simp) (by
    intro m hm
    obtain ⟨y, hy, rfl⟩ := List.mem_map.1 hm
    exact (hd y hy).mdwf)
  have hsz : ∀ y ∈ x :: xs, y.t.shape.getD b 0 = y.md.ids.length := by
    intro y hy
    rw [List.getD_eq_getElem?_getD, (hd y hy).rows, Option.getD_some]
  have hmap : (x.t :: xs.map (·.t)).map (fun u => u.shape.getD b 0) = (x :: xs).map fun z => z.md.ids.length := by
    rw [← List.map_cons (f := fun z : STen α => z.t), List.map_map]
    exact List.map_congr_left (fun y hy => hsz y hy)
  have hten : catTen x.t (xs.map (·.t)) d = .ok
      { shape := x.t.shape.set b ((x :: xs).map fun z => z.md.ids.length).sum, names := x.t.names, val := catVal b x.t (xs.map (·.t)) } := by
    unfold catTen
    rw [normDim_ok hpos, Except.bind_ok', if_pos, unifyAll_self _ _ (by simpa using hn), Except.bind_ok',
      if_pos ((namesOK_iff _).2 (hd x (by simp)).wf.2), hmap]
    simp only [List.all_map, List.all_eq_true, Function.comp_apply, decide_eq_true_eq]
    exact fun y hy => ⟨hlen y hy, hs y hy⟩
  refine ⟨⟨{ shape := x.t.shape.set b ((x :: xs).map fun z => z.md.ids.length).sum, names := x.t.names, val := catVal b x.t (xs.map (·.t)) }, m⟩,
    ?_, hrows, hm, rfl, rfl, ?_⟩
  · have hst : streams (Opd.stream x :: xs.map .stream) = x :: xs := streams_map (x :: xs)
    have hdim := dimIs_ok BATCH d b (x :: xs) (fun y hy => ⟨(hd y hy).wf, by
      rcases List.mem_cons.1 hy with rfl | h
      · exact hpos
      · show posOf y.t.shape.length d = _
        rw [hlen y h]; exact hpos⟩)
    have hstep : cat (.stream x) (xs.map .stream) d = catBatchDim (.stream x) (xs.map .stream) d := by
      cases xs with
      | nil => exact absurd rfl hne
      | cons z zs =>
        unfold cat
        simp only [List.map_cons] at hst ⊢
        rw [hst, hdim, Except.bind_ok', if_pos]
        simp [(hd x (by simp)).batch]
    rw [hstep]
    unfold catBatchDim
    rw [show allStream (Opd.stream x :: xs.map .stream) = some (x :: xs) from allStream_map (x :: xs)]
    simp only [List.map_map]
    have hcomp : (Opd.ten ∘ Opd.stream : STen α → Ten α) = (·.t) := rfl
    rw [hcomp]
    simp only [Opd.ten, hten, Except.bind_ok', e]
  · intro k z hz ix hix i hi
    have hz' : (x.t :: xs.map (·.t))[k]? = some z.t := by
      rw [← List.map_cons (f := fun z : STen α => z.t), List.getElem?_map, hz]; rfl
    have hmem := List.mem_of_getElem? hz
    have := catVal_set b x.t (xs.map (·.t)) k z.t hz' ix (by omega) i (by rw [hsz z hmem]; exact hi)
    have hoff : offset b k (x.t :: xs.map (·.t)) = (((x :: xs).take k).map fun z => z.md.ids.length).sum := by
      unfold offset
      rw [List.map_take, hmap, List.map_take]
    rw [hoff] at this
    exact this

/-- **C33**, a single operand: the operand itself, along any axis. -/
theorem C33_cat_single (o : Opd α) (d : Int) : cat o [] d = .ok o := rfl

/-- **C33**, plain operands: a plain tensor among the operands raises ValueError when some StreamTensor operand has batch on the axis. -/
theorem C33_cat_batch_plain (o : Opd α) (os : List (Opd α)) (hne : os ≠ []) (d : Int) (b : Nat) (t : Ten α) (ht : .plain t ∈ o :: os)
    (hw : ∀ x ∈ streams (o :: os), x.t.WF ∧ posOf x.t.ndim d = some b) (hb : ∃ x ∈ streams (o :: os), x.t.names[b]? = some BATCH) :
    cat o os d = .error .valueError := by
  have hall : ∀ os : List (Opd α), .plain t ∈ os → allStream os = none := by
    intro os
    induction os with
    | nil => simp
    | cons p os ih =>
      intro h
      cases p with
      | plain u => rfl
      | stream x =>
        simp only [allStream]
        rw [ih (by simpa using h)]; rfl
  have hstep : cat o os d = catBatchDim o os d := by
    cases os with
    | nil => exact absurd rfl hne
    | cons z zs =>
      unfold cat
      simp only []
      rw [dimIs_ok BATCH d b _ hw, Except.bind_ok', if_pos]
      simpa using hb
  rw [hstep]
  unfold catBatchDim
  rw [hall _ ht]

example : ∃ x : STen (List Nat), x.Describes 0 2 ∧ posOf x.t.ndim (-3) = some 0 ∧
    ∃ y, cat (.stream x) [.stream x] (-3) = .ok (.stream y) ∧ y.md.ids = ["a", "b", "a", "b"] ∧ y.t.shape = [4, 4, 3] ∧ y.t.val [3, 1, 2] = [1, 1, 2] :=
  ⟨_, exBFL_describes, rfl, _, rfl, rfl, rfl, rfl⟩

/-! ## C32 -/

/-- **C32 is false of the code.** The last operand is never compared: with two operands, completely different metadata are accepted. -/
theorem C32_cat_feature_false : ∃ y, cat (.stream ⟨exT [2, 4, 3] [some "B", some "F", some "L"], exM2⟩)
    [.stream ⟨exT [2, 4, 3] [some "B", some "F", some "L"], exM2'⟩] 1 = .ok (.stream y) ∧ y.md = exM2 ∧ exM2 ≠ exM2' := ⟨_, rfl, rfl, by decide⟩

/-- With chunk indices that differ from the lengths, equal metadata are refused. -/
theorem C32_cat_feature_self_false : cat (.stream ⟨exT [2, 4, 3] [some "B", some "F", some "L"], exM2c⟩)
    [.stream ⟨exT [2, 4, 3] [some "B", some "F", some "L"], exM2c⟩] 1 = .error .valueError := rfl

theorem metaChecks_noChunk (m : Meta) (xs : List (STen α)) (h : ∀ x ∈ xs, x.md.chunk = none) :
    metaChecks m (xs.map .stream) = if ∀ x ∈ xs, x.md = m then .ok () else .error .attributeError := by
  induction xs with
  | nil => rfl
  | cons x xs ih =>
    rw [List.map_cons, metaChecks, metaCheck, eqMeta_noChunk (h x (by simp))]
    by_cases e : x.md = m
    · rw [if_pos e, Except.bind_ok', if_pos rfl, Except.bind_ok', ih (fun y hy => h y (by simp [hy]))]
      simp [e]
    · rw [if_neg e, if_neg (by simp [e])]; rfl

/-- **C32, the part that holds.** Two or more StreamTensors without chunk indices, along an axis that is batch or length of none of them: if some operand other than the last has other
metadata than the first, AttributeError is raised (before the data are touched); otherwise the call is torch's concatenation with the first's
metadata. Missing: the last operand's metadata are not checked; chunk indices (`C32_cat_feature_exact_partial`). -/
theorem C32_cat_feature_partial (x : STen α) (xs : List (STen α)) (hne : xs ≠ []) (d : Int) (a : Nat)
    (hw : ∀ y ∈ x :: xs, y.t.WF ∧ posOf y.t.ndim d = some a ∧ y.t.names[a]? ≠ some BATCH ∧ y.t.names[a]? ≠ some LENGTH)
    (hc : ∀ y ∈ x :: xs, y.md.chunk = none) :
    ((∃ y ∈ xs.dropLast, y.md ≠ x.md) → cat (.stream x) (xs.map .stream) d = .error .attributeError) ∧
    ((∀ y ∈ xs.dropLast, y.md = x.md) → cat (.stream x) (xs.map .stream) d =
      (catTen x.t (xs.map (·.t)) d).map fun t => .stream ⟨t, x.md⟩) := by
  have hst : streams (Opd.stream x :: xs.map .stream) = x :: xs := streams_map (x :: xs)
  have hstep : cat (.stream x) (xs.map .stream) d = catOther (.stream x) (xs.map .stream) d := by
    cases xs with
    | nil => exact absurd rfl hne
    | cons z zs =>
      unfold cat
      simp only [List.map_cons] at hst ⊢
      rw [hst, dimIs_ok BATCH d a _ (fun y hy => ⟨(hw y hy).1, (hw y hy).2.1⟩), Except.bind_ok', if_neg,
        dimIs_ok LENGTH d a _ (fun y hy => ⟨(hw y hy).1, (hw y hy).2.1⟩), Except.bind_ok', if_neg]
      · simp only [List.any_map, List.any_eq_true, Function.comp_apply, id, decide_eq_true_eq, not_exists, not_and]
        exact fun y hy => (hw y hy).2.2.2
      · simp only [List.any_map, List.any_eq_true, Function.comp_apply, id, decide_eq_true_eq, not_exists, not_and]
        exact fun y hy => (hw y hy).2.2.1
  have hdl : (Opd.stream x :: xs.map Opd.stream).dropLast = ((x :: xs.dropLast).map .stream) := by
    rw [← List.map_cons, ← List.map_dropLast]
    cases xs with
    | nil => exact absurd rfl hne
    | cons z zs => rfl
  have hchk := metaChecks_noChunk (α := α) x.md (x :: xs.dropLast) (fun y hy => hc y (by
    rcases List.mem_cons.1 hy with rfl | h
    · simp
    · exact List.mem_cons_of_mem _ (List.dropLast_subset _ h)))
  rw [hstep]
  unfold catOther
  simp only [hdl, hchk]
  constructor
  · rintro ⟨y, hy, hne⟩
    rw [if_neg, Except.bind_error']
    intro h
    exact hne (h y (by simp [hy]))
  · intro h
    rw [if_pos (by simpa using h), Except.bind_ok', List.map_map]
    have hcomp : (Opd.ten ∘ Opd.stream : STen α → Ten α) = (·.t) := rfl
    rw [hcomp]
    simp only [Opd.ten]
    cases catTen x.t (xs.map (·.t)) d <;> rfl

example : (exT [2, 4, 3] [some "B", some "F", some "L"]).WF ∧ posOf 3 (-2) = some 1 ∧ exM2.chunk = none ∧ exM2'.chunk = none ∧ exM2' ≠ exM2 := by decide

theorem metaChecks_looks (m : Meta) (xs : List (STen α)) (h : ∀ x ∈ xs, Looks x.md m) : metaChecks m (xs.map .stream) = .ok () := by
  induction xs with
  | nil => rfl
  | cons x xs ih =>
    rw [List.map_cons, metaChecks, metaCheck, eqMeta_table, if_pos (h x (by simp)), Except.bind_ok', if_pos rfl, Except.bind_ok',
      ih (fun y hy => h y (by simp [hy]))]

theorem metaChecks_first (m : Meta) (pre : List (STen α)) (x : STen α) (post : List (STen α)) (h : ∀ y ∈ pre, Looks y.md m) (hx : ¬ Looks x.md m) :
    metaChecks m ((pre ++ x :: post).map .stream) = .error (if x.md.chunk = none then .attributeError else .valueError) := by
  induction pre with
  | nil =>
    rw [List.nil_append, List.map_cons, metaChecks, metaCheck, eqMeta_table, if_neg hx]
    split <;> rfl
  | cons y pre ih =>
    rw [List.cons_append, List.map_cons, metaChecks, metaCheck, eqMeta_table, if_pos (h y (by simp)), Except.bind_ok', if_pos rfl, Except.bind_ok',
      ih (fun z hz => h z (by simp [hz]))]

/-- **C32, exactly, for StreamTensors with or without chunk indices.** All operands but the last, the first included, are compared with the
first: if all pass (`Looks`) the call is torch's concatenation with the first's metadata; otherwise the first one that does not pass decides:
AttributeError without chunk indices, ValueError with. Missing: the last operand is not compared; with chunk indices, passing is not being
equal. -/
theorem C32_cat_feature_exact_partial (x : STen α) (xs : List (STen α)) (hne : xs ≠ []) (d : Int) (a : Nat)
    (hw : ∀ y ∈ x :: xs, y.t.WF ∧ posOf y.t.ndim d = some a ∧ y.t.names[a]? ≠ some BATCH ∧ y.t.names[a]? ≠ some LENGTH) :
    ((∀ y ∈ x :: xs.dropLast, Looks y.md x.md) → cat (.stream x) (xs.map .stream) d =
      (catTen x.t (xs.map (·.t)) d).map fun t => .stream ⟨t, x.md⟩) ∧
    (∀ pre y post, x :: xs.dropLast = pre ++ y :: post → (∀ z ∈ pre, Looks z.md x.md) → ¬ Looks y.md x.md →
      cat (.stream x) (xs.map .stream) d = .error (if y.md.chunk = none then .attributeError else .valueError)) := by
  have hst : streams (Opd.stream x :: xs.map .stream) = x :: xs := streams_map (x :: xs)
  have hstep : cat (.stream x) (xs.map .stream) d = catOther (.stream x) (xs.map .stream) d := by
    cases xs with
    | nil => exact absurd rfl hne
    | cons z zs =>
      unfold cat
      simp only [List.map_cons] at hst ⊢
      rw [hst, dimIs_ok BATCH d a _ (fun y hy => ⟨(hw y hy).1, (hw y hy).2.1⟩), Except.bind_ok', if_neg,
        dimIs_ok LENGTH d a _ (fun y hy => ⟨(hw y hy).1, (hw y hy).2.1⟩), Except.bind_ok', if_neg]
      · simp only [List.any_map, List.any_eq_true, Function.comp_apply, id, decide_eq_true_eq, not_exists, not_and]
        exact fun y hy => (hw y hy).2.2.2
      · simp only [List.any_map, List.any_eq_true, Function.comp_apply, id, decide_eq_true_eq, not_exists, not_and]
        exact fun y hy => (hw y hy).2.2.1
  have hdl : (Opd.stream x :: xs.map Opd.stream).dropLast = ((x :: xs.dropLast).map .stream) := by
    rw [← List.map_cons, ← List.map_dropLast]
    cases xs with
    | nil => exact absurd rfl hne
    | cons z zs => rfl
  rw [hstep]
  unfold catOther
  simp only [hdl]
  constructor
  · intro h
    rw [metaChecks_looks _ _ h, Except.bind_ok', List.map_map]
    have hcomp : (Opd.ten ∘ Opd.stream : STen α → Ten α) = (·.t) := rfl
    rw [hcomp]
    simp only [Opd.ten]
    cases catTen x.t (xs.map (·.t)) d <;> rfl
  · intro pre y post he hpre hy
    rw [he, metaChecks_first _ _ _ _ hpre hy]
    rfl

example : (exT [2, 4, 3] [some "B", some "F", some "L"]).WF ∧ posOf 3 (-2) = some 1 ∧ ¬ Looks exM2c exM2c ∧ Looks exM2d exM2 ∧
    (cat (.stream ⟨exT [2, 4, 3] [some "B", some "F", some "L"], exM2⟩) [.stream ⟨exT [2, 4, 3] [some "B", some "F", some "L"], exM2d⟩,
      .stream ⟨exT [2, 4, 3] [some "B", some "F", some "L"], exM2'⟩] 1).isOk = true := by
  refine ⟨by decide, by decide, by decide, by decide, rfl⟩

end DS.Tn
