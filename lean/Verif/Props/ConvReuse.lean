import Verif.Props.ConvMem
/-! C104: reusing the memory of a chunk after the call. -/

namespace DS.Conv
open Meta
section
variable {α β : Type} [Zero α] [Zero β]

/-- The StreamTensors that a program gives to the module. -/
def called : Memory α → List (Ev α) → List (ST α)
  | _, [] => []
  | mem, .write cell rows :: evs => called (fun k => if k = cell then rows else mem k) evs
  | mem, .call cell md width :: evs => { md, width, rows := mem cell } :: called mem evs

/-- No tensor is overwritten after the module has been called on it. -/
def NotReused : List (Ev α) → Prop
  | [] => True
  | .write _ _ :: evs => NotReused evs
  | .call cell _ _ :: evs => (∀ rows, Ev.write cell rows ∉ evs) ∧ NotReused evs

/-- A stream of two chunks through one piece of memory: `[1, 2, 3]`, then `[4, 5]`. -/
def exReuse : List (Ev Int) :=
  [.write 0 [[1, 2, 3]], .call 0 ⟨["a"], [true], [false], [3], none⟩ 3, .write 0 [[4, 5, 6]], .call 0 ⟨["a"], [false], [true], [3], none⟩ 3]

/-- **C104 is false of the code.** Without padding, the buffer is a view of the first chunk: writing the second chunk into the same memory replaces the buffered frame 3 by 6,
and the first output of the second call is 64 instead of 34. -/
theorem C104_reuse_false :
    ((memRun ⟨2, 1, 1, 0⟩ exG (fun _ => []) (fun _ => none) exReuse).map fun ys => ys.map (·.rows)) = .ok [[[12, 23]], [[64, 45, 56]]] ∧
    ((run ⟨2, 1, 1, 0⟩ exG (fun _ => none) (called (fun _ => []) exReuse)).map fun r => r.1.map (·.rows)) = .ok [[[12, 23]], [[34, 45, 56]]] := by decide

/-! ### Proof of what holds -/

theorem now_update (mem : Memory α) (items : List (String × Src α)) (b : SrcBuf α) :
    SrcBuf.now mem (items.foldl (fun b kv => fun i => if i = kv.1 then some kv.2 else b i) b) =
      update (b.now mem) (items.map fun kv => (kv.1, kv.2.frames mem)) := by
  induction items generalizing b with
  | nil => rfl
  | cons kv items ih =>
    rw [List.foldl_cons, ih, List.map_cons]
    show update _ _ = update (fun i => if i = kv.1 then some (kv.2.frames mem) else SrcBuf.now mem b i) _
    congr 1
    funext i
    simp only [SrcBuf.now]
    split <;> rfl

theorem now_drop (mem : Memory α) (xs : List (String × Bool)) (b : SrcBuf α) :
    SrcBuf.now mem (xs.foldl (fun b ie => if ie.2 then fun i => if i = ie.1 then none else b i else b) b) =
      xs.foldl (fun b ie => if ie.2 then fun i => if i = ie.1 then none else b i else b) (b.now mem) := by
  induction xs generalizing b with
  | nil => rfl
  | cons x xs ih =>
    rw [List.foldl_cons, List.foldl_cons, ih]
    congr 1
    cases x.2 with
    | false => rfl
    | true =>
      funext i
      simp only [SrcBuf.now, if_true]
      split <;> rfl

theorem now_post (mem : Memory α) (b : SrcBuf α) (m : Meta) (items : List (String × Src α)) :
    (postSrc b m items).now mem = postHook (b.now mem) m (items.map fun kv => (kv.1, kv.2.frames mem)) := by
  unfold postSrc postHook
  simp only
  split
  · rw [now_drop, now_update]
    rfl
  · rw [now_update]

theorem views_items (c : Cfg) (mem : Memory α) (cell : Nat) (ids : List String) (es : List Bool) (ls : List Int) (k : Nat) (rs : List (List α))
    (h : (mem cell).drop k = rs) (hr : rs.length = ids.length) :
    (bufViews c cell k ids es ls).map (fun kv => (kv.1, kv.2.frames mem)) = bufItems c ids es ls rs := by
  induction ids generalizing es ls k rs with
  | nil => simp [bufViews, bufItems]
  | cons i ids ih =>
    match es, ls, rs, hr with
    | [], _, r :: rs, _ => simp [bufViews, bufItems]
    | e :: es, [], r :: rs, _ => simp [bufViews, bufItems]
    | e :: es, l :: ls, r :: rs, hr =>
      have h1 : (mem cell).getD k [] = r := by
        have := congrArg (·[0]?) h
        simp only [List.getElem?_drop, List.getElem?_cons_zero, Nat.add_zero] at this
        simp [List.getD, this]
      have h2 : (mem cell).drop (k + 1) = rs := by
        have := congrArg (List.drop 1) h
        simpa [List.drop_drop] using this
      rw [bufViews, bufItems, List.map_append, ih es ls (k + 1) rs h2 (by simpa using hr)]
      congr 1
      unfold bufItem
      cases e with
      | true => rfl
      | false =>
        rw [List.getD_eq_getElem?_getD] at h1
        simp [Src.frames, h1]

theorem pre_shared (c : Cfg) (buf : Buf α) (x : ST α) (h : ¬ (c.kw > 1 ∧ x.md.allStarting = false)) : preHook c buf x = .ok (x, true) := by
  unfold preHook
  rw [if_neg h]

theorem alias_padding (c : Cfg) (hk : c.kw > 1) (x : ST α) (ha : aliases c x = true) (m : Meta) (p w : Nat) (rows : List (List α))
    (h : applyPadding c x = .ok (m, p, w, rows)) : m.lengths = viewLengths c x.md ∧ rows = x.rows := by
  unfold aliases at ha
  split at ha
  · simp at ha
  · rename_i hns
    have hst : x.md.allStarting = true := by
      cases e : x.md.allStarting with
      | true => rfl
      | false => exact absurd ⟨hk, e⟩ hns
    unfold applyPadding at h
    unfold viewLengths
    split at h
    · rename_i hp
      simp only [hp, if_true] at ha ⊢
      simp only at h
      split at h
      · simp only [Except.ok.injEq, Prod.mk.injEq] at h
        exact ⟨by rw [← h.1], h.2.2.2.symm⟩
      · rename_i hse
        rw [if_neg hse] at ha
        obtain ⟨ml, hml, h⟩ := bind_ok_iff h
        obtain ⟨⟨w1, r1⟩, hw, h⟩ := bind_ok_iff h
        simp only [Except.ok.injEq, Prod.mk.injEq] at h
        rw [hml] at ha
        simp only [decide_eq_true_eq] at ha
        unfold widen at hw
        simp only at hw
        rw [if_neg (by omega)] at hw
        simp only [Except.ok.injEq, Prod.mk.injEq] at hw
        refine ⟨by rw [← h.1], ?_⟩
        rw [← h.2.2.2, ← hw.2]
        unfold shiftStarting
        rw [if_neg]
        have : Meta.allStarting { x.md with lengths := padLengths c.padding x.md } = true := hst
        simp [this]
    · rename_i hp
      simp only [Except.ok.injEq, Prod.mk.injEq] at h
      rw [if_neg hp]
      exact ⟨by rw [← h.1], h.2.2.2.symm⟩

/-- The new entries show the frames that `forward` puts into its buffer. -/
theorem src_items (c : Cfg) (hk : c.kw > 1) (g : List α → β) (mem : Memory α) (cell : Nat) (buf : Buf α) (x x' : ST α) (s : Bool) (y : ST β)
    (items : List (String × List α)) (hm : x.rows = mem cell) (hx : Rectangular x) (h1 : preHook c buf x = .ok (x', s))
    (h2 : conv1d c g x' = .ok (y, items)) : (srcItems c cell x items).map (fun kv => (kv.1, kv.2.frames mem)) = items := by
  unfold srcItems
  split
  · rename_i ha
    have hns : ¬ (c.kw > 1 ∧ x.md.allStarting = false) := by
      intro hc
      unfold aliases at ha
      rw [if_pos hc] at ha
      simp at ha
    rw [pre_shared c buf x hns] at h1
    simp only [Except.ok.injEq, Prod.mk.injEq] at h1
    obtain ⟨rfl, -⟩ := h1
    unfold conv1d at h2
    obtain ⟨⟨m, p, w, rows⟩, e3, e2⟩ := bind_ok_iff h2
    obtain ⟨⟨n, ys⟩, -, e2⟩ := bind_ok_iff e2
    simp only [Except.ok.injEq, Prod.mk.injEq] at e2
    obtain ⟨m1, m2, m3, -⟩ := applyPadding_md e3
    obtain ⟨l1, l2⟩ := alias_padding c hk x ha m p w rows e3
    rw [← e2.2]
    unfold tempBuffer
    have he : m.allEnding = x.md.allEnding := by unfold allEnding; rw [m3]
    rw [he]
    split
    · rw [m1, m3, l1, l2]
      refine views_items c mem cell _ _ _ 0 _ ?_ hx.2.2.2
      simpa using hm.symm
    · rfl
  · rw [List.map_map]
    conv_rhs => rw [← List.map_id items]
    rfl

theorem items_view (c : Cfg) (cell : Nat) (x : ST α) (items : List (String × List α)) (kv : String × Src α) (h : kv ∈ srcItems c cell x items)
    (cell' r s t : Nat) (hv : kv.2 = .view cell' r s t) : cell' = cell ∧ aliases c x = true ∧ x.md.allEnding = false := by
  unfold srcItems at h
  split at h
  · rename_i ha
    split at h
    · rename_i hc
      refine ⟨?_, ha, hc.2⟩
      have : ∀ (ids : List String) (es : List Bool) (ls : List Int) (k : Nat), kv ∈ bufViews c cell k ids es ls → cell' = cell := by
        intro ids
        induction ids with
        | nil => intro es ls k h; simp [bufViews] at h
        | cons i ids ih =>
          intro es ls k h
          match es, ls with
          | [], _ => simp [bufViews] at h
          | e :: es, [] => simp [bufViews] at h
          | e :: es, l :: ls =>
            rw [bufViews, List.mem_append] at h
            rcases h with h | h
            · cases e with
              | true => simp at h
              | false =>
                simp at h
                rw [h] at hv
                simp only [Src.view.injEq] at hv
                exact hv.1.symm
            · exact ih es ls (k + 1) h
      exact this _ _ _ _ h
    · simp at h
  · obtain ⟨a, -, rfl⟩ := List.mem_map.1 h
    simp at hv

theorem post_mem (b : SrcBuf α) (m : Meta) (items : List (String × Src α)) (i : String) (src : Src α) (h : postSrc b m items i = some src) :
    b i = some src ∨ ∃ kv ∈ items, kv.2 = src := by
  have hu : ∀ (items : List (String × Src α)) (b : SrcBuf α),
      (items.foldl (fun b kv => fun i => if i = kv.1 then some kv.2 else b i) b) i = some src → b i = some src ∨ ∃ kv ∈ items, kv.2 = src := by
    intro items
    induction items with
    | nil => intro b h; exact .inl h
    | cons kv items ih =>
      intro b h
      rw [List.foldl_cons] at h
      rcases ih _ h with h | ⟨k, hk, he⟩
      · split at h
        · exact .inr ⟨kv, by simp, by simpa using h⟩
        · exact .inl h
      · exact .inr ⟨k, by simp [hk], he⟩
  have hd : ∀ (xs : List (String × Bool)) (b : SrcBuf α),
      (xs.foldl (fun b ie => if ie.2 then fun i => if i = ie.1 then none else b i else b) b) i = some src → b i = some src := by
    intro xs
    induction xs with
    | nil => intro b h; exact h
    | cons x xs ih =>
      intro b h
      rw [List.foldl_cons] at h
      have := ih _ h
      cases hx : x.2 with
      | false => simpa [hx] using this
      | true =>
        simp only [hx, if_true] at this
        split at this
        · simp at this
        · exact this
  unfold postSrc at h
  split at h
  · exact hu _ _ (hd _ _ h)
  · exact hu _ _ h

/-- At every call: the buffer does not view the caller's tensor, or is not used, or the tensor is not overwritten later. -/
def SafeCalls (c : Cfg) : Memory α → List (Ev α) → Prop
  | _, [] => True
  | mem, .write cell rows :: evs => SafeCalls c (fun k => if k = cell then rows else mem k) evs
  | mem, .call cell md width :: evs =>
    Rectangular ({ md, width, rows := mem cell } : ST α) ∧
    (aliases c ({ md, width, rows := mem cell } : ST α) = false ∨ md.allEnding = true ∨ ∀ rows, Ev.write cell rows ∉ evs) ∧ SafeCalls c mem evs

theorem memRun_run (c : Cfg) (hk : c.kw > 1) (g : List α → β) (evs : List (Ev α)) (mem : Memory α) (hs : SafeCalls c mem evs) (b : SrcBuf α)
    (hb : ∀ i cell r s t, b i = some (.view cell r s t) → ∀ rows, Ev.write cell rows ∉ evs) :
    memRun c g mem b evs = (run c g (b.now mem) (called mem evs)).map (·.1) := by
  induction evs generalizing mem b with
  | nil => rfl
  | cons ev evs ih =>
    cases ev with
    | write cell rows =>
      rw [memRun, called, ih _ hs b (fun i cell' r s t h rows' hm => hb i cell' r s t h rows' (by simp [hm]))]
      congr 2
      funext i
      simp only [SrcBuf.now]
      cases hi : b i with
      | none => rfl
      | some src =>
        cases src with
        | own f => rfl
        | view cell' r s t =>
          have : cell' ≠ cell := by
            rintro rfl
            exact hb i cell' r s t hi rows (by simp)
          simp [Src.frames, this]
    | call cell md width =>
      obtain ⟨hx, hsafe, hs⟩ := hs
      rw [memRun, called, run]
      generalize hxx : ({ md, width, rows := mem cell } : ST α) = x at hx hsafe ⊢
      have hrows : x.rows = mem cell := by rw [← hxx]
      have hmd : x.md = md := by rw [← hxx]
      unfold memCall forward
      cases e1 : preHook c (b.now mem) x with
      | error e => rfl
      | ok r =>
        obtain ⟨x', s⟩ := r
        simp only [Except.bind_ok']
        cases e2 : conv1d c g x' with
        | error e => rfl
        | ok r =>
          obtain ⟨y, items⟩ := r
          simp only [Except.bind_ok']
          have hmem : (fun k => if k = cell then forwardRowsAfter c x else mem k) = mem := by
            funext k
            split
            · rename_i h
              rw [(C103_frames_partial c x).1 hk, hrows, h]
            · rfl
          rw [hmem, ih mem hs, now_post, src_items c hk g mem cell _ x x' s y items hrows hx e1 e2]
          · cases run c g (postHook (b.now mem) y.md items) (called mem evs) with
            | error e => rfl
            | ok r => rfl
          · intro i cell' r' s' t' hi rows hm
            rcases post_mem b y.md _ i _ hi with hi | ⟨kv, hkv, he⟩
            · exact hb i cell' r' s' t' hi rows (by simp [hm])
            · obtain ⟨rfl, h1, h2⟩ := items_view c cell x items kv hkv cell' r' s' t' he
              rcases hsafe with h | h | h
              · rw [h] at h1; simp at h1
              · rw [hmd, h] at h2; simp at h2
              · exact h rows hm

theorem zipWith_ge (p : Nat) (ls : List Int) (bs : List Bool) (h : bs.length = ls.length) (l : Int) (hl : l ∈ ls) :
    ∃ l' ∈ addWhere p ls bs, l ≤ l' := by
  induction ls generalizing bs with
  | nil => simp at hl
  | cons a ls ih =>
    match bs, h with
    | b :: bs, h =>
      rcases List.mem_cons.1 hl with rfl | hl
      · refine ⟨if b then l + p else l, by simp [addWhere], ?_⟩
        split <;> omega
      · obtain ⟨l', h1, h2⟩ := ih bs (by simpa using h) hl
        exact ⟨l', by simp [addWhere] at h1 ⊢; exact .inr h1, h2⟩

theorem addWhere_all (p : Nat) (ls : List Int) (bs : List Bool) (h : bs.length = ls.length) (ht : ∀ b ∈ bs, b = true) (l : Int) (hl : l ∈ ls) :
    l + p ∈ addWhere p ls bs := by
  induction ls generalizing bs with
  | nil => simp at hl
  | cons a ls ih =>
    match bs, h with
    | b :: bs, h =>
      have hb : b = true := ht b (by simp)
      subst hb
      rcases List.mem_cons.1 hl with rfl | hl
      · simp [addWhere]
      · have := ih bs (by simpa using h) (fun b hb => ht b (by simp [hb])) hl
        simp [addWhere] at this ⊢
        exact .inr this

/-- With padding, a batch as wide as its longest row is copied. -/
theorem padded_copy (c : Cfg) (hk : c.kw > 1) (hp : c.padding > 0) (x : ST α) (hx : Rectangular x) (ht : (x.width : Int) ∈ x.md.lengths) :
    aliases c x = false ∨ x.md.allEnding = true := by
  unfold aliases
  split
  · exact .inl rfl
  · rename_i hns
    have hst : x.md.allStarting = true := by
      cases e : x.md.allStarting with
      | true => rfl
      | false => exact absurd ⟨hk, e⟩ hns
    cases hen : x.md.allEnding with
    | true => exact .inr rfl
    | false =>
      left
      have h1 : Meta.allStarting { x.md with lengths := padLengths c.padding x.md } = true := hst
      have h2 : Meta.allEnding { x.md with lengths := padLengths c.padding x.md } = false := hen
      simp only [h1, h2, Bool.and_false, Bool.false_eq_true, if_false]
      have hall : ∀ b ∈ x.md.sos, b = true := by
        have := hst
        unfold allStarting at this
        simpa using this
      have hany : x.md.anyStarting = true := by
        have hne : x.md.lengths ≠ [] := List.ne_nil_of_mem ht
        have hl : x.md.sos.length ≠ 0 := by
          rw [hx.1, ← hx.2.2.1]
          exact fun h => hne (List.length_eq_zero_iff.1 h)
        obtain ⟨s, r, hs⟩ := List.exists_cons_of_length_pos (Nat.pos_of_ne_zero hl)
        unfold anyStarting
        rw [List.any_eq_true]
        exact ⟨s, by simp [hs], hall s (by simp [hs])⟩
      have hpl : padLengths c.padding x.md = addWhere c.padding (addWhere c.padding x.md.lengths x.md.sos) x.md.eos := by
        unfold padLengths
        simp [hst, hen, hany]
      have hmem : ∃ l' ∈ padLengths c.padding x.md, (x.width : Int) + c.padding ≤ l' := by
        rw [hpl]
        refine zipWith_ge _ _ _ ?_ _ (addWhere_all _ _ _ ?_ hall _ ht)
        · rw [addWhere_length, hx.2.1, hx.1, hx.2.2.1]; simp
        · rw [hx.1, hx.2.2.1]
      obtain ⟨l', hl', hge⟩ := hmem
      cases hm : Meta.maxLength { x.md with lengths := padLengths c.padding x.md } with
      | error e =>
        unfold Meta.maxLength torchMax at hm
        simp only at hm
        split at hm
        · rename_i h; rw [h] at hl'; simp at hl'
        · simp at hm
      | ok ml =>
        have := ((torchMax_iff _ _).1 hm).2 l' hl'
        simp only [decide_eq_false_iff_not]
        omega

/-- **C104, the part that holds, with reuse.** A module with padding whose kernel is wider than 1 copies what it needs, as long as every batch is as wide as its longest row: whatever the program writes into its
chunk memory between the calls, the outputs are those for separate tensors with the contents at the time of the call. Missing: modules without padding, and over-padded
batches (`C104_careful_partial`). -/
theorem C104_reuse_partial (c : Cfg) (hk : c.kw > 1) (hp : c.padding > 0) (g : List α → β) (evs : List (Ev α)) (mem : Memory α)
    (h : ∀ x ∈ called mem evs, Rectangular x ∧ (x.width : Int) ∈ x.md.lengths) :
    memRun c g mem (fun _ => none) evs = (run c g (fun _ => none) (called mem evs)).map (·.1) := by
  refine memRun_run c hk g evs mem ?_ (fun _ => none) (by simp)
  induction evs generalizing mem with
  | nil => trivial
  | cons ev evs ih =>
    cases ev with
    | write cell rows => exact ih _ h
    | call cell md width =>
      have hx := h _ (List.mem_cons_self ..)
      refine ⟨hx.1, ?_, ih _ fun x hx => h x (List.mem_cons_of_mem _ hx)⟩
      rcases padded_copy c hk hp _ hx.1 hx.2 with h | h
      · exact .inl h
      · exact .inr (.inl h)

example : ((memRun ⟨2, 1, 1, 1⟩ exG (fun _ => []) (fun _ => none) exReuse).map fun ys => ys.map (·.rows)) = .ok [[[1, 12, 23]], [[34, 45, 56, 60]]] := by decide
example : ∀ x ∈ called (fun _ => []) exReuse, Rectangular x ∧ (x.width : Int) ∈ x.md.lengths := by decide

/-- **C104, the part that holds, without reuse.** If no tensor is overwritten after a call on it, the outputs are those of the values. Missing: memory that is overwritten after the call (`C104_reuse_false`; when that is harmless: `C104_careful_partial`). -/
theorem C104_fresh_partial (c : Cfg) (hk : c.kw > 1) (g : List α → β) (evs : List (Ev α)) (mem : Memory α) (hx : ∀ x ∈ called mem evs, Rectangular x)
    (h : NotReused evs) : memRun c g mem (fun _ => none) evs = (run c g (fun _ => none) (called mem evs)).map (·.1) := by
  refine memRun_run c hk g evs mem ?_ (fun _ => none) (by simp)
  induction evs generalizing mem with
  | nil => trivial
  | cons ev evs ih =>
    cases ev with
    | write cell rows => exact ih _ hx h
    | call cell md width => exact ⟨hx _ (List.mem_cons_self ..), .inr (.inr h.1), ih _ (fun x hx' => hx x (List.mem_cons_of_mem _ hx')) h.2⟩

example : NotReused ([.write 0 [[1, 2, 3]], .call 0 ⟨["a"], [true], [false], [3], none⟩ 3, .write 1 [[4]], .call 1 ⟨["a"], [false], [true], [1], none⟩ 1] : List (Ev Int)) := by
  simp [NotReused]

end
end DS.Conv
