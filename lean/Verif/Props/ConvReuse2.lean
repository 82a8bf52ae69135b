import Verif.Props.ConvReuse
import Verif.Props.ConvSession
/-! C104: when the memory of a first chunk may be written again. -/

namespace DS.Conv
open Meta
section
variable {α β : Type} [Zero α] [Zero β]

/-- After a call on `cell`: the streams of a batch of first chunks hold on to it unless they ended; the other streams of a batch let go of what they held. -/
def cellsAfter (held : String → Option Nat) (cell : Nat) (md : Meta) : String → Option Nat := fun i =>
  if i ∈ md.ids then (if md.allStarting = true ∧ (i, true) ∉ md.ids.zip md.eos then some cell else none) else held i

/-- The program overwrites the memory of a batch of first chunks only when each of its streams has been called again or has ended. -/
def Careful : (String → Option Nat) → List (Ev α) → Prop
  | _, [] => True
  | held, .write cell _ :: evs => (∀ i, held i ≠ some cell) ∧ Careful held evs
  | held, .call cell md _ :: evs => Careful (cellsAfter held cell md) evs

theorem items_complete (c : Cfg) (ids : List String) (es : List Bool) (ls : List Int) (rs : List (List α)) (he : es.length = ids.length) (hl : ls.length = ids.length)
    (hr : rs.length = ids.length) (i : String) (hi : i ∈ ids) : (i, true) ∈ ids.zip es ∨ ∃ f, (i, f) ∈ bufItems c ids es ls rs := by
  induction ids generalizing es ls rs with
  | nil => simp at hi
  | cons a ids ih =>
    match es, ls, rs, he, hl, hr with
    | e :: es, l :: ls, r :: rs, he, hl, hr =>
      rw [bufItems]
      rcases List.mem_cons.1 hi with rfl | hi
      · cases e with
        | true => exact .inl (by simp)
        | false => exact .inr ⟨_, List.mem_append_left _ (by simp only [bufItem]; exact List.mem_singleton.2 rfl)⟩
      · rcases ih es ls rs (by simpa using he) (by simpa using hl) (by simpa using hr) hi with h | ⟨f, h⟩
        · exact .inl (by simp [h])
        · exact .inr ⟨f, List.mem_append_right _ h⟩

theorem fold_hit {γ : Type} (items : List (String × γ)) (b : String → Option γ) (i : String) (h : ∃ kv ∈ items, kv.1 = i) (v : γ)
    (hv : (items.foldl (fun b kv => fun i => if i = kv.1 then some kv.2 else b i) b) i = some v) : ∃ kv ∈ items, kv.2 = v := by
  induction items generalizing b with
  | nil => simp at h
  | cons kv items ih =>
    rw [List.foldl_cons] at hv
    by_cases h' : ∃ kv ∈ items, kv.1 = i
    · obtain ⟨k, hk, e⟩ := ih _ h' hv
      exact ⟨k, by simp [hk], e⟩
    · have hk : kv.1 = i := by
        obtain ⟨k, hk, e⟩ := h
        rcases List.mem_cons.1 hk with rfl | hk
        · exact e
        · exact absurd ⟨k, hk, e⟩ h'
      have hm : ∀ (its : List (String × γ)) (b : String → Option γ), (¬ ∃ kv ∈ its, kv.1 = i) →
          (its.foldl (fun b kv => fun i => if i = kv.1 then some kv.2 else b i) b) i = b i := by
        intro its
        induction its with
        | nil => intros; rfl
        | cons q its ih =>
          intro b hq
          rw [List.foldl_cons, ih _ fun ⟨k, hk, e⟩ => hq ⟨k, by simp [hk], e⟩]
          have : i ≠ q.1 := fun e => hq ⟨q, by simp, e.symm⟩
          simp [this]
      rw [hm _ _ h'] at hv
      simp only [hk, if_true, Option.some.injEq] at hv
      exact ⟨kv, by simp, hv⟩

theorem fold_drop {γ : Type} (xs : List (String × Bool)) (b : String → Option γ) (i : String) :
    (xs.foldl (fun b ie => if ie.2 then fun i => if i = ie.1 then none else b i else b) b) i = if (i, true) ∈ xs then none else b i := by
  induction xs generalizing b with
  | nil => simp
  | cons x xs ih =>
    rw [List.foldl_cons, ih]
    obtain ⟨k, e⟩ := x
    cases e with
    | false => simp
    | true =>
      by_cases hk : i = k
      · simp [hk]
      · simp [hk]

/-- After a call, the entries of its streams are new ones, and those of ended streams are gone. -/
theorem post_fresh (c : Cfg) (hk : c.kw > 1) (g : List α → β) (mem : Memory α) (b : SrcBuf α) (cell : Nat) (x x' : ST α) (s : Bool) (y : ST β)
    (items : List (String × List α)) (hm : x.rows = mem cell) (hx : Lined x) (h1 : preHook c (b.now mem) x = .ok (x', s)) (h2 : conv1d c g x' = .ok (y, items))
    (i : String) (src : Src α) (h : postSrc b y.md (srcItems c cell x items) i = some src) :
    (i ∉ x.md.ids ∧ b i = some src) ∨ (i ∈ x.md.ids ∧ (i, true) ∉ y.md.ids.zip y.md.eos ∧ ∃ kv ∈ srcItems c cell x items, kv.2 = src) ∨
      (∃ kv ∈ srcItems c cell x items, kv.1 = i ∧ i ∉ x.md.ids) := by
  obtain ⟨hl, hids⟩ := pre_ids c (b.now mem) x hx x' s h1
  obtain ⟨y1, -, y3, -⟩ := conv1d_md h2
  have hrect : Rectangular x := ⟨hx.1.1, hx.1.2.1, hx.1.2.2.1, hx.2⟩
  have hsrc := src_items c hk g mem cell (b.now mem) x x' s y items hm hrect h1 h2
  have hyi : y.md.ids = x.md.ids := y1.trans hids
  have hyl : y.md.eos.length = y.md.ids.length := by rw [y1, y3]; exact hl.1.2.1
  by_cases hi : i ∈ x.md.ids
  · right; left
    have hend : (i, true) ∉ y.md.ids.zip y.md.eos := by
      intro hz
      have hany : y.md.anyEnding = true := by
        unfold anyEnding
        rw [List.any_eq_true]
        exact ⟨true, (List.of_mem_zip hz).2, rfl⟩
      unfold postSrc at h
      rw [if_pos hany, fold_drop, if_pos hz] at h
      simp at h
    refine ⟨hi, hend, ?_⟩
    have hkey : ∃ kv ∈ srcItems c cell x items, kv.1 = i := by
      have h2' := h2
      unfold conv1d at h2'
      obtain ⟨⟨m, p, w, rows⟩, e3, e2⟩ := bind_ok_iff h2'
      obtain ⟨⟨n, ys⟩, -, e2⟩ := bind_ok_iff e2
      simp only [Except.ok.injEq, Prod.mk.injEq] at e2
      obtain ⟨m1, -, m3, -⟩ := applyPadding_md e3
      obtain ⟨s1, s2⟩ := applyPadding_sizes e3 hl.1.1 hl.1.2.1 hl.1.2.2.1 hl.2
      have hitem : ∃ f, (i, f) ∈ items := by
        rw [← e2.2]
        unfold tempBuffer
        have hmi : i ∈ m.ids := by rw [m1, hids]; exact hi
        have hne : (i, true) ∉ m.ids.zip m.eos := by rw [m1, m3, ← y1, ← y3]; exact hend
        have hlen : m.eos.length = m.ids.length := by rw [m1, m3]; exact hl.1.2.1
        have hae : m.allEnding = false := by
          cases e : m.allEnding with
          | false => rfl
          | true =>
            exfalso
            unfold allEnding at e
            rw [List.all_eq_true] at e
            obtain ⟨n, hn, he⟩ := List.mem_iff_getElem.1 hmi
            apply hne
            rw [List.mem_iff_getElem]
            refine ⟨n, by simp [hlen, hn], ?_⟩
            rw [List.getElem_zip, he]
            have := e (m.eos[n]'(by omega)) (List.getElem_mem _)
            simp only [id] at this
            rw [this]
        rw [if_pos ⟨hk, hae⟩]
        rcases items_complete c m.ids m.eos m.lengths rows hlen (by rw [m1]; exact s1) (by rw [m1]; exact s2) i hmi with h | h
        · exact absurd h hne
        · exact h
      obtain ⟨f, hf⟩ := hitem
      rw [← hsrc] at hf
      obtain ⟨kv, hkv, he⟩ := List.mem_map.1 hf
      simp only [Prod.mk.injEq] at he
      exact ⟨kv, hkv, he.1⟩
    unfold postSrc at h
    split at h
    · rw [fold_drop, if_neg hend] at h
      exact fold_hit _ _ i hkey _ h
    · exact fold_hit _ _ i hkey _ h
  · by_cases hkey : ∃ kv ∈ srcItems c cell x items, kv.1 = i
    · obtain ⟨kv, h3, h4⟩ := hkey
      exact .inr (.inr ⟨kv, h3, h4, hi⟩)
    · left
      refine ⟨hi, ?_⟩
      have hm : ∀ (its : List (String × Src α)) (b : SrcBuf α), (¬ ∃ kv ∈ its, kv.1 = i) →
          (its.foldl (fun b kv => fun i => if i = kv.1 then some kv.2 else b i) b) i = b i := by
        intro its
        induction its with
        | nil => intros; rfl
        | cons q its ih =>
          intro b hq
          rw [List.foldl_cons, ih _ fun ⟨k, hk, e⟩ => hq ⟨k, by simp [hk], e⟩]
          have : i ≠ q.1 := fun e => hq ⟨q, by simp, e.symm⟩
          simp [this]
      have hz : (i, true) ∉ y.md.ids.zip y.md.eos := fun hz => hi (hyi ▸ (List.of_mem_zip hz).1)
      unfold postSrc at h
      split at h
      · rw [fold_drop, if_neg hz, hm _ _ hkey] at h
        exact h
      · rw [hm _ _ hkey] at h
        exact h

theorem views_keys (c : Cfg) (cell : Nat) (ids : List String) (es : List Bool) (ls : List Int) (k : Nat) (kv : String × Src α)
    (h : kv ∈ bufViews c cell k ids es ls) : kv.1 ∈ ids := by
  induction ids generalizing es ls k with
  | nil => simp [bufViews] at h
  | cons i ids ih =>
    match es, ls, h with
    | [], _, h => simp [bufViews] at h
    | e :: es, [], h => simp [bufViews] at h
    | e :: es, l :: ls, h =>
      rw [bufViews, List.mem_append] at h
      rcases h with h | h
      · cases e with
        | true => simp at h
        | false => simp at h; rw [h]; simp
      · exact List.mem_cons_of_mem _ (ih es ls (k + 1) h)

theorem view_key (c : Cfg) (cell : Nat) (x : ST α) (items : List (String × List α)) (kv : String × Src α) (h : kv ∈ srcItems c cell x items)
    (cell' r s t : Nat) (hv : kv.2 = .view cell' r s t) : kv.1 ∈ x.md.ids := by
  unfold srcItems at h
  split at h
  · split at h
    · exact views_keys c cell _ _ _ _ kv h
    · simp at h
  · obtain ⟨a, -, rfl⟩ := List.mem_map.1 h
    simp at hv

theorem aliases_starting (c : Cfg) (hk : c.kw > 1) (x : ST α) (h : aliases c x = true) : x.md.allStarting = true := by
  cases e : x.md.allStarting with
  | true => rfl
  | false =>
    unfold aliases at h
    rw [if_pos ⟨hk, e⟩] at h
    simp at h

theorem memRun_careful (c : Cfg) (hk : c.kw > 1) (g : List α → β) (evs : List (Ev α)) (mem : Memory α) (hs : ∀ x ∈ called mem evs, Lined x) (held : String → Option Nat)
    (hc : Careful held evs) (b : SrcBuf α) (hb : ∀ i cell r s t, b i = some (.view cell r s t) → held i = some cell) :
    memRun c g mem b evs = (run c g (b.now mem) (called mem evs)).map (·.1) := by
  induction evs generalizing mem held b with
  | nil => rfl
  | cons ev evs ih =>
    cases ev with
    | write cell rows =>
      rw [memRun, called, ih _ hs held hc.2 b hb]
      congr 2
      funext i
      simp only [SrcBuf.now]
      cases hi : b i with
      | none => rfl
      | some src =>
        cases src with
        | own f => rfl
        | view cell' r s t =>
          have : cell' ≠ cell := by
            rintro rfl
            exact hc.1 i (hb i cell' r s t hi)
          simp [Src.frames, this]
    | call cell md width =>
      have hx := hs _ (List.mem_cons_self ..)
      have hs' : ∀ x ∈ called mem evs, Lined x := fun x h => hs x (List.mem_cons_of_mem _ h)
      rw [memRun, called, run]
      generalize hxx : ({ md, width, rows := mem cell } : ST α) = x at hx ⊢
      have hrows : x.rows = mem cell := by rw [← hxx]
      have hmd : x.md = md := by rw [← hxx]
      have hrect : Rectangular x := ⟨hx.1.1, hx.1.2.1, hx.1.2.2.1, hx.2⟩
      unfold memCall forward
      cases e1 : preHook c (b.now mem) x with
      | error e => rfl
      | ok r =>
        obtain ⟨x', s⟩ := r
        simp only [Except.bind_ok']
        cases e2 : conv1d c g x' with
        | error e => rfl
        | ok r =>
          obtain ⟨y, items⟩ := r
          simp only [Except.bind_ok']
          have hmem : (fun k => if k = cell then forwardRowsAfter c x else mem k) = mem := by
            funext k
            split
            · rename_i h
              rw [(C103_frames_partial c x).1 hk, hrows, h]
            · rfl
          rw [hmem, ih mem hs' _ hc, now_post, src_items c hk g mem cell _ x x' s y items hrows hrect e1 e2]
          · cases run c g (postHook (b.now mem) y.md items) (called mem evs) with
            | error e => rfl
            | ok r => rfl
          · intro i cell' r' s' t' hi
            rw [← hmd]
            unfold cellsAfter
            rcases post_fresh c hk g mem b cell x x' s y items hrows hx e1 e2 i _ hi with ⟨h3, h4⟩ | ⟨h3, h4, kv, h5, h6⟩ | ⟨kv, h5, h6, h7⟩
            · rw [if_neg h3]
              exact hb i cell' r' s' t' h4
            · obtain ⟨rfl, ha, -⟩ := items_view c cell x items kv h5 cell' r' s' t' h6
              have hst := aliases_starting c hk x ha
              rw [pre_shared c _ x (by simp [hst])] at e1
              simp only [Except.ok.injEq, Prod.mk.injEq] at e1
              obtain ⟨rfl, -⟩ := e1
              obtain ⟨y1, -, y3, -⟩ := conv1d_md e2
              rw [y1, y3] at h4
              rw [if_pos h3, if_pos ⟨hst, h4⟩]
            · exfalso
              obtain ⟨hl, hids⟩ := pre_ids c (b.now mem) x hx x' s e1
              have h8 : kv.1 ∈ x.md.ids := by
                unfold srcItems at h5
                split at h5
                · split at h5
                  · exact views_keys c cell _ _ _ _ kv h5
                  · simp at h5
                · obtain ⟨a, ha, rfl⟩ := List.mem_map.1 h5
                  unfold conv1d at e2
                  obtain ⟨⟨m, p, w, rows⟩, e3, e2⟩ := bind_ok_iff e2
                  obtain ⟨⟨n, ys⟩, -, e2⟩ := bind_ok_iff e2
                  simp only [Except.ok.injEq, Prod.mk.injEq] at e2
                  obtain ⟨m1, -, m3, -⟩ := applyPadding_md e3
                  rw [← e2.2] at ha
                  unfold tempBuffer at ha
                  split at ha
                  · have := items_keys c _ _ _ _ a ha
                    rw [m1, hids] at this
                    exact this
                  · simp at ha
              exact h7 (h6 ▸ h8)

/-- **C104, the part that holds, with care.** With a kernel wider than 1, with or without padding: if the program writes over the memory of a batch of first chunks only when each of the streams in it has been
called again or has ended, the outputs are those for separate tensors with the contents at the time of the call. The memory of any other batch may be written over at once. Two pieces of memory used in turn are enough.
Missing: memory of a first chunk that is written over before the next call of its stream (`C104_reuse_false`); kernels of width 1 (C103). -/
theorem C104_careful_partial (c : Cfg) (hk : c.kw > 1) (g : List α → β) (evs : List (Ev α)) (mem : Memory α) (hx : ∀ x ∈ called mem evs, x.md.WF ∧ x.rows.length = x.md.ids.length)
    (h : Careful (fun _ => none) evs) : memRun c g mem (fun _ => none) evs = (run c g (fun _ => none) (called mem evs)).map (·.1) :=
  memRun_careful c hk g evs mem hx _ h _ (by simp)

/-- Two streams, a batch of first chunks in cell 0, then in cell 1 one call per stream, then cell 0 is written again and used for the last chunk of "a"; cell 1 is overwritten at once. -/
def exCareful : List (Ev Int) :=
  [.write 0 [[1, 2, 3], [7, 8, 0]], .call 0 ⟨["a", "b"], [true, true], [false, false], [3, 2], none⟩ 3,
   .write 1 [[4, 5]], .call 1 ⟨["a"], [false], [false], [2], none⟩ 2, .write 1 [[9, 9]], .call 1 ⟨["b"], [false], [true], [2], none⟩ 2,
   .write 0 [[6, 7]], .call 0 ⟨["a"], [false], [true], [2], none⟩ 2]

example : Careful (fun _ => none) exCareful := by
  refine ⟨by simp, ?_, ?_, ?_, trivial⟩ <;> intro i <;> simp [cellsAfter, allStarting] <;> grind
example : (∀ x ∈ called (fun _ => []) exCareful, x.md.WF ∧ x.rows.length = x.md.ids.length) ∧
    ((memRun ⟨2, 1, 1, 0⟩ exG (fun _ => []) (fun _ => none) exCareful).map fun ys => ys.map (·.rows)) = .ok [[[12, 23], [78, 0]], [[34, 45]], [[89, 99]], [[56, 67]]] := by decide

end
end DS.Conv
