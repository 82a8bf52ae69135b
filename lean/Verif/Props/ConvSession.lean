import Verif.Props.ConvMem
/-! C148, C149: streams that are never in one batch do not influence each other; refused calls of stacks. -/

namespace DS.Conv
open Meta
section
variable {α β : Type} [Zero α] [Zero β]

/-- One row and one entry of every column per sequence. -/
def Lined (x : ST α) : Prop := x.md.WF ∧ x.rows.length = x.md.ids.length

theorem narrow_ids (b : Bool) (row : Row) (w : Nat) (r : List α) (o : Meta × List α) (h : narrowRow (ofRows b [row]) w r = .ok o) :
    o.1.ids = [row.id] := by
  unfold narrowRow at h
  have h1 : pyGet (ofRows b [row]).lengths 0 = .ok row.len := rfl
  rw [h1, Except.bind_ok'] at h
  split at h
  · simp at h
  · rename_i hl
    obtain ⟨m', hm, h⟩ := bind_ok_iff h
    simp only [Except.ok.injEq] at h
    subst h
    have hc := narrow_row (α := Int) b ⟨row.id, row.sos, row.eos, row.chunk, List.replicate row.len.toNat 0⟩ w (by simp; omega) 0
    have hrow : (⟨row.id, row.sos, row.eos, row.chunk, List.replicate row.len.toNat 0⟩ : Chunk Int).row = row := by
      obtain ⟨i, s, e, l, k⟩ := row
      simp only at hl
      have : ((List.replicate l.toNat (0 : Int)).length : Int) = l := by simp; omega
      unfold Chunk.row
      simp only [this]
    rw [hrow] at hc
    unfold narrowRow at hc
    rw [h1, Except.bind_ok', if_neg hl, hm, Except.bind_ok'] at hc
    simp only [Except.ok.injEq, Prod.mk.injEq] at hc
    rw [hc.1]
    rfl

theorem ragged_ids (b : Bool) (w : Nat) (rows : List Row) (rs : List (List α)) (bs : List (Option (List α))) (xs : List (Meta × List α))
    (h : raggedRows w (rows.map fun r => ofRows b [r]) rs bs = .ok xs) (h1 : rs.length = rows.length) (h2 : bs.length = rows.length) :
    xs.flatMap (·.1.ids) = rows.map (·.id) := by
  induction rows generalizing rs bs xs with
  | nil =>
    simp only [List.map_nil, raggedRows, Except.ok.injEq] at h
    subst h
    rfl
  | cons row rows ih =>
    match rs, bs, h1, h2 with
    | r :: rs, bb :: bs, h1, h2 =>
      simp only [List.map_cons, raggedRows] at h
      obtain ⟨x, hx, h⟩ := bind_ok_iff h
      obtain ⟨xs', hxs, h⟩ := bind_ok_iff h
      simp only [Except.ok.injEq] at h
      subst h
      have := ih rs bs xs' hxs (by simpa using h1) (by simpa using h2)
      have hid := narrow_ids b row w r x hx
      have hp : (prepend bb x).1.ids = [row.id] := by
        unfold prepend
        cases bb <;> exact hid
      simp [hp, this]

/-- Putting buffers before a batch, whatever they are, keeps its ids and everything lined up. -/
theorem hook_ids (x : ST α) (hx : Lined x) (hns : x.md.allStarting = false) (bs : List (Option (List α))) (hbs : bs.length = x.md.ids.length) (z : ST α)
    (h : (if sameLengths bs then catEqual bs (bufLen (bs.head?.getD none)) x else catRagged bs x) = .ok z) : Lined z ∧ z.md.ids = x.md.ids := by
  split at h
  · unfold catEqual at h
    cases hm : bs.mapM id with
    | none => rw [hm] at h; simp at h
    | some data =>
      rw [hm] at h
      simp only [Except.ok.injEq] at h
      subst h
      have hd : data.length = x.md.ids.length := by
        have : ∀ (bs : List (Option (List α))) (data : List (List α)), bs.mapM id = some data → data.length = bs.length := by
          intro bs
          induction bs with
          | nil => intro data h; simp at h; subst h; rfl
          | cons b bs ih =>
            intro data h
            rw [List.mapM_cons] at h
            cases b with
            | none => simp at h
            | some b =>
              cases hb : bs.mapM id with
              | none => simp [hb] at h
              | some ds =>
                simp [hb] at h
                subst h
                simp [ih ds hb]
        rw [this _ _ hm, hbs]
      refine ⟨⟨⟨hx.1.1, hx.1.2.1, by simpa using hx.1.2.2.1, hx.1.2.2.2⟩, ?_⟩, rfl⟩
      simp [hd, hx.2]
  · have hne : x.md.rows ≠ [] := by
      intro h0
      have h1 : x.md.sos = [] := by rw [sos_rows x.md hx.1, h0]; rfl
      unfold allStarting at hns
      rw [h1] at hns
      simp at hns
    unfold catRagged at h
    obtain ⟨ms, hms, hz⟩ := bind_ok_iff h
    obtain ⟨xs, hxs, hq⟩ := bind_ok_iff hz
    have hu : x.md.unbindBatch = .ok (x.md.rows.map fun r => ofRows x.md.chunk.isSome [r]) := by
      conv_lhs => rw [eq_ofRows x.md hx.1]
      exact unbind_ofRows _ _ hne
    rw [hu] at hms
    simp only [Except.ok.injEq] at hms
    subst hms
    have hids := ragged_ids _ _ _ _ _ _ hxs (by rw [hx.2, ids_rows x.md hx.1]; simp) (by rw [hbs, ids_rows x.md hx.1]; simp)
    unfold padStream at hq
    obtain ⟨m, hm, hq⟩ := bind_ok_iff hq
    obtain ⟨md, hmd, hq⟩ := bind_ok_iff hq
    simp only [Except.ok.injEq] at hq
    subst hq
    have hmi : m.ids = x.md.ids := by
      rw [(catBatch_cols _ _ hm).1, List.flatMap_map, ids_rows x.md hx.1]
      exact hids
    unfold Meta.init at hmd
    split at hmd
    · rename_i hlen
      simp only [Except.ok.injEq] at hmd
      subst hmd
      refine ⟨⟨⟨?_, ?_, ?_, by simp⟩, ?_⟩, hmi⟩
      · simp only; omega
      · simp only; omega
      · simp only; omega
      · have := hlen.1
        simp only [List.length_map] at this ⊢
        exact this.symm
    · simp at hmd

/-- The pre-hook keeps the ids of the batch, and everything lined up. -/
theorem pre_ids (c : Cfg) (buf : Buf α) (x : ST α) (hx : Lined x) (z : ST α) (s : Bool) (h : preHook c buf x = .ok (z, s)) :
    Lined z ∧ z.md.ids = x.md.ids := by
  unfold preHook at h
  split at h
  · rename_i hc
    refine hook_ids x hx hc.2 (x.md.ids.map buf) (by simp) z ?_
    simp only at h
    split at h <;> rename_i hs
    · rw [if_pos hs]
      obtain ⟨z', hz, he⟩ := map_ok_iff h
      simp only [Prod.mk.injEq] at he
      rw [hz, he.1]
    · rw [if_neg hs]
      obtain ⟨z', hz, he⟩ := map_ok_iff h
      simp only [Prod.mk.injEq] at he
      rw [hz, he.1]
  · simp only [Except.ok.injEq, Prod.mk.injEq] at h
    obtain ⟨rfl, -⟩ := h
    exact ⟨hx, rfl⟩

theorem items_keys (c : Cfg) (ids : List String) (es : List Bool) (ls : List Int) (rs : List (List α)) (kv : String × List α) (h : kv ∈ bufItems c ids es ls rs) :
    kv.1 ∈ ids := by
  induction ids generalizing es ls rs with
  | nil => simp [bufItems] at h
  | cons i ids ih =>
    match es, ls, rs, h with
    | e :: es, l :: ls, r :: rs, h =>
      simp only [bufItems, List.mem_append] at h
      rcases h with h | h
      · unfold bufItem at h
        split at h
        · simp at h
        · simp at h
          subst h
          simp
      · exact List.mem_cons_of_mem _ (ih es ls rs h)
    | [], _, _, h => simp [bufItems] at h
    | _ :: _, [], _, h => simp [bufItems] at h
    | _ :: _, _ :: _, [], h => simp [bufItems] at h

theorem update_other (buf : Buf α) (its : List (String × List α)) (i : String) (h : ∀ kv ∈ its, kv.1 ≠ i) : update buf its i = buf i := by
  unfold update
  induction its generalizing buf with
  | nil => rfl
  | cons kv its ih =>
    rw [List.foldl_cons, ih _ fun q hq => h q (by simp [hq])]
    simp [(h kv (by simp)).symm]

theorem post_other (buf : Buf α) (m : Meta) (its : List (String × List α)) (i : String) (h : ∀ kv ∈ its, kv.1 ≠ i) (hi : i ∉ m.ids) : postHook buf m its i = buf i := by
  unfold postHook
  have hu := update_other buf its i h
  split
  · unfold dropEnded
    rw [dropEnded_go, if_neg, hu]
    intro hz
    exact hi (List.of_mem_zip hz).1
  · exact hu

/-- The convolution keeps the ids of its batch, and makes buffers for these only. -/
theorem conv1d_ids (c : Cfg) (g : List α → β) (z : ST α) (hzl : Lined z) (y : ST β) (its : List (String × List α)) (hy : conv1d c g z = .ok (y, its)) :
    Lined y ∧ y.md.ids = z.md.ids ∧ ∀ kv ∈ its, kv.1 ∈ z.md.ids := by
  unfold conv1d at hy
  obtain ⟨⟨m, p, w, rows⟩, e3, hy⟩ := bind_ok_iff hy
  obtain ⟨⟨n, ys⟩, ht, hy⟩ := bind_ok_iff hy
  simp only [Except.ok.injEq, Prod.mk.injEq] at hy
  obtain ⟨rfl, rfl⟩ := hy
  obtain ⟨m1, m2, m3, m4⟩ := applyPadding_md e3
  obtain ⟨s1, s2⟩ := applyPadding_sizes e3 hzl.1.1 hzl.1.2.1 hzl.1.2.2.1 hzl.2
  have hys : ys.length = rows.length := by
    unfold torchConv1d at ht
    split at ht
    · simp at ht
    · simp only [Except.ok.injEq, Prod.mk.injEq] at ht
      rw [← ht.2]
      simp
  refine ⟨⟨⟨?_, ?_, ?_, ?_⟩, ?_⟩, ?_, ?_⟩
  · simp only [m1, m2]; exact hzl.1.1
  · simp only [m1, m3]; exact hzl.1.2.1
  · simp only [m1, List.length_map]; exact s1
  · simp only [m1, m4]; exact hzl.1.2.2.2
  · simp only [m1, List.length_zipWith, List.length_map]; omega
  · simp only [m1]
  · intro kv hkv
    unfold tempBuffer at hkv
    split at hkv
    · have := items_keys c _ _ _ _ kv hkv
      rwa [m1] at this
    · simp at hkv

/-- A call keeps the ids of its batch and does not touch the buffers of other ids. -/
theorem forward_others (c : Cfg) (g : List α → β) (buf : Buf α) (x : ST α) (hx : Lined x) (o : Out α β) (h : forward c g buf x = .ok o) :
    Lined o.y ∧ o.y.md.ids = x.md.ids ∧ ∀ i, i ∉ x.md.ids → o.buf i = buf i := by
  unfold forward at h
  obtain ⟨⟨z, s⟩, hz, h⟩ := bind_ok_iff h
  obtain ⟨⟨y, its⟩, hy, h⟩ := bind_ok_iff h
  simp only [Except.ok.injEq] at h
  subst h
  obtain ⟨hzl, hzi⟩ := pre_ids c buf x hx z s hz
  obtain ⟨h1, h2, h3⟩ := conv1d_ids c g z hzl y its hy
  refine ⟨h1, h2.trans hzi, fun i hi => ?_⟩
  refine post_other _ _ _ _ (fun kv hkv he => ?_) (by rw [h2, hzi]; exact hi)
  have := h3 kv hkv
  rw [hzi] at this
  exact hi (he ▸ this)

/-- A layer keeps the ids of its batch and does not touch the buffers of other ids. -/
theorem layer_others (l : Layer α) (buf : Buf α) (x : ST α) (hx : Lined x) (y : ST α) (b : Buf α) (h : l.step buf x = .ok (y, b)) :
    Lined y ∧ y.md.ids = x.md.ids ∧ ∀ i, i ∉ x.md.ids → b i = buf i := by
  cases l with
  | conv c g =>
    simp only [Layer.step] at h
    obtain ⟨o, ho, he⟩ := map_ok_iff h
    simp only [Prod.mk.injEq] at he
    obtain ⟨rfl, rfl⟩ := he
    exact forward_others c g buf x hx o ho
  | act f =>
    simp only [Layer.step, Except.ok.injEq, Prod.mk.injEq] at h
    obtain ⟨rfl, rfl⟩ := h
    exact ⟨⟨hx.1, by simpa using hx.2⟩, rfl, fun _ _ => rfl⟩

/-- A layer looks only at the buffers of the ids of its batch. -/
theorem layer_congr (l : Layer α) (b₁ b₂ : Buf α) (x : ST α) (hx : Lined x) (h : ∀ i ∈ x.md.ids, b₁ i = b₂ i) :
    (∃ e, l.step b₁ x = .error e ∧ l.step b₂ x = .error e) ∨
    ∃ y o₁ o₂, l.step b₁ x = .ok (y, o₁) ∧ l.step b₂ x = .ok (y, o₂) ∧ ∀ i, b₁ i = b₂ i → o₁ i = o₂ i := by
  cases l with
  | conv c g =>
    simp only [Layer.step]
    rcases forward_congr c g b₁ b₂ x ⟨hx.1.1, hx.1.2.1, hx.1.2.2.1, hx.2⟩ (.inr (.inr h)) with ⟨e, h1, h2⟩ | ⟨o₁, o₂, h1, h2, h3, h4⟩
    · exact .inl ⟨e, by rw [h1, map_error'], by rw [h2, map_error']⟩
    · exact .inr ⟨o₁.y, o₁.buf, o₂.buf, by rw [h1, map_ok'], by rw [h2, map_ok', h3], fun i hi => h4 i (.inl hi)⟩
  | act f => exact .inr ⟨_, b₁, b₂, rfl, rfl, fun _ hi => hi⟩

/-- Two states of the same stack whose buffers agree at the ids of `S`. -/
def SameAt (S : String → Prop) : List (Layer α × Buf α) → List (Layer α × Buf α) → Prop
  | (l, b) :: s, (l', b') :: s' => l = l' ∧ (∀ i, S i → b i = b' i) ∧ SameAt S s s'
  | [], [] => True
  | _, _ => False

theorem sameAt_refl (S : String → Prop) (s : List (Layer α × Buf α)) : SameAt S s s := by
  induction s with
  | nil => trivial
  | cons a s ih => exact ⟨rfl, fun _ _ => rfl, ih⟩

theorem try_other (S : String → Prop) (s t : List (Layer α × Buf α)) (hst : SameAt S s t) (x : ST α) (hx : Lined x) (hS : ∀ i ∈ x.md.ids, ¬ S i) :
    SameAt S (chainTry s x).2 t := by
  induction s generalizing t x with
  | nil => exact hst
  | cons a s ih =>
    match t, hst with
    | (l', b') :: t, hst =>
      obtain ⟨l, b⟩ := a
      obtain ⟨rfl, h2, h3⟩ := hst
      simp only [chainTry]
      cases hl : l.step b x with
      | error e => exact ⟨rfl, h2, h3⟩
      | ok r =>
        obtain ⟨y, o⟩ := r
        obtain ⟨hy, hyi, ho⟩ := layer_others l b x hx y o hl
        refine ⟨rfl, ?_, ih t h3 y hy (by rw [hyi]; exact hS)⟩
        intro i hi
        rw [ho i fun hm => hS i hm hi]
        exact h2 i hi

theorem try_mine (S : String → Prop) (s t : List (Layer α × Buf α)) (hst : SameAt S s t) (x : ST α) (hx : Lined x) (hS : ∀ i ∈ x.md.ids, S i) :
    (chainTry s x).1 = (chainTry t x).1 ∧ SameAt S (chainTry s x).2 (chainTry t x).2 := by
  induction s generalizing t x with
  | nil =>
    match t, hst with
    | [], _ => exact ⟨rfl, trivial⟩
  | cons a s ih =>
    match t, hst with
    | (l', b') :: t, hst =>
      obtain ⟨l, b⟩ := a
      obtain ⟨rfl, h2, h3⟩ := hst
      simp only [chainTry]
      rcases layer_congr l b b' x hx (fun i hi => h2 i (hS i hi)) with ⟨e, h1, h2'⟩ | ⟨y, o₁, o₂, h1, h2', h4⟩
      · rw [h1, h2']
        exact ⟨rfl, rfl, h2, h3⟩
      · rw [h1, h2']
        obtain ⟨hy, hyi, -⟩ := layer_others l b x hx y o₁ h1
        obtain ⟨r1, r2⟩ := ih t h3 y hy (by rw [hyi]; exact hS)
        exact ⟨r1, rfl, fun i hi => h4 i (h2 i hi), r2⟩

theorem session_same (S : String → Bool) (s t : List (Layer α × Buf α)) (hst : SameAt (fun i => S i = true) s t) (xs : List (ST α)) (hx : ∀ x ∈ xs, Lined x)
    (hS : ∀ x ∈ xs, (∀ i ∈ x.md.ids, S i = true) ∨ ∀ i ∈ x.md.ids, S i = false) :
    ((xs.zip (chainCalls s xs).1).filter fun p => p.1.md.ids.all S).map (·.2) = (chainCalls t (xs.filter fun x => x.md.ids.all S)).1 ∧
      SameAt (fun i => S i = true) (chainCalls s xs).2 (chainCalls t (xs.filter fun x => x.md.ids.all S)).2 := by
  induction xs generalizing s t with
  | nil => exact ⟨rfl, hst⟩
  | cons x xs ih =>
    have ihh := fun s t hst => ih s t hst (fun z hz => hx z (by simp [hz])) fun z hz => hS z (by simp [hz])
    by_cases hall : x.md.ids.all S = true
    · obtain ⟨r1, r2⟩ := try_mine (fun i => S i = true) s t hst x (hx x (by simp)) (List.all_eq_true.1 hall)
      rw [List.filter_cons_of_pos (by simpa using hall)]
      simp only [chainCalls, List.zip_cons_cons]
      rw [List.filter_cons_of_pos (by simpa using hall), List.map_cons]
      obtain ⟨q1, q2⟩ := ihh _ _ r2
      exact ⟨by rw [r1, q1], q2⟩
    · have hno : ∀ i ∈ x.md.ids, S i = false := by
        rcases hS x (by simp) with h | h
        · exact absurd (List.all_eq_true.2 h) hall
        · exact h
      have r := try_other (fun i => S i = true) s t hst x (hx x (by simp)) fun i hi => by simp [hno i hi]
      rw [List.filter_cons_of_neg (by simpa using hall)]
      simp only [chainCalls, List.zip_cons_cons]
      rw [List.filter_cons_of_neg (by simpa using hall)]
      exact ihh _ _ r

/-- **C148.** In every history of calls of a stack of online convolutions and pointwise functions, accepted or refused, on batches that are within or outside a set `S` of stream ids: the calls on batches within `S` have the outcomes, and leave the buffers
of the ids in `S`, that they have when all the other calls are left out. -/
theorem C148_sessions (S : String → Bool) (s : List (Layer α × Buf α)) (xs : List (ST α)) (hx : ∀ x ∈ xs, x.md.WF ∧ x.rows.length = x.md.ids.length)
    (hS : ∀ x ∈ xs, (∀ i ∈ x.md.ids, S i = true) ∨ ∀ i ∈ x.md.ids, S i = false) :
    (chainCalls s xs).1.length = xs.length ∧
    ((xs.zip (chainCalls s xs).1).filter fun p => p.1.md.ids.all S).map (·.2) = (chainCalls s (xs.filter fun x => x.md.ids.all S)).1 ∧
    SameAt (fun i => S i = true) (chainCalls s xs).2 (chainCalls s (xs.filter fun x => x.md.ids.all S)).2 := by
  refine ⟨?_, session_same S s s (sameAt_refl _ s) xs hx hS⟩
  clear hx hS
  induction xs generalizing s with
  | nil => rfl
  | cons x xs ih => simp [chainCalls, ih]

/-- Two chunks of stream `a`, with a refused call and a call on stream `b` in between. -/
example :
    let s : List (Layer Int × Buf Int) := [(.conv ⟨2, 1, 1, 0⟩ exG, fun _ => none), (.act (· + 1), fun _ => none)]
    let a₁ : ST Int := { md := ⟨["a"], [true], [false], [2], none⟩, width := 2, rows := [[1, 2]] }
    let bad : ST Int := { md := ⟨["b"], [false], [false], [1], none⟩, width := 1, rows := [[7]] }
    let b₁ : ST Int := { md := ⟨["b"], [true], [true], [2], none⟩, width := 2, rows := [[5, 6]] }
    let a₂ : ST Int := { md := ⟨["a"], [false], [true], [1], none⟩, width := 1, rows := [[3]] }
    ((chainCalls s [a₁, bad, b₁, a₂]).1.map fun r => r.map fun y => y.rows) = [.ok [[13]], .error .typeError, .ok [[57]], .ok [[24]]] ∧
    ((chainCalls s [a₁, a₂]).1.map fun r => r.map fun y => y.rows) = [.ok [[13]], .ok [[24]]] := by decide

/-! ### C149: refused calls of a stack -/

/-- The layers `p` one after the other accept a batch: what comes out, and their new states. -/
def Accepts : List (Layer α × Buf α) → ST α → ST α → List (Layer α × Buf α) → Prop
  | (l, b) :: p, x, y, q => ∃ z b' q', l.step b x = .ok (z, b') ∧ q = (l, b') :: q' ∧ Accepts p z y q'
  | [], x, y, q => y = x ∧ q = []

/-- A stack of a convolution of width 2 and one of width 3 and stride 3. -/
def exStack : List (Layer Int × Buf Int) := [(.conv ⟨2, 1, 1, 0⟩ exG, fun _ => none), (.conv ⟨3, 1, 3, 0⟩ exG, fun _ => none)]

/-- **C149 is false of the code.** The chunk `[5]` of a running stream is refused by the second layer, which has too few frames; the first layer has taken it in. Sent again with the frames that follow it, its frame is used twice. -/
theorem C149_refused_false :
    let a₁ : ST Int := { md := ⟨["a"], [true], [false], [4], none⟩, width := 4, rows := [[1, 2, 3, 4]] }
    let a₂ : ST Int := { md := ⟨["a"], [false], [false], [1], none⟩, width := 1, rows := [[5]] }
    let a₃ : ST Int := { md := ⟨["a"], [false], [true], [3], none⟩, width := 3, rows := [[5, 6, 7]] }
    ((chainCalls exStack [a₁, a₂, a₃]).1.map fun r => r.map fun y => y.rows) = [.ok [[1464]], .error .runtimeError, .ok [[6127]]] ∧
    ((chainCalls exStack [a₁, a₃]).1.map fun r => r.map fun y => y.rows) = [.ok [[1464]], .ok [[5127]]] := by decide

/-- **C149, the part that holds.** A refused call has changed the states of the layers before the one that refused, as an accepted call does, and no others; so it has changed nothing if there are only pointwise functions before that layer. Missing: stacks
in which a layer after a convolution refuses. -/
theorem C149_refused_partial (s : List (Layer α × Buf α)) (x : ST α) (e : PyErr) (s' : List (Layer α × Buf α)) (h : chainTry s x = (.error e, s')) :
    ∃ p q r l b z, s = p ++ (l, b) :: r ∧ s' = q ++ (l, b) :: r ∧ Accepts p x z q ∧ l.step b z = .error e ∧ ((∀ a ∈ p, ∃ f, a.1 = .act f) → s' = s) := by
  induction s generalizing x s' with
  | nil => simp [chainTry] at h
  | cons a s ih =>
    obtain ⟨l, b⟩ := a
    simp only [chainTry] at h
    cases hl : l.step b x with
    | error e' =>
      rw [hl] at h
      simp only [Prod.mk.injEq, Except.error.injEq] at h
      obtain ⟨rfl, rfl⟩ := h
      exact ⟨[], [], s, l, b, x, rfl, rfl, ⟨rfl, rfl⟩, hl, fun _ => rfl⟩
    | ok o =>
      obtain ⟨y, b'⟩ := o
      rw [hl] at h
      simp only [Prod.mk.injEq] at h
      obtain ⟨h1, rfl⟩ := h
      obtain ⟨p, q, r, l', c, z, hs, hs', ha, hz, hp⟩ := ih y (chainTry s y).2 (by rw [← h1])
      refine ⟨(l, b) :: p, (l, b') :: q, r, l', c, z, by rw [hs]; rfl, by rw [hs']; rfl, ⟨y, b', q, hl, rfl, ha⟩, hz, ?_⟩
      intro hall
      obtain ⟨f, hf⟩ := hall (l, b) (by simp)
      simp only at hf
      subst hf
      simp only [Layer.step, Except.ok.injEq, Prod.mk.injEq] at hl
      rw [hp fun a ha => hall a (by simp [ha]), hl.2]

example :
    let x : ST Int := { md := ⟨["a"], [true], [false], [1], none⟩, width := 1, rows := [[5]] }
    (chainTry [(.act (· + 1), fun _ => none), (.conv ⟨2, 1, 1, 0⟩ exG, fun _ => none)] x).1.map (fun y => y.rows) = .error .runtimeError := by decide

/-- The second layer refuses: the buffer of the first one holds the last frame of the refused chunk. -/
example :
    let x : ST Int := { md := ⟨["a"], [true], [false], [2], none⟩, width := 2, rows := [[5, 6]] }
    ((chainTry exStack x).1.map (fun y => y.rows), (chainTry exStack x).2.map fun a => a.2 "a") = (.error .runtimeError, [some [6], none]) := by decide

end
end DS.Conv
