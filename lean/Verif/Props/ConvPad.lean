import Verif.Props.ConvChain
import Verif.Props.ConvMem
/-! C112, C113: the content of the padding, and pointwise functions between convolutions. -/

namespace DS.Conv
open Meta
section
variable {α β : Type} [Zero α] [Zero β]

/-- Rows of equal sizes that agree on the first `lengths` frames. -/
def AgreeRows : List Int → List (List α) → List (List α) → Prop
  | l :: ls, r :: rs, r' :: rs' => r.take l.toNat = r'.take l.toNat ∧ r.length = r'.length ∧ AgreeRows ls rs rs'
  | [], [], [] => True
  | _, _, _ => False

/-- Two batches that differ at most in the content of their padding. -/
def SameButPadding (x x' : ST α) : Prop :=
  x'.md = x.md ∧ x'.width = x.width ∧ AgreeRows x.md.lengths x.rows x'.rows

/-- A batch as torch holds it: one row per sequence, each as wide as the batch, no sequence longer than that. -/
def Shaped (x : ST α) : Prop :=
  x.md.WF ∧ x.rows.length = x.md.ids.length ∧ (∀ r ∈ x.rows, r.length = x.width) ∧ ∀ l ∈ x.md.lengths, 0 ≤ l ∧ l ≤ x.width

/-- A batch of two complete sequences, `[1]` and `[2, 3]`, with the value 9 in the padding. -/
def exDirty : ST Int := { md := ⟨["a", "b"], [true, true], [true, true], [1, 2], none⟩, width := 2, rows := [[1, 9], [2, 3]] }
/-- The same batch with zeros in the padding. -/
def exClean : ST Int := { exDirty with rows := [[1, 0], [2, 3]] }

/-- **C112 is false of the code.** With padding 1 and kernel 2, the last output of the shorter sequence is computed from the content of the padding. -/
theorem C112_padding_false : SameButPadding exClean exDirty ∧ Shaped exDirty ∧ Shaped exClean ∧
    ((forward ⟨2, 1, 1, 1⟩ exG (fun _ => none) exClean).map fun o => o.y.rows) = .ok [[1, 10, 0], [2, 23, 30]] ∧
    ((forward ⟨2, 1, 1, 1⟩ exG (fun _ => none) exDirty).map fun o => o.y.rows) = .ok [[1, 19, 0], [2, 23, 30]] := by
  refine ⟨⟨rfl, rfl, ?_⟩, ?_, ?_, by decide, by decide⟩
  · simp [AgreeRows, exClean, exDirty]
  · unfold Shaped; decide
  · unfold Shaped; decide

theorem agree_get {ls : List Int} {rs rs' : List (List α)} (h : AgreeRows ls rs rs') : rs'.length = rs.length ∧ ls.length = rs.length := by
  induction ls generalizing rs rs' with
  | nil =>
    match rs, rs', h with
    | [], [], _ => simp
  | cons l ls ih =>
    match rs, rs', h with
    | r :: rs, r' :: rs', h => simpa using ih h.2.2

/-- Frames below the length agree. -/
theorem take_getD {r r' : List α} {n : Nat} (h : r.take n = r'.take n) (k : Nat) (hk : k < n) : r.getD k 0 = r'.getD k 0 := by
  have := congrArg (·[k]?) h
  simp only [List.getElem?_take, hk, if_true] at this
  simp [List.getD, this]

theorem taps_agree (c : Cfg) (hv : c.Valid) (r r' : List α) (l : Int) (h : r.take l.toNat = r'.take l.toNat) (o : Nat) (ho : (o : Int) < outLen c l) :
    taps c r (o * c.stride) = taps c r' (o * c.stride) := by
  have hs : (0 : Int) < c.stride := by have := hv.2.2; omega
  have h1 : (o : Int) ≤ (l - c.kw) / c.stride := by
    unfold outLen at ho
    omega
  have h2 : (o : Int) * c.stride ≤ l - c.kw := (Int.le_ediv_iff_mul_le hs).1 h1
  unfold taps
  apply List.map_congr_left
  intro i hi
  rw [List.mem_range] at hi
  refine take_getD h _ ?_
  have hk : i * c.dil + 1 ≤ c.kw := by
    rw [← span_eq c hv]
    unfold span
    have : i * c.dil ≤ (c.ks - 1) * c.dil := Nat.mul_le_mul_right _ (by omega)
    omega
  have h3 : ((o * c.stride + i * c.dil : Nat) : Int) < l := by
    push_cast
    have : ((i * c.dil + 1 : Nat) : Int) ≤ (c.kw : Int) := by exact_mod_cast hk
    push_cast at this
    omega
  omega

theorem maskRow_agree (c : Cfg) (hv : c.Valid) (g : List α → β) (n : Nat) (r r' : List α) (l : Int) (h : r.take l.toNat = r'.take l.toNat) :
    maskRow (outLen c l) ((List.range n).map fun o => g (taps c (fpad 0 0 r) (o * c.stride))) =
      maskRow (outLen c l) ((List.range n).map fun o => g (taps c (fpad 0 0 r') (o * c.stride))) := by
  apply List.ext_getElem?
  intro j
  rw [maskRow_get, maskRow_get, List.getElem?_map, List.getElem?_map]
  cases hj : (List.range n)[j]? with
  | none => rfl
  | some k =>
    have : k = j := by
      have := List.getElem?_eq_some_iff.1 hj
      obtain ⟨h1, h2⟩ := this
      simpa using h2.symm
    subst this
    simp only [Option.map_some, Option.some.injEq]
    split
    · rename_i hlt
      rw [fpad_zero, fpad_zero, taps_agree c hv r r' l h k hlt]
    · rfl

theorem conv_agree (c : Cfg) (hv : c.Valid) (g : List α → β) (w : Nat) (ls : List Int) (rs rs' : List (List α)) (h : AgreeRows ls rs rs') :
    (torchConv1d c g 0 w rs).map (fun y => (y.1, List.zipWith maskRow (ls.map (outLen c)) y.2)) =
      (torchConv1d c g 0 w rs').map (fun y => (y.1, List.zipWith maskRow (ls.map (outLen c)) y.2)) := by
  unfold torchConv1d
  split
  · rfl
  · rw [map_ok', map_ok']
    congr 2
    generalize (w + 2 * 0 - c.kw) / c.stride + 1 = n
    induction ls generalizing rs rs' with
    | nil => rfl
    | cons l ls ih =>
      match rs, rs', h with
      | r :: rs, r' :: rs', h =>
        simp only [List.map_cons, List.zipWith_cons_cons, ih rs rs' h.2.2, maskRow_agree c hv g n r r' l h.1]

theorem buf_agree (c : Cfg) (ids : List String) (es : List Bool) (ls : List Int) (rs rs' : List (List α)) (h : AgreeRows ls rs rs') :
    bufItems c ids es ls rs = bufItems c ids es ls rs' := by
  induction ids generalizing es ls rs rs' with
  | nil => simp [bufItems]
  | cons i ids ih =>
    match es, ls, rs, rs', h with
    | [], _, _, _, _ => simp [bufItems]
    | e :: es, [], [], [], _ => simp [bufItems]
    | e :: es, l :: ls, r :: rs, r' :: rs', h =>
      simp only [bufItems, ih es ls rs rs' h.2.2]
      congr 1
      unfold bufItem
      rw [h.1]

/-- `conv1d` after the padding block. -/
theorem conv1d_agree (c : Cfg) (hv : c.Valid) (g : List α → β) (x x' : ST α)
    (h : (∃ e, applyPadding c x = .error e ∧ applyPadding c x' = .error e) ∨
      ∃ m w rs rs', applyPadding c x = .ok (m, 0, w, rs) ∧ applyPadding c x' = .ok (m, 0, w, rs') ∧ AgreeRows m.lengths rs rs') :
    conv1d c g x = conv1d c g x' := by
  unfold conv1d
  rcases h with ⟨e, h1, h2⟩ | ⟨m, w, rs, rs', h1, h2, h3⟩
  · rw [h1, h2]
  · rw [h1, h2]
    simp only [Except.bind_ok']
    have hb : tempBuffer c m rs = tempBuffer c m rs' := by
      unfold tempBuffer
      rw [buf_agree c m.ids m.eos m.lengths rs rs' h3]
    have hc := conv_agree c hv g w m.lengths rs rs' h3
    rw [hb]
    cases e1 : torchConv1d c g 0 w rs with
    | error e =>
      rw [e1, map_error'] at hc
      cases e2 : torchConv1d c g 0 w rs' with
      | error e' =>
        rw [e2, map_error'] at hc
        simp only [Except.error.injEq] at hc
        rw [hc]
      | ok q => rw [e2, map_ok'] at hc; simp at hc
    | ok q =>
      rw [e1, map_ok'] at hc
      cases e2 : torchConv1d c g 0 w rs' with
      | error e' => rw [e2, map_error'] at hc; simp at hc
      | ok q' =>
        rw [e2, map_ok'] at hc
        simp only [Except.ok.injEq, Prod.mk.injEq] at hc
        simp only [Except.bind_ok', hc.1, hc.2]

theorem ragged_agree (w : Nat) (ms : List Meta) (rs rs' : List (List α)) (bs : List (Option (List α)))
    (hl : ∀ (k : Nat) (m : Meta) (r r' : List α), ms[k]? = some m → rs[k]? = some r → rs'[k]? = some r' → ∀ l, pyGet m.lengths 0 = .ok l → r.take l.toNat = r'.take l.toNat)
    (hn : rs'.length = rs.length) : raggedRows w ms rs bs = raggedRows w ms rs' bs := by
  induction ms generalizing rs rs' bs with
  | nil => simp [raggedRows]
  | cons m ms ih =>
    match rs, rs', hn with
    | [], [], _ => simp [raggedRows]
    | r :: rs, r' :: rs', hn =>
      match bs with
      | [] => simp [raggedRows]
      | b :: bs =>
        simp only [raggedRows]
        have h1 : narrowRow m w r = narrowRow m w r' := by
          unfold narrowRow
          cases hp : pyGet m.lengths 0 with
          | error e => rfl
          | ok l =>
            simp only [Except.bind_ok']
            rw [hl 0 m r r' rfl rfl rfl l hp]
        rw [h1, ih rs rs' bs (fun k m r r' a b c => hl (k + 1) m r r' (by simpa using a) (by simpa using b) (by simpa using c)) (by simpa using hn)]

/-- The rows of the metadata one by one: the length of each. -/
theorem agree_at {ls : List Int} {rs rs' : List (List α)} (h : AgreeRows ls rs rs') (k : Nat) (l : Int) (r r' : List α) (hl : ls[k]? = some l) (hr : rs[k]? = some r)
    (hr' : rs'[k]? = some r') : r.take l.toNat = r'.take l.toNat := by
  induction ls generalizing rs rs' k with
  | nil => simp at hl
  | cons a ls ih =>
    match rs, rs', h with
    | q :: rs, q' :: rs', h =>
      cases k with
      | zero =>
        simp only [List.getElem?_cons_zero, Option.some.injEq] at hl hr hr'
        subst hl hr hr'
        exact h.1
      | succ k => exact ih h.2.2 k (by simpa using hl) (by simpa using hr) (by simpa using hr')

theorem catRagged_agree (bs : List (Option (List α))) (x x' : ST α) (hx : Shaped x) (hne : x.md.ids ≠ []) (h : SameButPadding x x') :
    catRagged bs x = catRagged bs x' := by
  unfold catRagged
  rw [h.1, h.2.1]
  have he := eq_ofRows x.md hx.1
  have hrs : x.md.rows ≠ [] := by
    intro h0
    rw [ids_rows x.md hx.1, h0] at hne
    exact hne rfl
  have hu : x.md.unbindBatch = .ok (x.md.rows.map fun r => ofRows x.md.chunk.isSome [r]) := by
    conv_lhs => rw [he]
    exact unbind_ofRows _ _ hrs
  rw [hu]
  simp only [Except.bind_ok']
  rw [ragged_agree x.width _ x.rows x'.rows bs ?_ (agree_get h.2.2).1]
  intro k m r r' hm hr hr' l hl
  refine agree_at h.2.2 k l r r' ?_ hr hr'
  rw [lengths_rows x.md hx.1]
  rw [List.getElem?_map] at hm ⊢
  cases hk : x.md.rows[k]? with
  | none => simp [hk] at hm
  | some row =>
    rw [hk] at hm
    simp only [Option.map_some, Option.some.injEq] at hm ⊢
    subst hm
    have : pyGet (ofRows x.md.chunk.isSome [row]).lengths 0 = .ok row.len := rfl
    rw [this] at hl
    simpa using hl

theorem mapM_id_length {γ : Type} (bs : List (Option γ)) (data : List γ) (h : bs.mapM id = some data) :
    data.length = bs.length ∧ ∀ d ∈ data, some d ∈ bs := by
  induction bs generalizing data with
  | nil => simp only [List.mapM_nil, Option.pure_def, Option.some.injEq] at h; subst h; simp
  | cons b bs ih =>
    rw [List.mapM_cons] at h
    cases b with
    | none => simp at h
    | some b =>
      cases hb : bs.mapM id with
      | none => simp [hb] at h
      | some ds =>
        simp [hb] at h
        subst h
        obtain ⟨h1, h2⟩ := ih ds hb
        refine ⟨by simp [h1], ?_⟩
        intro d hd
        rcases List.mem_cons.1 hd with rfl | hd
        · simp
        · exact List.mem_cons_of_mem _ (h2 d hd)

theorem agree_cat (ref : Nat) (ls : List Int) (data rs rs' : List (List α)) (h : AgreeRows ls rs rs') (hd : data.length = rs.length) (hr : ∀ d ∈ data, d.length = ref)
    (hl : ∀ l ∈ ls, 0 ≤ l) : AgreeRows (ls.map (· + (ref : Int))) (List.zipWith (· ++ ·) data rs) (List.zipWith (· ++ ·) data rs') := by
  induction ls generalizing data rs rs' with
  | nil =>
    match rs, rs', h, data, hd with
    | [], [], _, [], _ => trivial
  | cons l ls ih =>
    match rs, rs', h, data, hd with
    | r :: rs, r' :: rs', h, d :: data, hd =>
      have h0 := hl l (by simp)
      have hdr := hr d (by simp)
      have ht : (l + (ref : Int)).toNat = d.length + l.toNat := by omega
      refine ⟨?_, ?_, ih data rs rs' h.2.2 (by simpa using hd) (fun d hd => hr d (by simp [hd])) fun l hl' => hl l (by simp [hl'])⟩
      · simp only [ht]
        rw [List.take_length_add_append, List.take_length_add_append, h.1]
      · simp [h.2.1]

/-- What the pre-hook makes of two batches that differ in their padding. -/
theorem pre_agree (c : Cfg) (buf : Buf α) (x x' : ST α) (hx : Shaped x) (h : SameButPadding x x') :
    preHook c buf x = preHook c buf x' ∨
      ∃ z z' s, preHook c buf x = .ok (z, s) ∧ preHook c buf x' = .ok (z', s) ∧ SameButPadding z z' ∧ z.md.sos = x.md.sos ∧ z.md.eos = x.md.eos ∧
        z.md.ids = x.md.ids ∧ Shaped z ∧ ∃ k : Nat, z.width = k + x.width ∧ z.md.lengths = x.md.lengths.map (· + (k : Int)) := by
  unfold preHook
  rw [h.1]
  split
  · rename_i hc
    have hne : x.md.ids ≠ [] := by
      intro h0
      have : x.md.sos = [] := List.length_eq_zero_iff.1 (by rw [hx.1.1, h0]; rfl)
      have h2 := hc.2
      unfold allStarting at h2
      rw [this] at h2
      simp at h2
    simp only
    split
    · rename_i hsame
      unfold catEqual
      cases hm : (x.md.ids.map buf).mapM id with
      | none => left; simp [map_error']
      | some data =>
        right
        obtain ⟨d1, d2⟩ := mapM_id_length _ data hm
        simp only [map_ok']
        have hlen : ∀ d ∈ data, d.length = bufLen ((x.md.ids.map buf).head?.getD none) := by
          intro d hd
          have := d2 d hd
          unfold sameLengths at hsame
          rw [List.all_eq_true] at hsame
          have := hsame _ this
          simpa [bufLen] using this
        refine ⟨_, _, _, rfl, rfl, ⟨by simp [h.1], by simp [h.2.1], ?_⟩, rfl, rfl, rfl, ⟨⟨hx.1.1, hx.1.2.1, ?_, hx.1.2.2.2⟩, ?_, ?_, ?_⟩, _, rfl, rfl⟩
        · refine agree_cat _ _ _ _ _ h.2.2 ?_ hlen fun l hl => (hx.2.2.2 l hl).1
          rw [d1, List.length_map, hx.2.1]
        · simpa using hx.1.2.2.1
        · simp [d1, hx.2.1]
        · intro r hr
          obtain ⟨k, hk, rfl⟩ := List.getElem_of_mem hr
          simp only [List.length_zipWith] at hk
          simp only [List.getElem_zipWith, List.length_append]
          rw [hlen _ (List.getElem_mem _), hx.2.2.1 _ (List.getElem_mem _)]
        · intro l hl
          simp only [List.mem_map] at hl
          obtain ⟨l0, hl0, rfl⟩ := hl
          have := hx.2.2.2 l0 hl0
          push_cast
          omega
    · left
      rw [catRagged_agree _ x x' hx hne h]
  · right
    exact ⟨x, x', true, rfl, rfl, h, rfl, rfl, rfl, hx, 0, by simp, by simp⟩

theorem agree_of {ls : List Int} {rs rs' : List (List α)} (h1 : ls.length = rs.length) (h2 : rs'.length = rs.length)
    (h : ∀ (k : Nat) (l : Int) (r r' : List α), ls[k]? = some l → rs[k]? = some r → rs'[k]? = some r' → r.take l.toNat = r'.take l.toNat ∧ r.length = r'.length) :
    AgreeRows ls rs rs' := by
  induction ls generalizing rs rs' with
  | nil =>
    match rs, rs', h1, h2 with
    | [], [], _, _ => trivial
  | cons l ls ih =>
    match rs, rs', h1, h2 with
    | r :: rs, r' :: rs', h1, h2 =>
      obtain ⟨q1, q2⟩ := h 0 l r r' rfl rfl rfl
      exact ⟨q1, q2, ih (by simpa using h1) (by simpa using h2) fun k l r r' a b c => h (k + 1) l r r' (by simpa using a) (by simpa using b) (by simpa using c)⟩

theorem agree_len {ls : List Int} {rs rs' : List (List α)} (h : AgreeRows ls rs rs') (k : Nat) (r r' : List α) (hr : rs[k]? = some r) (hr' : rs'[k]? = some r') :
    r.length = r'.length := by
  induction ls generalizing rs rs' k with
  | nil =>
    match rs, rs', h with
    | [], [], _ => simp at hr
  | cons a ls ih =>
    match rs, rs', h with
    | q :: rs, q' :: rs', h =>
      cases k with
      | zero =>
        simp only [List.getElem?_cons_zero, Option.some.injEq] at hr hr'
        subst hr hr'
        exact h.2.1
      | succ k => exact ih h.2.2 k (by simpa using hr) (by simpa using hr')

theorem addWhere_get (p : Int) (ls : List Int) (bs : List Bool) (k : Nat) (l : Int) (b : Bool) (hl : ls[k]? = some l) (hb : bs[k]? = some b) :
    (addWhere p ls bs)[k]? = some (l + if b then p else 0) := by
  unfold addWhere
  rw [List.getElem?_zipWith, hl, hb]
  cases b <;> simp

theorem addWhere_false (p : Int) (ls : List Int) (bs : List Bool) (h : ∀ b ∈ bs, b = false) (hl : bs.length = ls.length) : addWhere p ls bs = ls := by
  induction ls generalizing bs with
  | nil => simp [addWhere]
  | cons l ls ih =>
    match bs, hl with
    | b :: bs, hl =>
      have hb := h b (by simp)
      subst hb
      have := ih bs (fun b hb => h b (by simp [hb])) (by simpa using hl)
      unfold addWhere at this ⊢
      simp [this]

/-- The padded lengths of a batch that does not both start and end. -/
theorem padLengths_eq (p : Nat) (m : Meta) (hwf : m.WF) (h : (m.allStarting && m.allEnding) = false) :
    padLengths p m = addWhere p (addWhere p m.lengths m.sos) m.eos := by
  unfold padLengths
  rw [h, if_neg (by simp)]
  split
  · rfl
  · rename_i hn
    simp only [Bool.or_eq_true, not_or, Bool.not_eq_true] at hn
    have h1 : ∀ b ∈ m.sos, b = false := by
      intro b hb
      have := List.any_eq_false.1 hn.1 b hb
      simpa using this
    have h2 : ∀ b ∈ m.eos, b = false := by
      intro b hb
      have := List.any_eq_false.1 hn.2 b hb
      simpa using this
    rw [addWhere_false _ _ _ h1 (by rw [hwf.1, hwf.2.2.1]), addWhere_false _ _ _ h2 (by rw [hwf.2.1, hwf.2.2.1])]

/-- The rows of `m` that end have no padding, and if a row starts then some row that starts or ends has none. -/
def NoPadding (w : Nat) (m : Meta) : Prop :=
  (∀ k : Nat, m.eos[k]? = some true → m.lengths[k]? = some (w : Int)) ∧
    (true ∈ m.sos → ∃ k : Nat, (m.sos[k]? = some true ∨ m.eos[k]? = some true) ∧ m.lengths[k]? = some (w : Int))

theorem agree_full {r r' : List α} {l : Int} (w : Nat) (hl : l = w) (h1 : r.length = w) (h2 : r.length = r'.length) (h : r.take l.toNat = r'.take l.toNat) : r = r' := by
  have : l.toNat = w := by omega
  rw [this, List.take_of_length_le (by omega), List.take_of_length_le (by omega)] at h
  exact h

/-- The padding block on batches that differ in their padding. -/
theorem pad_agree (c : Cfg) (x x' : ST α) (h : SameButPadding x x') (hx : Shaped x) (hne : x.md.ids ≠ [])
    (hc : c.padding = 0 ∨ NoPadding x.width x.md) :
    x = x' ∨ (∃ e, applyPadding c x = .error e ∧ applyPadding c x' = .error e) ∨
      ∃ m w rs rs', applyPadding c x = .ok (m, 0, w, rs) ∧ applyPadding c x' = .ok (m, 0, w, rs') ∧ AgreeRows m.lengths rs rs' := by
  obtain ⟨hwf, hrl, hrw, hl⟩ := hx
  by_cases hp : c.padding > 0
  swap
  · right
    unfold applyPadding
    rw [h.1, h.2.1, if_neg hp, if_neg hp]
    exact .inr ⟨_, _, _, _, rfl, rfl, h.2.2⟩
  have hN : NoPadding x.width x.md := by
    rcases hc with hc | hc
    · omega
    · exact hc
  obtain ⟨hN1, hN2⟩ := hN
  have hlen := agree_get h.2.2
  have hlrow : ∀ (k : Nat) (r : List α), x.rows[k]? = some r → r.length = x.width := fun k r hr => hrw r (List.mem_of_getElem? hr)
  by_cases haa : (x.md.allStarting && x.md.allEnding) = true
  · left
    rw [Bool.and_eq_true] at haa
    have hee : ∀ e ∈ x.md.eos, e = true := List.all_eq_true.1 haa.2
    have hrows : x.rows = x'.rows := by
      apply List.ext_getElem hlen.1.symm
      intro k h1 h2
      have hk : x.rows[k]? = some x.rows[k] := List.getElem?_eq_getElem h1
      have hk' : x'.rows[k]? = some x'.rows[k] := List.getElem?_eq_getElem h2
      have hle : k < x.md.eos.length := by rw [hwf.2.1, ← hrl]; exact h1
      have hlk := hN1 k (by rw [List.getElem?_eq_getElem hle, hee _ (List.getElem_mem hle)])
      exact agree_full x.width rfl (hlrow k _ hk) (agree_len h.2.2 k _ _ hk hk') (agree_at h.2.2 k _ _ _ hlk hk hk')
    cases x
    cases x'
    have := h.1
    have := h.2.1
    simp_all
  · right
    rw [Bool.not_eq_true] at haa
    unfold applyPadding
    rw [h.1, h.2.1, if_pos hp, if_pos hp]
    have hpl := padLengths_eq c.padding x.md hwf haa
    simp only
    generalize hm : ({ x.md with lengths := padLengths c.padding x.md } : Meta) = m
    have hmlen : m.lengths = addWhere c.padding (addWhere c.padding x.md.lengths x.md.sos) x.md.eos := by rw [← hm]; exact hpl
    have hms : m.sos = x.md.sos := by rw [← hm]
    have hma : m.allStarting = x.md.allStarting := by rw [← hm]; rfl
    have hmy : m.anyStarting = x.md.anyStarting := by rw [← hm]; rfl
    have hme : m.allEnding = x.md.allEnding := by rw [← hm]; rfl
    rw [hma, hme, haa, if_neg (by simp), if_neg (by simp)]
    have hll : m.lengths.length = x.rows.length := by
      rw [hmlen, addWhere_length, addWhere_length, hwf.1, hwf.2.1, hwf.2.2.1, hrl]
      omega
    -- the columns at a row
    have hcol : ∀ (k : Nat) (r : List α), x.rows[k]? = some r → ∃ l s e, x.md.lengths[k]? = some l ∧ x.md.sos[k]? = some s ∧ x.md.eos[k]? = some e ∧
        m.lengths[k]? = some (l + (if s then (c.padding : Int) else 0) + (if e then (c.padding : Int) else 0)) := by
      intro k r hr
      have hk : k < x.rows.length := (List.getElem?_eq_some_iff.1 hr).1
      have q1 : k < x.md.lengths.length := by rw [hwf.2.2.1, ← hrl]; exact hk
      have q2 : k < x.md.sos.length := by rw [hwf.1, ← hrl]; exact hk
      have q3 : k < x.md.eos.length := by rw [hwf.2.1, ← hrl]; exact hk
      refine ⟨_, _, _, List.getElem?_eq_getElem q1, List.getElem?_eq_getElem q2, List.getElem?_eq_getElem q3, ?_⟩
      rw [hmlen]
      exact addWhere_get _ _ _ k _ _ (addWhere_get _ _ _ k _ _ (List.getElem?_eq_getElem q1) (List.getElem?_eq_getElem q2)) (List.getElem?_eq_getElem q3)
    cases hml : m.maxLength with
    | error e => exact .inl ⟨e, rfl, rfl⟩
    | ok ml =>
      right
      simp only [Except.bind_ok']
      -- if a row starts, at least `padding` columns are added
      have hbig : true ∈ x.md.sos → (x.width : Int) + c.padding ≤ ml := by
        intro ht
        obtain ⟨k, hse, hlk⟩ := hN2 ht
        have hk : k < x.rows.length := by
          rw [hrl, ← hwf.2.2.1]
          exact (List.getElem?_eq_some_iff.1 hlk).1
        obtain ⟨l, s, e, a1, a2, a3, a4⟩ := hcol k _ (List.getElem?_eq_getElem hk)
        have : l = x.width := by rw [a1] at hlk; simpa using hlk
        have hmx := ((torchMax_iff _ _).1 hml).2 _ (List.mem_of_getElem? a4)
        rcases hse with hs | he
        · rw [a2] at hs
          simp only [Option.some.injEq] at hs
          subst hs
          simp only [if_true] at hmx
          split at hmx <;> omega
        · rw [a3] at he
          simp only [Option.some.injEq] at he
          subst he
          simp only [if_true] at hmx
          split at hmx <;> omega
      have hfull : ∀ (k : Nat) (r r' : List α), x.rows[k]? = some r → x'.rows[k]? = some r' → x.md.eos[k]? = some true → r = r' := by
        intro k r r' hr hr' he
        exact agree_full x.width rfl (hlrow k r hr) (agree_len h.2.2 k r r' hr hr') (agree_at h.2.2 k _ r r' (hN1 k he) hr hr')
      by_cases hst : x.md.allStarting = true
      · have hall : ∀ s ∈ x.md.sos, s = true := List.all_eq_true.1 hst
        have ht : true ∈ x.md.sos := by
          obtain ⟨s0, ss, hsos⟩ : ∃ s0 ss, x.md.sos = s0 :: ss := List.exists_cons_of_length_pos (by rw [hwf.1]; exact List.length_pos_iff.2 hne)
          rw [hsos, hall s0 (by simp [hsos])]
          simp
        have hge := hbig ht
        have hw : ∀ rows : List (List α), widen c.padding m x.width rows ml =
            .ok (x.width + (ml - x.width).toNat, rows.map (fpad c.padding (ml - x.width - c.padding).toNat)) := by
          intro rows
          unfold widen
          simp only
          rw [if_pos (by omega), hma, hst, if_pos rfl, if_pos (by omega)]
        have hsh : ∀ rows : List (List α), shiftStarting c.padding m rows = rows := by
          intro rows
          unfold shiftStarting
          rw [hma, hst]
          simp
        rw [hw, hw]
        simp only [Except.bind_ok', hsh]
        refine ⟨_, _, _, _, rfl, rfl, agree_of (by simp [hll]) (by simp [hlen.1]) ?_⟩
        intro k l r r' a b d
        rw [List.getElem?_map, Option.map_eq_some_iff] at b d
        obtain ⟨r0, hr0, rfl⟩ := b
        obtain ⟨r0', hr0', rfl⟩ := d
        have hln := agree_len h.2.2 k _ _ hr0 hr0'
        refine ⟨?_, by simp [fpad, hln]⟩
        obtain ⟨l0, s, e, a1, a2, a3, a4⟩ := hcol k r0 hr0
        have hs : s = true := hall s (List.mem_of_getElem? a2)
        subst hs
        cases e with
        | true => rw [hfull k r0 r0' hr0 hr0' a3]
        | false =>
          have hl0 := hl l0 (List.mem_of_getElem? a1)
          rw [a4] at a
          simp only [if_true, Bool.false_eq_true, if_false, Int.add_zero, Option.some.injEq] at a
          subst a
          have ht : (l0 + (c.padding : Int)).toNat = (List.replicate c.padding (0 : α)).length + l0.toNat := by simp; omega
          have hle : l0.toNat ≤ r0.length := by rw [hlrow k r0 hr0]; omega
          unfold fpad
          rw [ht, List.append_assoc, List.append_assoc, List.take_length_add_append, List.take_length_add_append, List.take_append_of_le_length hle,
            List.take_append_of_le_length (by rw [← hln]; exact hle), agree_at h.2.2 k _ _ _ a1 hr0 hr0']
      · rw [Bool.not_eq_true] at hst
        have hw : ∀ rows : List (List α), widen c.padding m x.width rows ml = .ok (x.width + (ml - x.width).toNat, rows.map (fpad 0 (ml - x.width).toNat)) := by
          intro rows
          unfold widen
          simp only
          rw [hma, hst]
          split
          · simp
          · rename_i hn
            have : (ml - x.width).toNat = 0 := by omega
            rw [this]
            have hid : (fpad 0 0 : List α → List α) = id := by
              funext r
              exact fpad_zero r
            rw [hid]
            simp
        have hsh : ∀ rows : List (List α), rows.length = x.rows.length → shiftStarting c.padding m rows = List.zipWith (fun r s => if s then roll c.padding r else r) rows x.md.sos := by
          intro rows hrows
          unfold shiftStarting
          rw [hma, hst, hmy, hms]
          split
          · rfl
          · rename_i hn
            have hany : x.md.anyStarting = false := by simpa using hn
            apply List.ext_getElem?
            intro k
            rw [List.getElem?_zipWith]
            cases hk : rows[k]? with
            | none => simp
            | some r =>
              have hkl : k < x.md.sos.length := by
                rw [hwf.1, ← hrl, ← hrows]
                exact (List.getElem?_eq_some_iff.1 hk).1
              have hkf : x.md.sos[k] = false := by
                have := List.any_eq_false.1 hany _ (List.getElem_mem hkl)
                simpa using this
              rw [List.getElem?_eq_getElem hkl, hkf]
              simp
        rw [hw, hw]
        simp only [Except.bind_ok']
        rw [hsh _ (by simp), hsh _ (by simp [hlen.1])]
        refine ⟨_, _, _, _, rfl, rfl, agree_of (by simp [hll, hwf.1, hrl]) (by simp [hlen.1]) ?_⟩
        intro k l r r' a b d
        rw [List.getElem?_zipWith, List.getElem?_map] at b d
        cases hr0 : x.rows[k]? with
        | none => simp [hr0] at b
        | some r0 =>
          cases hr0' : x'.rows[k]? with
          | none => simp [hr0'] at d
          | some r0' =>
            obtain ⟨l0, s, e, a1, a2, a3, a4⟩ := hcol k r0 hr0
            rw [hr0, a2] at b
            rw [hr0', a2] at d
            simp only [Option.map_some, Option.some.injEq] at b d
            subst b d
            have hln := agree_len h.2.2 k _ _ hr0 hr0'
            have hag := agree_at h.2.2 k _ _ _ a1 hr0 hr0'
            have hl0 := hl l0 (List.mem_of_getElem? a1)
            have hr0l := hlrow k r0 hr0
            cases e with
            | true =>
              have := hfull k r0 r0' hr0 hr0' a3
              subst this
              exact ⟨rfl, rfl⟩
            | false =>
              rw [a4] at a
              simp only [Bool.false_eq_true, if_false, Int.add_zero, Option.some.injEq] at a
              subst a
              cases s with
              | false =>
                simp only [Bool.false_eq_true, if_false, Int.add_zero]
                refine ⟨?_, by simp [fpad, hln]⟩
                unfold fpad
                simp only [List.replicate_zero, List.nil_append]
                rw [List.take_append_of_le_length (by omega), List.take_append_of_le_length (by omega), hag]
              | true =>
                simp only [if_true]
                have hge := hbig (List.mem_of_getElem? a2)
                have hroll : ∀ q : List α, q.length = x.width → roll c.padding (fpad 0 (ml - x.width).toNat q) =
                    List.replicate c.padding 0 ++ (q ++ List.replicate ((ml - x.width).toNat - c.padding) 0) := by
                  intro q hq
                  have := roll_zeros c.padding (ml - x.width).toNat q (by omega)
                  unfold zeros at this
                  unfold fpad
                  rw [List.replicate_zero, List.nil_append, this, List.append_assoc]
                rw [hroll _ hr0l, hroll _ (by rw [← hln]; exact hr0l)]
                refine ⟨?_, by simp [hln]⟩
                have ht : (l0 + (c.padding : Int)).toNat = (List.replicate c.padding (0 : α)).length + l0.toNat := by simp; omega
                rw [ht, List.take_length_add_append, List.take_length_add_append, List.take_append_of_le_length (by omega), List.take_append_of_le_length (by omega), hag]

/-- The buffers of the ids of a batch are used and differ in length: the kernel sees more than one frame, some row does not start, and two rows have buffers of different lengths. -/
def Ragged (c : Cfg) (buf : Buf α) (m : Meta) : Prop :=
  1 < span c ∧ false ∈ m.sos ∧ ∃ i ∈ m.ids, ∃ j ∈ m.ids, ((buf i).getD []).length ≠ ((buf j).getD []).length

theorem ragged_pre (c : Cfg) (hv : c.Valid) (buf : Buf α) (x x' : ST α) (hx : Shaped x) (h : SameButPadding x x') (hr : Ragged c buf x.md) :
    preHook c buf x = preHook c buf x' := by
  obtain ⟨h1, h2, i, hi, j, hj, hne⟩ := hr
  unfold preHook
  rw [h.1]
  have ha : x.md.allStarting = false := by
    unfold allStarting
    rw [List.all_eq_false]
    exact ⟨false, h2, by simp⟩
  have hs : sameLengths (x.md.ids.map buf) = false := by
    rw [← Bool.not_eq_true]
    intro hs
    unfold sameLengths at hs
    rw [List.all_eq_true] at hs
    have e1 := hs (buf i) (List.mem_map_of_mem hi)
    have e2 := hs (buf j) (List.mem_map_of_mem hj)
    simp only [beq_iff_eq, bufLen] at e1 e2
    exact hne (by rw [e1, e2])
  have hk : c.kw > 1 ∧ x.md.allStarting = false := ⟨by rw [← span_eq c hv]; exact h1, ha⟩
  simp only [hk, hs, and_self, if_true, Bool.false_eq_true, if_false]
  rw [catRagged_agree _ x x' hx (List.ne_nil_of_mem hi) h]

/-- **C112, the part that holds.** The content of the padding has no influence on the result of a call (output and its metadata, buffer, exceptions) if the module has no padding, or if the buffers of the batch are used and differ in length, or if
the rows that end are as long as the batch is wide and, when a row starts, some row that starts or ends is. Missing: modules with padding when a row that ends is shorter than the batch, or when all the rows that start are. -/
theorem C112_padding_partial (c : Cfg) (hv : c.Valid) (g : List α → β) (buf : Buf α) (x x' : ST α) (hx : Shaped x) (h : SameButPadding x x')
    (hc : c.padding = 0 ∨ Ragged c buf x.md ∨ NoPadding x.width x.md) :
    forward c g buf x' = forward c g buf x := by
  by_cases hne : x.md.ids = []
  · have h1 : x.rows = [] := List.length_eq_zero_iff.1 (by rw [hx.2.1, hne]; rfl)
    have h2 : x'.rows = [] := List.length_eq_zero_iff.1 (by rw [(agree_get h.2.2).1, h1]; rfl)
    have : x' = x := by
      cases x
      cases x'
      simp only at h1 h2
      have := h.1
      have := h.2.1
      simp_all
    rw [this]
  · unfold forward
    rcases pre_agree c buf x x' hx h with he | ⟨z, z', s, h1, h2, h3, h4, h5, h6, h7, k, h8, h9⟩
    · rw [he, h.1]
    · by_cases hrag : Ragged c buf x.md
      · rw [ragged_pre c hv buf x x' hx h hrag, h.1]
      rw [h1, h2]
      simp only [Except.bind_ok']
      have hzc : c.padding = 0 ∨ NoPadding z.width z.md := by
        rcases hc with hc | hc | hc
        · exact .inl hc
        · exact absurd hc hrag
        · right
          have hkk : ∀ j : Nat, x.md.lengths[j]? = some (x.width : Int) → z.md.lengths[j]? = some (z.width : Int) := by
            intro j hj
            rw [h8, h9, List.getElem?_map, hj]
            simp [Int.add_comm]
          refine ⟨fun j hj => hkk j (hc.1 j (by rw [← h5]; exact hj)), fun ht => ?_⟩
          obtain ⟨j, hj, hl⟩ := hc.2 (by rw [← h4]; exact ht)
          exact ⟨j, by rw [h4, h5]; exact hj, hkk j hl⟩
      rcases pad_agree c z z' h3 h7 (by rw [h6]; exact hne) hzc with he | he
      · rw [he, h.1]
      · rw [conv1d_agree c hv g z z' he, h.1]

/-- A batch in which one stream starts and ends and another goes on, whose chunk is padded with the value 9. -/
example : NoPadding 2 ⟨["a", "b"], [true, false], [true, false], [2, 1], none⟩ ∧
    ((forward ⟨2, 1, 1, 1⟩ exG (fun i => if i = "b" then some [5] else some [4]) { md := ⟨["a", "b"], [true, false], [true, false], [2, 1], none⟩, width := 2, rows := [[1, 2], [3, 9]] }).map
      fun o => o.y.rows) =
    ((forward ⟨2, 1, 1, 1⟩ exG (fun i => if i = "b" then some [5] else some [4]) { md := ⟨["a", "b"], [true, false], [true, false], [2, 1], none⟩, width := 2, rows := [[1, 2], [3, 0]] }).map
      fun o => o.y.rows) := by
  refine ⟨⟨fun k hk => ?_, fun _ => ⟨0, by simp⟩⟩, by decide⟩
  match k, hk with
  | 0, _ => rfl
  | 1, hk => simp at hk
  | _ + 2, hk => simp at hk

/-- The first chunks of two streams with the value 9 in the padding, and with 0. -/
example : SameButPadding ({ md := ⟨["a", "b"], [true, true], [false, false], [1, 2], none⟩, width := 2, rows := [[1, 0], [2, 3]] } : ST Int)
    { md := ⟨["a", "b"], [true, true], [false, false], [1, 2], none⟩, width := 2, rows := [[1, 9], [2, 3]] } ∧
    ((forward ⟨2, 1, 1, 1⟩ exG (fun _ => none) { md := ⟨["a", "b"], [true, true], [false, false], [1, 2], none⟩, width := 2, rows := [[1, 9], [2, 3]] }).map fun o => o.y.rows) =
      .ok [[1, 0], [2, 23]] := by
  refine ⟨⟨rfl, rfl, ?_⟩, by decide⟩
  simp [AgreeRows]

end
end DS.Conv
