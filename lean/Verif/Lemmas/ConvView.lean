import Verif.Props.ConvSession
import Verif.Props.CatBatch
import Mathlib.Data.List.Perm.Basic
/-! Online convolution computed row by row: lemmas for C203 and C204. -/

namespace DS.Conv
open Meta
section
variable {α β : Type} [Zero α] [Zero β]

/-- A batch written as a list of rows. -/
def mkST (b : Bool) (w : Nat) (es : List (Row × List α)) : ST α := ⟨ofRows b (es.map (·.1)), w, es.map (·.2)⟩

/-- What counts of a row, with its id renamed: id, start, end, length and frames. -/
abbrev View (α : Type) := String × Bool × Bool × Int × List α

def vw (f : String → String) (e : Row × List α) : View α := (f e.1.id, e.1.sos, e.1.eos, e.1.len, e.2)

theorem mk_of (x : ST α) (hx : Lined x) : ∃ es, x = mkST x.md.chunk.isSome x.width es := by
  refine ⟨x.md.rows.zip x.rows, ?_⟩
  have hl : x.md.rows.length = x.rows.length := by rw [rows_length x.md hx.1, hx.2]
  unfold mkST
  rw [List.map_fst_zip (by omega), List.map_snd_zip (by omega), ← eq_ofRows x.md hx.1]

theorem mk_lined (b : Bool) (w : Nat) (es : List (Row × List α)) : Lined (mkST b w es) :=
  ⟨ofRows_wf _ _, by simp [mkST, ofRows]⟩

/-! ### The hook before -/

/-- The length of a row is no length of its frames. -/
def Bad (w : Nat) (l : Int) : Prop := l < 0 ∨ l > w

instance (w : Nat) (l : Int) : Decidable (Bad w l) := by unfold Bad; infer_instance

/-- A row cut to its length. -/
theorem narrow_any (b : Bool) (row : Row) (w : Nat) (r : List α) :
    narrowRow (ofRows b [row]) w r = if Bad w row.len then .error .runtimeError else
      .ok (ofRows b [{ row with sos := row.sos && decide (0 < row.len), eos := row.eos && decide (0 < row.len) }], r.take row.len.toNat) := by
  unfold narrowRow
  have h1 : pyGet (ofRows b [row]).lengths 0 = .ok row.len := rfl
  rw [h1, Except.bind_ok']
  by_cases hl : row.len < 0 ∨ row.len > w
  · rw [if_pos hl, if_pos (show Bad w row.len from hl)]
  · rw [if_neg hl, if_neg (show ¬ Bad w row.len from hl)]
    have hc := narrow_row (α := Int) b ⟨row.id, row.sos, row.eos, row.chunk, List.replicate row.len.toNat 0⟩ w (by simp; omega) 0
    have hrow : (⟨row.id, row.sos, row.eos, row.chunk, List.replicate row.len.toNat 0⟩ : Chunk Int).row = row := by
      obtain ⟨i, s, e, l, k⟩ := row
      simp only at hl
      have : ((List.replicate l.toNat (0 : Int)).length : Int) = l := by simp; omega
      unfold Chunk.row
      simp only [this]
    rw [hrow] at hc
    unfold narrowRow at hc
    rw [h1, Except.bind_ok', if_neg hl] at hc
    obtain ⟨m', hm, h⟩ := bind_ok_iff hc
    simp only [Except.ok.injEq, Prod.mk.injEq] at h
    rw [hm, Except.bind_ok', h.1]
    have hd : decide (List.replicate row.len.toNat (0 : Int) ≠ []) = decide (0 < row.len) := by
      apply decide_eq_decide.2
      rw [← List.length_pos_iff, List.length_replicate]; omega
    have hlen : ((List.replicate row.len.toNat (0 : Int)).length : Int) = row.len := by simp; omega
    simp only [hd, hlen]

/-- A row with its buffer in front, in the branch for buffers of different lengths. -/
def glue (buf : Buf α) (v : View α) : View α :=
  (v.1, v.2.1 && decide (0 < v.2.2.2.1), v.2.2.1 && decide (0 < v.2.2.2.1),
    ((((buf v.1).getD [] ++ v.2.2.2.2.take v.2.2.2.1.toNat).length : Nat) : Int), (buf v.1).getD [] ++ v.2.2.2.2.take v.2.2.2.1.toNat)

/-- The same for rows. -/
def glueE (buf : Buf α) (e : Row × List α) : Row × List α :=
  (⟨e.1.id, e.1.sos && decide (0 < e.1.len), e.1.eos && decide (0 < e.1.len),
    ((((buf e.1.id).getD [] ++ e.2.take e.1.len.toNat).length : Nat) : Int), none⟩, (buf e.1.id).getD [] ++ e.2.take e.1.len.toNat)

theorem ragged_any (b : Bool) (w : Nat) (es : List (Row × List α)) (buf : Buf α) :
    ((∃ e ∈ es, Bad w e.1.len) ∧ raggedRows w (es.map fun e => ofRows b [e.1]) (es.map (·.2)) (es.map fun e => buf e.1.id) = .error .runtimeError) ∨
    ((∀ e ∈ es, ¬ Bad w e.1.len) ∧ ∃ xs, raggedRows w (es.map fun e => ofRows b [e.1]) (es.map (·.2)) (es.map fun e => buf e.1.id) = .ok xs ∧
      xs.map (·.2) = es.map (fun e => (glueE buf e).2) ∧ xs.map (·.1.ids) = es.map (fun e => [(glueE buf e).1.id]) ∧
      xs.map (·.1.sos) = es.map (fun e => [(glueE buf e).1.sos]) ∧ xs.map (·.1.eos) = es.map (fun e => [(glueE buf e).1.eos]) ∧
      ∀ x ∈ xs, x.1.WF ∧ x.1.chunk.isSome = b) := by
  induction es with
  | nil => exact .inr ⟨by simp, [], rfl, rfl, rfl, rfl, rfl, by simp⟩
  | cons e es ih =>
    simp only [List.map_cons, raggedRows]
    rw [narrow_any]
    by_cases hb : Bad w e.1.len
    · rw [if_pos hb]
      exact .inl ⟨⟨e, by simp, hb⟩, rfl⟩
    · rw [if_neg hb, Except.bind_ok']
      rcases ih with ⟨⟨q, hq, hqb⟩, h⟩ | ⟨hall, xs, h, h2, h3, h4, h5, h6⟩
      · rw [h]
        exact .inl ⟨⟨q, by simp [hq], hqb⟩, rfl⟩
      · rw [h, Except.bind_ok']
        refine .inr ⟨?_, _, rfl, ?_, ?_, ?_, ?_, ?_⟩
        · intro q hq
          rcases List.mem_cons.1 hq with rfl | hq
          · exact hb
          · exact hall q hq
        · rw [List.map_cons, h2]
          unfold prepend glueE
          cases buf e.1.id <;> simp
        · rw [List.map_cons, h3]
          unfold prepend glueE
          cases buf e.1.id <;> simp [ofRows]
        · rw [List.map_cons, h4]
          unfold prepend glueE
          cases buf e.1.id <;> simp [ofRows]
        · rw [List.map_cons, h5]
          unfold prepend glueE
          cases buf e.1.id <;> simp [ofRows]
        · intro x hx
          rcases List.mem_cons.1 hx with rfl | hx
          · unfold prepend
            cases buf e.1.id with
            | none => exact ⟨ofRows_wf _ _, by cases b <;> simp [ofRows]⟩
            | some d =>
              refine ⟨?_, by cases b <;> simp [ofRows]⟩
              have := ofRows_wf b [({ e.1 with sos := e.1.sos && decide (0 < e.1.len), eos := e.1.eos && decide (0 < e.1.len) } : Row)]
              exact ⟨this.1, this.2.1, by simpa using this.2.2.1, this.2.2.2⟩
          · exact h6 x hx

/-- The width the rows are padded to. -/
def top (ls : List Nat) : Nat := ls.foldl max 0

theorem flat_one {γ δ : Type} (g : γ → δ) (xs : List γ) : (xs.map fun e => [g e]).flatten = xs.map g := by
  induction xs with
  | nil => rfl
  | cons x xs ih => simp [ih]

theorem catRagged_any (b : Bool) (w : Nat) (es : List (Row × List α)) (hne : es ≠ []) (buf : Buf α) :
    catRagged (es.map fun e => buf e.1.id) (mkST b w es) = if ∃ e ∈ es, Bad w e.1.len then .error .runtimeError else
      .ok (mkST false (top (es.map fun e => (glueE buf e).2.length))
        (es.map fun e => ((glueE buf e).1, (glueE buf e).2 ++ List.replicate (top (es.map fun e => (glueE buf e).2.length) - (glueE buf e).2.length) 0))) := by
  unfold catRagged mkST
  simp only
  rw [unbind_ofRows b _ (by simpa using hne), Except.bind_ok', List.map_map]
  rcases ragged_any b w es buf with ⟨hb, h⟩ | ⟨hb, xs, h, h2, h3, h4, h5, h6⟩
  · rw [if_pos hb]
    show ((raggedRows w (es.map fun e => ofRows b [e.1]) _ _) >>= _) = _
    rw [h]
    rfl
  · rw [if_neg (by simpa using hb)]
    show ((raggedRows w (es.map fun e => ofRows b [e.1]) _ _) >>= _) = _
    rw [h, Except.bind_ok']
    unfold padStream
    have hx : xs ≠ [] := by
      intro h0
      subst h0
      simp at h2
      exact hne h2
    obtain ⟨m, hm, -⟩ := C16_cat_batch (xs.map (·.1)) (by simpa using hx) (by simpa using fun q d h => (h6 (q, d) h).1)
    obtain ⟨c1, c2, c3⟩ := catBatch_cols _ _ hm
    rw [hm, Except.bind_ok']
    have e1 : m.ids = es.map fun e => (glueE buf e).1.id := by
      rw [c1, List.flatMap_def, List.map_map, show (xs.map ((·.ids) ∘ (·.1))) = xs.map (·.1.ids) from rfl, h3, flat_one]
    have e2 : m.sos = es.map fun e => (glueE buf e).1.sos := by
      rw [c2, List.flatMap_def, List.map_map, show (xs.map ((·.sos) ∘ (·.1))) = xs.map (·.1.sos) from rfl, h4, flat_one]
    have e3 : m.eos = es.map fun e => (glueE buf e).1.eos := by
      rw [c3, List.flatMap_def, List.map_map, show (xs.map ((·.eos) ∘ (·.1))) = xs.map (·.1.eos) from rfl, h5, flat_one]
    have e4 : (xs.map fun x => (x.2.length : Int)) = es.map fun e => (glueE buf e).1.len := by
      have : (xs.map fun x => (x.2.length : Int)) = (xs.map (·.2)).map fun d => (d.length : Int) := by simp
      rw [this, h2]
      simp [glueE]
    have e5 : (xs.map (·.2.length)) = es.map fun e => (glueE buf e).2.length := by
      have : (xs.map (·.2.length)) = (xs.map (·.2)).map fun d => d.length := by simp
      rw [this, h2]
      simp
    have e6 : ∀ n, (xs.map fun x => x.2 ++ List.replicate (n - x.2.length) 0) = es.map fun e => (glueE buf e).2 ++ List.replicate (n - (glueE buf e).2.length) 0 := by
      intro n
      have : (xs.map fun x => x.2 ++ List.replicate (n - x.2.length) 0) = (xs.map (·.2)).map fun d => d ++ List.replicate (n - d.length) 0 := by simp
      rw [this, h2]
      simp
    have hi : Meta.init m.ids m.sos m.eos (xs.map fun x => (x.2.length : Int)) none = .ok (ofRows false (es.map fun e => (glueE buf e).1)) := by
      rw [e1, e2, e3, e4]
      simp [Meta.init, ofRows, Function.comp_def]
    simp only []
    rw [hi, Except.bind_ok']
    simp only [e5, e6, top, List.map_map, Function.comp_def]

/-- All buffers of the batch have one length. -/
def sameV (buf : Buf α) (vs : List (View α)) : Bool := vs.all fun v => vs.all fun u => bufLen (buf v.1) == bufLen (buf u.1)

/-- A row with a buffer of the common length in front. -/
def put (buf : Buf α) (n : Nat) (v : View α) : View α := (v.1, v.2.1, v.2.2.1, v.2.2.2.1 + (n : Int), (buf v.1).getD [] ++ v.2.2.2.2)

/-- A row filled up with zeros. -/
def fill (n : Nat) (v : View α) : View α := (v.1, v.2.1, v.2.2.1, v.2.2.2.1, v.2.2.2.2 ++ List.replicate (n - v.2.2.2.2.length) 0)

/-- The hook before, row by row. -/
def preV (c : Cfg) (buf : Buf α) (w : Nat) (vs : List (View α)) : Py (Nat × List (View α)) :=
  if c.kw > 1 ∧ (vs.all fun v => v.2.1) = false then
    if sameV buf vs then
      if vs.any fun v => (buf v.1).isNone then .error .typeError
      else .ok (top (vs.map fun v => bufLen (buf v.1)) + w, vs.map (put buf (top (vs.map fun v => bufLen (buf v.1)))))
    else if vs.any fun v => decide (Bad w v.2.2.2.1) then .error .runtimeError
    else .ok (top (vs.map fun v => (glue buf v).2.2.2.2.length), vs.map fun v => fill (top (vs.map fun v => (glue buf v).2.2.2.2.length)) (glue buf v))
  else .ok (w, vs)

theorem vw_glue (f : String → String) (buf buf' : Buf α) (hb : ∀ i, buf' (f i) = buf i) (e : Row × List α) : vw f (glueE buf e) = glue buf' (vw f e) := by
  simp only [vw, glueE, glue, hb]
  rfl

theorem mapM_id_none (bs : List (Option (List α))) : (bs.mapM id = none) ↔ bs.any (·.isNone) = true := by
  induction bs with
  | nil => simp
  | cons b bs ih =>
    rw [List.mapM_cons]
    cases b with
    | none => simp
    | some d =>
      cases h : bs.mapM id with
      | none => simp [ih.1 h, h]
      | some ds =>
        have : ¬ (bs.any (·.isNone) = true) := by rw [← ih, h]; simp
        simp [h, this]

theorem mapM_id_some (bs : List (Option (List α))) (ds : List (List α)) (h : bs.mapM id = some ds) : ds = bs.map (·.getD []) := by
  induction bs generalizing ds with
  | nil => simpa using h.symm
  | cons b bs ih =>
    rw [List.mapM_cons] at h
    cases b with
    | none => simp at h
    | some d =>
      cases hq : bs.mapM id with
      | none => simp [hq] at h
      | some es =>
        simp [hq] at h
        subst h
        simp [ih es hq]

theorem top_const (ls : List Nat) (n : Nat) (hne : ls ≠ []) (h : ∀ l ∈ ls, l = n) : top ls = n := by
  obtain ⟨h1, h2, h3⟩ := foldl_max_nat ls 0
  unfold top
  rcases h3 with h3 | h3
  · obtain ⟨l, hl⟩ := List.exists_mem_of_ne_nil ls hne
    have := h2 l hl
    have := h l hl
    omega
  · exact h _ h3

theorem pre_view (f : String → String) (c : Cfg) (buf buf' : Buf α) (hb : ∀ i, buf' (f i) = buf i) (b : Bool) (w : Nat) (es : List (Row × List α)) :
    (∃ e, preHook c buf (mkST b w es) = .error e ∧ preV c buf' w (es.map (vw f)) = .error e) ∨
    ∃ b' w' es' s, preHook c buf (mkST b w es) = .ok (mkST b' w' es', s) ∧ preV c buf' w (es.map (vw f)) = .ok (w', es'.map (vw f)) := by
  unfold preHook preV
  have hst : (mkST b w es).md.allStarting = (es.map (vw f)).all fun v => v.2.1 := by
    simp [mkST, ofRows, allStarting, vw, List.all_map, Function.comp_def]
  rw [hst]
  split
  · rename_i hc
    have hne : es ≠ [] := by
      intro h0
      subst h0
      simp at hc
    have hids : (mkST b w es).md.ids.map buf = es.map fun e => buf e.1.id := by simp [mkST, ofRows]
    simp only [hids]
    have hs : sameLengths (es.map fun e => buf e.1.id) = sameV buf' (es.map (vw f)) := by
      apply Bool.eq_iff_iff.2
      obtain ⟨e, r, rfl⟩ := List.exists_cons_of_ne_nil hne
      simp only [sameLengths, sameV, List.all_eq_true, List.mem_map, forall_exists_index, and_imp, forall_apply_eq_imp_iff₂, beq_iff_eq, vw, hb]
      simp only [List.map_cons, List.head?_cons, Option.getD_some]
      constructor
      · intro h a ha d hd
        rw [h a ha, h d hd]
      · intro h a ha
        exact h a ha e (by simp)
    rw [hs]
    split
    · rename_i hsame
      have hall : ∀ e ∈ es, ∀ d ∈ es, bufLen (buf e.1.id) = bufLen (buf d.1.id) := by
        simp only [sameV, List.all_eq_true, List.mem_map, forall_exists_index, and_imp, forall_apply_eq_imp_iff₂, beq_iff_eq, vw, hb] at hsame
        exact hsame
      have hany : ((es.map (vw f)).any fun v => (buf' v.1).isNone) = (es.map fun e => buf e.1.id).any (·.isNone) := by
        simp [List.any_map, Function.comp_def, vw, hb]
      rw [hany]
      have htop : top ((es.map (vw f)).map fun v => bufLen (buf' v.1)) = bufLen (((es.map fun e => buf e.1.id).head?).getD none) := by
        apply top_const _ _ (by simpa using hne)
        obtain ⟨e, r, rfl⟩ := List.exists_cons_of_ne_nil hne
        simp only [List.mem_map, forall_exists_index, and_imp, forall_apply_eq_imp_iff₂, vw, hb]
        intro a ha
        simpa using hall a ha e (by simp)
      rw [htop]
      unfold catEqual
      cases hm : (es.map fun e => buf e.1.id).mapM id with
      | none =>
        rw [if_pos ((mapM_id_none _).1 hm)]
        exact .inl ⟨_, rfl, rfl⟩
      | some ds =>
        have hn : ¬ ((es.map fun e => buf e.1.id).any (·.isNone) = true) := by rw [← mapM_id_none, hm]; simp
        rw [if_neg hn, mapM_id_some _ _ hm]
        generalize bufLen (((es.map fun e => buf e.1.id).head?).getD none) = n
        refine .inr ⟨b, n + w, es.map fun e => ({ e.1 with len := e.1.len + (n : Int) }, (buf e.1.id).getD [] ++ e.2), false, ?_, ?_⟩
        · simp only [Except.map, mkST, ofRows, List.map_map, Function.comp_def, Except.ok.injEq, Prod.mk.injEq, ST.mk.injEq, true_and, and_true]
          rw [List.zipWith_map, List.zipWith_self]
        · simp [put, vw, Function.comp_def, hb]
    · rw [catRagged_any b w es hne buf]
      have hany : ((es.map (vw f)).any fun v => decide (Bad w v.2.2.2.1)) = decide (∃ e ∈ es, Bad w e.1.len) := by
        apply Bool.eq_iff_iff.2
        simp only [List.any_eq_true, List.mem_map, exists_exists_and_eq_and, vw, decide_eq_true_eq]
      rw [hany]
      by_cases hbad : ∃ e ∈ es, Bad w e.1.len
      · rw [if_pos hbad, if_pos (by simpa using hbad)]
        exact .inl ⟨_, rfl, rfl⟩
      · rw [if_neg hbad, if_neg (by simpa using hbad)]
        have ht : ((es.map (vw f)).map fun v => (glue buf' v).2.2.2.2.length) = es.map fun e => (glueE buf e).2.length := by
          rw [List.map_map]
          apply List.map_congr_left
          intro e _
          rw [Function.comp_apply, ← vw_glue f buf buf' hb]
          rfl
        rw [ht]
        generalize top (es.map fun e => (glueE buf e).2.length) = n
        refine .inr ⟨_, _, _, _, rfl, ?_⟩
        rw [List.map_map, List.map_map]
        congr 2
        apply List.map_congr_left
        intro e _
        rw [Function.comp_apply, ← vw_glue f buf buf' hb]
        rfl
  · exact .inr ⟨b, w, es, true, rfl, rfl⟩

/-! ### The convolution -/

/-- The length of a padded row. -/
def lenV (c : Cfg) (s e : Bool) (l : Int) : Int := l + (if s then (c.padding : Int) else 0) + (if e then (c.padding : Int) else 0)

/-- What is done to the rows of a batch before torch convolves them: the padding left to torch, the new width, and the function of the rows. -/
def planV (c : Cfg) (w : Nat) (vs : List (View α)) : Py (Nat × Nat × (Bool → List α → List α)) :=
  if c.padding > 0 then
    if (vs.all fun v => v.2.1) && (vs.all fun v => v.2.2.1) then .ok (c.padding, w, fun _ r => r)
    else do
      let ml ← torchMax (vs.map fun v => lenV c v.2.1 v.2.2.1 v.2.2.2.1)
      let sh : Bool → List α → List α := fun s r => if (vs.any fun v => v.2.1) && !(vs.all fun v => v.2.1) && s then roll c.padding r else r
      let d := ml - w
      if d > 0 then
        if (vs.all fun v => v.2.1) then
          if d ≥ c.padding then .ok (0, w + d.toNat, fun s r => sh s (fpad c.padding (d - c.padding).toNat r)) else .error .assertionError
        else .ok (0, w + d.toNat, fun s r => sh s (fpad 0 d.toNat r))
      else .ok (0, w, sh)
  else .ok (0, w, fun _ r => r)

/-- The row with its padded length, or as it is. -/
def padRow (c : Cfg) (r : Row) : Row := { r with len := lenV c r.sos r.eos r.len }

theorem padLengths_view (c : Cfg) (b : Bool) (rs : List Row) : padLengths c.padding (ofRows b rs) = rs.map fun r => lenV c r.sos r.eos r.len := by
  unfold padLengths addWhere
  split
  · rename_i h
    simp only [Bool.and_eq_true, allStarting, allEnding, ofRows, List.all_map, List.all_eq_true, Function.comp_apply, id] at h
    simp only [ofRows, List.map_map]
    apply List.map_congr_left
    intro r hr
    simp only [Function.comp_apply, lenV, h.1 r hr, h.2 r hr, if_true]
    omega
  · split
    · simp only [ofRows]
      rw [List.zipWith_map, List.zipWith_self, List.zipWith_map, List.zipWith_self]
      apply List.map_congr_left
      intro r _
      unfold lenV
      cases r.sos <;> cases r.eos <;> simp
    · rename_i h
      simp only [anyStarting, anyEnding, ofRows, List.any_map, Bool.or_eq_true, not_or, List.any_eq_true, not_exists, not_and, Function.comp_apply, id] at h
      simp only [ofRows]
      apply List.map_congr_left
      intro r hr
      simp [lenV, h.1 r hr, h.2 r hr]

theorem pad_view (f : String → String) (c : Cfg) (b : Bool) (w : Nat) (es : List (Row × List α)) :
    applyPadding c (mkST b w es) = (planV c w (es.map (vw f))).map fun p => (ofRows b (es.map fun e => padRow c e.1), p.1, p.2.1, es.map fun e => p.2.2 e.1.sos e.2) := by
  have hS : (ofRows b (es.map fun e => padRow c e.1)).allStarting = (es.map (vw f)).all fun v => v.2.1 := by
    simp [ofRows, allStarting, vw, List.all_map, Function.comp_def, padRow]
  have hE : (ofRows b (es.map fun e => padRow c e.1)).allEnding = (es.map (vw f)).all fun v => v.2.2.1 := by
    simp [ofRows, allEnding, vw, List.all_map, Function.comp_def, padRow]
  have hA : (ofRows b (es.map fun e => padRow c e.1)).anyStarting = (es.map (vw f)).any fun v => v.2.1 := by
    simp [ofRows, anyStarting, vw, List.any_map, Function.comp_def, padRow]
  have hM : (ofRows b (es.map fun e => padRow c e.1)).maxLength = torchMax ((es.map (vw f)).map fun v => lenV c v.2.1 v.2.2.1 v.2.2.2.1) := by
    simp [ofRows, maxLength, vw, Function.comp_def, padRow]
  unfold applyPadding planV
  split
  · rename_i hp
    have hm : ({ (mkST b w es).md with lengths := padLengths c.padding (mkST b w es).md } : Meta) = ofRows b (es.map fun e => padRow c e.1) := by
      unfold mkST
      rw [padLengths_view]
      simp [ofRows, padRow, Function.comp_def]
    simp only [hm, hS, hE, hM]
    split
    · rfl
    · cases torchMax ((es.map (vw f)).map fun v => lenV c v.2.1 v.2.2.1 v.2.2.2.1) with
      | error e => rfl
      | ok ml =>
        simp only [Except.bind_ok']
        have hshift : ∀ h : Row × List α → List α, shiftStarting c.padding (ofRows b (es.map fun e => padRow c e.1)) (es.map h) =
            es.map fun e => if ((es.map (vw f)).any fun v => v.2.1) && !((es.map (vw f)).all fun v => v.2.1) && e.1.sos then roll c.padding (h e) else h e := by
          intro h
          unfold shiftStarting
          rw [hA, hS]
          cases ((es.map (vw f)).any fun v => v.2.1) && !((es.map (vw f)).all fun v => v.2.1) with
          | true =>
            simp only [if_true, Bool.true_and, ofRows, List.map_map]
            rw [List.zipWith_map, List.zipWith_self]
            rfl
          | false =>
            simp only [Bool.false_and, Bool.false_eq_true, if_false]
        unfold widen
        simp only [hS]
        have hw : (mkST b w es).width = w := rfl
        have hr : (mkST b w es).rows = es.map (·.2) := rfl
        rw [hw, hr]
        split
        · split
          · split
            · simp only [Except.bind_ok', Except.map, List.map_map, Except.ok.injEq, Prod.mk.injEq, true_and]
              exact hshift _
            · rfl
          · simp only [Except.bind_ok', Except.map, List.map_map, Except.ok.injEq, Prod.mk.injEq, true_and]
            exact hshift _
        · simp only [Except.bind_ok', Except.map, Except.ok.injEq, Prod.mk.injEq, true_and]
          exact hshift _
  · rename_i hp
    simp only [Except.map, Except.ok.injEq, Prod.mk.injEq]
    have hp0 : c.padding = 0 := by omega
    have : ∀ r : Row, padRow c r = r := by intro r; simp [padRow, lenV, hp0]
    simp [mkST, this]

/-- One row of the output of torch's convolution, cut to its length. -/
def outV (c : Cfg) (g : List α → β) (p n : Nat) (h : Bool → List α → List α) (v : View α) : View β :=
  (v.1, v.2.1, v.2.2.1, outLen c (lenV c v.2.1 v.2.2.1 v.2.2.2.1),
    maskRow (outLen c (lenV c v.2.1 v.2.2.1 v.2.2.2.1)) ((List.range n).map fun o => g (taps c (fpad p p (h v.2.1 v.2.2.2.2)) (o * c.stride))))

/-- The buffer one row leaves. -/
def itemV (c : Cfg) (h : Bool → List α → List α) (v : View α) : Option (String × List α) :=
  bufItem c v.1 v.2.2.1 (lenV c v.2.1 v.2.2.1 v.2.2.2.1) (h v.2.1 v.2.2.2.2)

/-- The convolution, row by row. -/
def convV (c : Cfg) (g : List α → β) (w : Nat) (vs : List (View α)) : Py (Nat × List (View β) × List (String × List α)) := do
  let (p, w', h) ← planV c w vs
  if w' + 2 * p < c.kw then .error .runtimeError
  else
    .ok ((w' + 2 * p - c.kw) / c.stride + 1, vs.map (outV c g p ((w' + 2 * p - c.kw) / c.stride + 1) h),
      if c.kw > 1 ∧ (vs.all fun v => v.2.2.1) = false then vs.filterMap (itemV c h) else [])

theorem items_vw (c : Cfg) (b : Bool) (h : Bool → List α → List α) (es : List (Row × List α)) :
    bufItems c (ofRows b (es.map fun e => padRow c e.1)).ids (ofRows b (es.map fun e => padRow c e.1)).eos (ofRows b (es.map fun e => padRow c e.1)).lengths
      (es.map fun e => h e.1.sos e.2) = (es.map (vw id)).filterMap (itemV c h) := by
  induction es with
  | nil => rfl
  | cons e es ih =>
    have ih' : bufItems c (es.map fun e => e.1.id) (es.map fun e => e.1.eos) (es.map fun e => lenV c e.1.sos e.1.eos e.1.len) (es.map fun e => h e.1.sos e.2) =
        (es.map (vw id)).filterMap (itemV c h) := by
      rw [← ih]
      simp [ofRows, padRow, Function.comp_def]
    have h0 : bufItems c (ofRows b ((e :: es).map fun e => padRow c e.1)).ids (ofRows b ((e :: es).map fun e => padRow c e.1)).eos
        (ofRows b ((e :: es).map fun e => padRow c e.1)).lengths ((e :: es).map fun e => h e.1.sos e.2) =
        (bufItem c e.1.id e.1.eos (lenV c e.1.sos e.1.eos e.1.len) (h e.1.sos e.2)).toList ++
          bufItems c (es.map fun e => e.1.id) (es.map fun e => e.1.eos) (es.map fun e => lenV c e.1.sos e.1.eos e.1.len) (es.map fun e => h e.1.sos e.2) := by
      simp [ofRows, padRow, Function.comp_def, bufItems]
    rw [h0, ih', List.map_cons, List.filterMap_cons]
    have : itemV c h (vw id e) = bufItem c e.1.id e.1.eos (lenV c e.1.sos e.1.eos e.1.len) (h e.1.sos e.2) := rfl
    rw [this]
    cases bufItem c e.1.id e.1.eos (lenV c e.1.sos e.1.eos e.1.len) (h e.1.sos e.2) <;> rfl

theorem items_rename (f : String → String) (c : Cfg) (h : Bool → List α → List α) (es : List (Row × List α)) :
    (es.map (vw f)).filterMap (itemV c h) = ((es.map (vw id)).filterMap (itemV c h)).map fun kv => (f kv.1, kv.2) := by
  induction es with
  | nil => rfl
  | cons e es ih =>
    simp only [List.map_cons, List.filterMap_cons, ih]
    have hf : itemV c h (vw f e) = (itemV c h (vw id e)).map fun kv => (f kv.1, kv.2) := by
      simp only [itemV, vw, bufItem, id]
      by_cases he : e.1.eos = true <;> simp [he]
    rw [hf]
    cases itemV c h (vw id e) <;> rfl

theorem conv_view (f : String → String) (c : Cfg) (g : List α → β) (b : Bool) (w : Nat) (es : List (Row × List α)) :
    (∃ e, conv1d c g (mkST b w es) = .error e ∧ convV c g w (es.map (vw f)) = .error e) ∨
    ∃ w' es' its, conv1d c g (mkST b w es) = .ok (mkST b w' es', its) ∧
      convV c g w (es.map (vw f)) = .ok (w', es'.map (vw f), its.map fun kv => (f kv.1, kv.2)) ∧ es'.map (fun e => (e.1.id, e.1.eos)) = es.map fun e => (e.1.id, e.1.eos) := by
  unfold conv1d convV
  rw [pad_view f]
  cases planV c w (es.map (vw f)) with
  | error e => exact .inl ⟨e, rfl, rfl⟩
  | ok q =>
    obtain ⟨p, w', h⟩ := q
    simp only [Except.map, Except.bind_ok']
    unfold torchConv1d
    split
    · exact .inl ⟨_, rfl, rfl⟩
    · simp only [Except.bind_ok']
      have hrow : (({ ofRows b (es.map fun e => padRow c e.1) with lengths := (ofRows b (es.map fun e => padRow c e.1)).lengths.map (outLen c) } : Meta)) =
          ofRows b (es.map fun e => ({ e.1 with len := outLen c (lenV c e.1.sos e.1.eos e.1.len) } : Row)) := by
        simp [ofRows, padRow, Function.comp_def]
      have hE : (ofRows b (es.map fun e => padRow c e.1)).allEnding = (es.map (vw f)).all fun v => v.2.2.1 := by
        simp [ofRows, allEnding, vw, List.all_map, Function.comp_def, padRow]
      refine .inr ⟨(w' + 2 * p - c.kw) / c.stride + 1,
        es.map fun e => ({ e.1 with len := outLen c (lenV c e.1.sos e.1.eos e.1.len) }, (outV c g p ((w' + 2 * p - c.kw) / c.stride + 1) h (vw id e)).2.2.2.2),
        (if c.kw > 1 ∧ ((es.map (vw f)).all fun v => v.2.2.1) = false then (es.map (vw id)).filterMap (itemV c h) else []), ?_, ?_, ?_⟩
      · rw [hrow]
        simp only [Except.ok.injEq, Prod.mk.injEq]
        refine ⟨?_, ?_⟩
        · simp only [mkST, List.map_map, Function.comp_def, ST.mk.injEq, true_and]
          simp only [ofRows, List.map_map]
          rw [List.zipWith_map, List.zipWith_self]
          rfl
        · unfold tempBuffer
          rw [hE, items_vw]
      · simp only [List.map_map, Except.ok.injEq, Prod.mk.injEq, true_and]
        refine ⟨rfl, ?_⟩
        split
        · rw [items_rename f]
        · rfl
      · simp

/-! ### A call -/

/-- A call of an online convolution, row by row. -/
def forwardV (c : Cfg) (g : List α → β) (buf : Buf α) (w : Nat) (vs : List (View α)) : Py (Nat × List (View β) × Buf α) := do
  let (w', us) ← preV c buf w vs
  let (n, ys, its) ← convV c g w' us
  .ok (n, ys, fun i => if ys.any fun v => v.1 == i && v.2.2.1 then none else update buf its i)

theorem update_rename (f : String → String) (hf : Function.Injective f) (buf buf' : Buf α) (hb : ∀ i, buf' (f i) = buf i) (its : List (String × List α)) (i : String) :
    update buf' (its.map fun kv => (f kv.1, kv.2)) (f i) = update buf its i := by
  unfold update
  induction its generalizing buf buf' with
  | nil => exact hb i
  | cons kv its ih =>
    rw [List.map_cons, List.foldl_cons, List.foldl_cons]
    apply ih
    intro j
    by_cases h : j = kv.1
    · simp [h]
    · have : f j ≠ f kv.1 := fun hh => h (hf hh)
      simp [h, this, hb]

theorem post_view (buf : Buf α) (b : Bool) (w : Nat) (es : List (Row × List β)) (its : List (String × List α)) (i : String) :
    postHook buf (mkST b w es).md its i = if (es.any fun e => e.1.id == i && e.1.eos) then none else update buf its i := by
  have hmem : ((i, true) ∈ (mkST b w es).md.ids.zip (mkST b w es).md.eos) ↔ (es.any fun e => e.1.id == i && e.1.eos) = true := by
    have : (mkST b w es).md.ids.zip (mkST b w es).md.eos = es.map fun e => (e.1.id, e.1.eos) := by
      simp only [mkST, ofRows, List.map_map]
      rw [List.zip_map', ]
      rfl
    rw [this]
    simp only [List.mem_map, Prod.mk.injEq, List.any_eq_true, Bool.and_eq_true, beq_iff_eq]
  unfold postHook
  split
  · unfold dropEnded
    rw [dropEnded_go]
    by_cases h : (es.any fun e => e.1.id == i && e.1.eos) = true
    · rw [if_pos (hmem.2 h), if_pos h]
    · rw [if_neg (fun hh => h (hmem.1 hh)), if_neg h]
  · rename_i hany
    rw [if_neg]
    intro h
    apply hany
    simp only [List.any_eq_true, Bool.and_eq_true] at h
    obtain ⟨e, he, -, h2⟩ := h
    simp only [anyEnding, mkST, ofRows, List.any_map, List.any_eq_true, Function.comp_apply, id]
    exact ⟨e, he, h2⟩

theorem forward_view (f : String → String) (hf : Function.Injective f) (c : Cfg) (g : List α → β) (buf buf' : Buf α) (hb : ∀ i, buf' (f i) = buf i)
    (b : Bool) (w : Nat) (es : List (Row × List α)) :
    (∃ e, forward c g buf (mkST b w es) = .error e ∧ forwardV c g buf' w (es.map (vw f)) = .error e) ∨
    ∃ b' w' es' o B, forward c g buf (mkST b w es) = .ok o ∧ o.y = mkST b' w' es' ∧ forwardV c g buf' w (es.map (vw f)) = .ok (w', es'.map (vw f), B) ∧
      ∀ i, B (f i) = o.buf i := by
  unfold forward forwardV
  rcases pre_view f c buf buf' hb b w es with ⟨e, h1, h2⟩ | ⟨b1, w1, es1, s, h1, h2⟩
  · rw [h1, h2]
    exact .inl ⟨e, rfl, rfl⟩
  · rw [h1, h2]
    simp only [Except.bind_ok']
    rcases conv_view f c g b1 w1 es1 with ⟨e, h3, h4⟩ | ⟨w2, es2, its, h3, h4, -⟩
    · rw [h3, h4]
      exact .inl ⟨e, rfl, rfl⟩
    · rw [h3, h4]
      simp only [Except.bind_ok']
      refine .inr ⟨b1, w2, es2, _, _, rfl, rfl, rfl, ?_⟩
      intro i
      show (if ((es2.map (vw f)).any fun v => v.1 == f i && v.2.2.1) then none else update buf' (its.map fun kv => (f kv.1, kv.2)) (f i)) = postHook buf (mkST b1 w2 es2).md its i
      rw [post_view, update_rename f hf buf buf' hb]
      have : ((es2.map (vw f)).any fun v => v.1 == f i && v.2.2.1) = es2.any fun e => e.1.id == i && e.1.eos := by
        rw [List.any_map]
        congr 1
        funext e
        have : (f e.1.id == f i) = (e.1.id == i) := by
          apply Bool.eq_iff_iff.2
          simp only [beq_iff_eq]
          exact ⟨fun h => hf h, fun h => by rw [h]⟩
        simp only [Function.comp_apply, vw, this]
      rw [this]

/-! ### The order of the rows -/

theorem all_perm {γ : Type} {xs ys : List γ} (h : xs.Perm ys) (p : γ → Bool) : xs.all p = ys.all p := by
  apply Bool.eq_iff_iff.2
  simp only [List.all_eq_true]
  exact ⟨fun hh x hx => hh x (h.mem_iff.2 hx), fun hh x hx => hh x (h.mem_iff.1 hx)⟩

theorem any_perm {γ : Type} {xs ys : List γ} (h : xs.Perm ys) (p : γ → Bool) : xs.any p = ys.any p := by
  apply Bool.eq_iff_iff.2
  simp only [List.any_eq_true]
  exact ⟨fun ⟨x, hx, hp⟩ => ⟨x, h.mem_iff.1 hx, hp⟩, fun ⟨x, hx, hp⟩ => ⟨x, h.mem_iff.2 hx, hp⟩⟩

theorem top_perm {xs ys : List Nat} (h : xs.Perm ys) : top xs = top ys :=
  List.Perm.foldl_eq' h (fun a _ b _ z => by omega) 0

theorem max_perm {xs ys : List Int} (h : xs.Perm ys) : torchMax xs = torchMax ys := by
  cases hx : torchMax xs with
  | ok n =>
    obtain ⟨h1, h2⟩ := (torchMax_iff _ _).1 hx
    exact ((torchMax_iff ys n).2 ⟨h.mem_iff.1 h1, fun x hxy => h2 x (h.mem_iff.2 hxy)⟩).symm
  | error e =>
    cases xs with
    | nil =>
      rw [List.nil_perm.1 h, ← hx]
    | cons x xs => simp [torchMax] at hx

theorem pre_perm (c : Cfg) (buf : Buf α) (w : Nat) (us vs : List (View α)) (h : us.Perm vs) :
    (∃ e, preV c buf w us = .error e ∧ preV c buf w vs = .error e) ∨
    ∃ w' us' vs', preV c buf w us = .ok (w', us') ∧ preV c buf w vs = .ok (w', vs') ∧ us'.Perm vs' ∧ us'.map (·.1) = us.map (·.1) := by
  unfold preV
  rw [all_perm h]
  split
  · have hs : sameV buf us = sameV buf vs := by
      unfold sameV
      rw [all_perm h]
      congr 1
      funext v
      exact all_perm h _
    rw [hs]
    split
    · rw [any_perm h]
      split
      · exact .inl ⟨_, rfl, rfl⟩
      · have ht : top (us.map fun v => bufLen (buf v.1)) = top (vs.map fun v => bufLen (buf v.1)) := top_perm (h.map _)
        rw [ht]
        exact .inr ⟨_, _, _, rfl, rfl, h.map _, by simp [put, Function.comp_def]⟩
    · rw [any_perm h]
      split
      · exact .inl ⟨_, rfl, rfl⟩
      · have ht : top (us.map fun v => (glue buf v).2.2.2.2.length) = top (vs.map fun v => (glue buf v).2.2.2.2.length) := top_perm (h.map _)
        rw [ht]
        exact .inr ⟨_, _, _, rfl, rfl, h.map _, by simp [glue, fill, Function.comp_def]⟩
  · exact .inr ⟨w, us, vs, rfl, rfl, h, rfl⟩

theorem plan_perm (c : Cfg) (w : Nat) (us vs : List (View α)) (h : us.Perm vs) : planV c w us = planV c w vs := by
  unfold planV
  rw [all_perm h fun v => v.2.1, all_perm h fun v => v.2.2.1, any_perm h fun v => v.2.1,
    max_perm (h.map fun v => lenV c v.2.1 v.2.2.1 v.2.2.2.1)]

theorem conv_perm (c : Cfg) (g : List α → β) (w : Nat) (us vs : List (View α)) (h : us.Perm vs) (hn : (us.map (·.1)).Nodup) :
    (∃ e, convV c g w us = .error e ∧ convV c g w vs = .error e) ∨
    ∃ n ys zs is js, convV c g w us = .ok (n, ys, is) ∧ convV c g w vs = .ok (n, zs, js) ∧ ys.Perm zs ∧ ys.map (·.1) = us.map (·.1) ∧ is.Perm js ∧ (is.map (·.1)).Nodup := by
  unfold convV
  rw [plan_perm c w us vs h]
  cases planV c w vs with
  | error e => exact .inl ⟨e, rfl, rfl⟩
  | ok q =>
    obtain ⟨p, w', k⟩ := q
    simp only [Except.bind_ok']
    split
    · exact .inl ⟨_, rfl, rfl⟩
    · rw [all_perm h fun v => v.2.2.1]
      refine .inr ⟨_, _, _, _, _, rfl, rfl, h.map _, by simp [outV, Function.comp_def], ?_, ?_⟩
      · split
        · exact h.filterMap _
        · exact List.Perm.refl _
      · split
        · refine List.Nodup.sublist ?_ hn
          clear hn h
          induction us with
          | nil => simp
          | cons u us ih =>
            rw [List.filterMap_cons, List.map_cons]
            cases hi : itemV c k u with
            | none => exact ih.cons _
            | some kv =>
              have : kv.1 = u.1 := by
                unfold itemV bufItem at hi
                split at hi
                · simp at hi
                · simp only [Option.some.injEq] at hi
                  rw [← hi]
              rw [List.map_cons, this]
              exact ih.cons_cons _
        · simp

theorem update_perm (buf : Buf α) (is js : List (String × List α)) (h : is.Perm js) (hn : (is.map (·.1)).Nodup) : update buf is = update buf js := by
  unfold update
  apply List.Perm.foldl_eq' h
  intro x hx y hy z
  by_cases hk : x.1 = y.1
  · rw [List.inj_on_of_nodup_map hn hx hy hk]
  · funext i
    by_cases h1 : i = x.1
    · have : i ≠ y.1 := fun h => hk (h1 ▸ h)
      simp [h1, hk]
    · simp [h1]

theorem forward_perm (c : Cfg) (g : List α → β) (buf : Buf α) (w : Nat) (us vs : List (View α)) (h : us.Perm vs) (hn : (us.map (·.1)).Nodup) :
    (∃ e, forwardV c g buf w us = .error e ∧ forwardV c g buf w vs = .error e) ∨
    ∃ n ys zs B, forwardV c g buf w us = .ok (n, ys, B) ∧ forwardV c g buf w vs = .ok (n, zs, B) ∧ ys.Perm zs ∧ ys.map (·.1) = us.map (·.1) := by
  unfold forwardV
  rcases pre_perm c buf w us vs h with ⟨e, h1, h2⟩ | ⟨w1, us1, vs1, h1, h2, h3, h4⟩
  · rw [h1, h2]
    exact .inl ⟨e, rfl, rfl⟩
  · rw [h1, h2]
    simp only [Except.bind_ok']
    rcases conv_perm c g w1 us1 vs1 h3 (by rw [h4]; exact hn) with ⟨e, q1, q2⟩ | ⟨n, ys, zs, is, js, q1, q2, q3, q4, q5, q6⟩
    · rw [q1, q2]
      exact .inl ⟨e, rfl, rfl⟩
    · rw [q1, q2]
      simp only [Except.bind_ok']
      refine .inr ⟨n, ys, zs, _, rfl, ?_, q3, q4.trans h4⟩
      simp only [Except.ok.injEq, Prod.mk.injEq, true_and]
      funext i
      rw [any_perm q3, update_perm buf is js q5 q6]
end
end DS.Conv
