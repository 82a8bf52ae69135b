import Verif.Lemmas.Rows
import Verif.Props.BatchIndex
/-! # C16, C17, C18: concatenating, splitting and unbinding along batch -/

namespace DS.Meta

theorem catChunksBatch_all (ms : List Meta) (h : ∀ m ∈ ms, m.chunk.isSome = true) :
    catChunksBatch ms = some (ms.flatMap fun m => m.chunk.getD []) := by
  induction ms with
  | nil => rfl
  | cons m ms ih =>
    have h1 := h m (by simp)
    rw [Option.isSome_iff_exists] at h1
    obtain ⟨c, hc⟩ := h1
    simp [catChunksBatch, hc, ih (fun x hx => h x (by simp [hx]))]

theorem catChunksBatch_none (ms : List Meta) (h : ¬ ∀ m ∈ ms, m.chunk.isSome = true) : catChunksBatch ms = none := by
  induction ms with
  | nil => simp at h
  | cons m ms ih =>
    simp only [catChunksBatch]
    cases hc : m.chunk with
    | none => rfl
    | some c =>
      have : ¬ ∀ x ∈ ms, x.chunk.isSome = true := by
        intro hcon
        apply h
        intro x hx
        simp at hx
        rcases hx with rfl | hx
        · simp [hc]
        · exact hcon x hx
      simp [ih this]

theorem flatMap_col {β : Type} (ms : List Meta) (hms : ∀ m ∈ ms, m.WF) (f : Meta → List β) (g : Row → β)
    (hf : ∀ m : Meta, m.WF → f m = m.rows.map g) : ms.flatMap f = (ms.flatMap rows).map g := by
  induction ms with
  | nil => rfl
  | cons m ms ih =>
    simp only [List.flatMap_cons, List.map_append]
    rw [ih (fun x hx => hms x (by simp [hx])), hf m (hms m (by simp))]

theorem ids_rows (m : Meta) (hm : m.WF) : m.ids = m.rows.map (·.id) := congrArg Meta.ids (eq_ofRows m hm)
theorem sos_rows (m : Meta) (hm : m.WF) : m.sos = m.rows.map (·.sos) := congrArg Meta.sos (eq_ofRows m hm)
theorem eos_rows (m : Meta) (hm : m.WF) : m.eos = m.rows.map (·.eos) := congrArg Meta.eos (eq_ofRows m hm)
theorem lengths_rows (m : Meta) (hm : m.WF) : m.lengths = m.rows.map (·.len) := congrArg Meta.lengths (eq_ofRows m hm)

/-- What concatenating rows must give. -/
def catRows (ms : List Meta) : List Row :=
  if (∀ m ∈ ms, m.chunk.isSome = true) then ms.flatMap rows else (ms.flatMap rows).map Row.noChunk

/-- **C16.** Concatenating along batch gives exactly the rows of the operands in order; chunk indices survive iff all
operands have them. -/
theorem C16_cat_batch (ms : List Meta) (hne : ms ≠ []) (hms : ∀ m ∈ ms, m.WF) :
    ∃ m', catBatch ms = .ok m' ∧ m'.WF ∧ m'.rows = catRows ms ∧
      (m'.chunk.isSome = true ↔ ∀ m ∈ ms, m.chunk.isSome = true) := by
  match ms, hne with
  | [m], _ =>
    refine ⟨m, rfl, hms m (by simp), ?_, by simp⟩
    unfold catRows
    by_cases h : m.chunk.isSome = true
    · simp [h]
    · simp only [List.mem_singleton, forall_eq, h]
      simp
      have := rows_uniform m (hms m (by simp))
      conv_lhs => rw [← List.map_id m.rows]
      apply List.map_congr_left
      intro r hr
      have := this r hr
      cases r; simp_all [Row.noChunk]
  | m1 :: m2 :: ms', _ =>
    obtain ⟨ms, hdef⟩ : ∃ ms, ms = m1 :: m2 :: ms' := ⟨_, rfl⟩
    rw [← hdef] at hms ⊢
    have hcat : catBatch ms = init (ms.flatMap (·.ids)) (ms.flatMap (·.sos)) (ms.flatMap (·.eos)) (ms.flatMap (·.lengths)) (catChunksBatch ms) := by
      rw [hdef]; rfl
    rw [hcat, flatMap_col ms hms _ (·.id) ids_rows, flatMap_col ms hms _ (·.sos) sos_rows,
      flatMap_col ms hms _ (·.eos) eos_rows, flatMap_col ms hms _ (·.len) lengths_rows]
    unfold catRows
    by_cases h : ∀ m ∈ ms, m.chunk.isSome = true
    · have hu : Uniform true (ms.flatMap rows) := by
        intro r hr
        obtain ⟨m, hm, hr⟩ := List.mem_flatMap.1 hr
        rw [rows_uniform m (hms m hm) r hr, h m hm]
      refine ⟨ofRows true (ms.flatMap rows), ?_, ofRows_wf _ _, ?_, ?_⟩
      · rw [← init_ofRows]
        rw [catChunksBatch_all ms h]
        have : (ms.flatMap fun m => m.chunk.getD []) = (ms.flatMap rows).map fun r => r.chunk.getD 0 := by
          clear hu hcat hdef
          induction ms with
          | nil => rfl
          | cons m ms ih =>
            simp only [List.flatMap_cons, List.map_append]
            rw [ih (fun x hx => hms x (by simp [hx])) (fun x hx => h x (by simp [hx]))]
            congr 1
            have := congrArg Meta.chunk (eq_ofRows m (hms m (by simp)))
            rw [h m (by simp)] at this
            rw [this]; simp [ofRows]
        rw [this]
        rfl
      · rw [ofRows_rows _ _ hu, if_pos h]
      · simp [ofRows_isSome, h]
        exact fun m hm => h m hm
    · refine ⟨ofRows false ((ms.flatMap rows).map Row.noChunk), ?_, ofRows_wf _ _, ?_, ?_⟩
      · rw [← init_ofRows, catChunksBatch_none ms h]
        simp [ofRows, Row.noChunk, Function.comp_def]
      · rw [ofRows_rows _ _ (noChunk_uniform _), if_neg h]
      · simp only [ofRows_isSome, h]
        simp

/-- **C16**, associativity: concatenating the concatenations of two groups is concatenating everything. -/
theorem C16_cat_batch_assoc (as bs : List Meta) (ha : as ≠ []) (hb : bs ≠ []) (hwa : ∀ m ∈ as, m.WF) (hwb : ∀ m ∈ bs, m.WF) :
    (do let a ← catBatch as; let b ← catBatch bs; catBatch [a, b]) = catBatch (as ++ bs) := by
  obtain ⟨a, e1, w1, r1, c1⟩ := C16_cat_batch as ha hwa
  obtain ⟨b, e2, w2, r2, c2⟩ := C16_cat_batch bs hb hwb
  obtain ⟨x, e3, w3, r3, c3⟩ := C16_cat_batch [a, b] (by simp) (by simp [w1, w2])
  obtain ⟨y, e4, w4, r4, c4⟩ := C16_cat_batch (as ++ bs) (by simp [ha]) (by
    intro m hm; rcases List.mem_append.1 hm with h | h; exacts [hwa m h, hwb m h])
  rw [e1, Except.bind_ok', e2, Except.bind_ok', e3, e4]
  congr 1
  have hc : x.chunk.isSome = y.chunk.isSome := by
    rw [Bool.eq_iff_iff, c3, c4]
    simp only [List.mem_cons, List.not_mem_nil, or_false, forall_eq_or_imp, forall_eq, c1, c2, List.mem_append]
    constructor
    · rintro ⟨h1, h2⟩ m (h | h)
      exacts [h1 m h, h2 m h]
    · intro h; exact ⟨fun m hm => h m (Or.inl hm), fun m hm => h m (Or.inr hm)⟩
  apply ext_rows w3 w4 _ hc
  rw [r3, r4]
  have idem : ∀ rs : List Row, (rs.map Row.noChunk).map Row.noChunk = rs.map Row.noChunk := by
    intro rs; simp [Row.noChunk, Function.comp_def]
  unfold catRows at *
  simp only [List.flatMap_cons, List.flatMap_nil, List.append_nil, List.flatMap_append]
  by_cases hx : x.chunk.isSome = true
  · have h3 := c3.1 hx
    have h4 := c4.1 (hc ▸ hx)
    rw [if_pos h3, if_pos h4]
    rw [if_pos (fun m hm => h4 m (by simp [hm]))] at r1
    rw [if_pos (fun m hm => h4 m (by simp [hm]))] at r2
    rw [r1, r2]
  · have h3 := fun h => hx (c3.2 h)
    have h4 := fun h => hx (hc ▸ c4.2 h)
    rw [if_neg h3, if_neg h4, List.map_append, List.map_append]
    congr 1
    · rw [r1]; split <;> simp [idem]
    · rw [r2]; split <;> simp [idem]

example : catBatch [ex3, ⟨["d"], [true], [true], [1], some [0]⟩] =
    .ok ⟨["a", "b", "c", "d"], [true, false, false, true], [false, false, true, true], [4, 2, 3, 1], some [0, 5, 7, 0]⟩ := by decide
example : (∀ m ∈ [ex3, ⟨["d"], [true], [true], [1], none⟩], m.WF) ∧ catBatch [ex3, ⟨["d"], [true], [true], [1], none⟩] =
    .ok ⟨["a", "b", "c", "d"], [true, false, false, true], [false, false, true, true], [4, 2, 3, 1], none⟩ := by decide

/-! ### splitting -/

theorem chunksFuel_map {α β : Type} (f : α → β) (k fuel : Nat) (xs : List α) :
    chunksFuel k fuel (xs.map f) = (chunksFuel k fuel xs).map (List.map f) := by
  induction fuel generalizing xs with
  | zero => rfl
  | succ n ih =>
    cases xs with
    | nil => rfl
    | cons x xs =>
      simp only [List.map_cons, chunksFuel]
      rw [← List.map_cons, ← List.map_drop, ih, ← List.map_take]

theorem chunks_map {α β : Type} (f : α → β) (k : Nat) (xs : List α) : chunks k (xs.map f) = (chunks k xs).map (List.map f) := by
  unfold chunks; rw [List.length_map, chunksFuel_map]

theorem splitSections_map {α β : Type} (f : α → β) (xs : List α) (ss : List Int) :
    splitSections (xs.map f) ss = (splitSections xs ss).map (List.map f) := by
  induction ss generalizing xs with
  | nil => rfl
  | cons s ss ih => simp only [splitSections, List.map_cons, ← List.map_take, ← List.map_drop, ih]

theorem zipMetas_ofRows (b : Bool) (rss : List (List Row)) (cs : List (Option (List Int)))
    (hcs : cs = rss.map fun rs => (ofRows b rs).chunk) :
    zipMetas (rss.map (List.map (·.id))) (rss.map (List.map (·.sos))) (rss.map (List.map (·.eos)))
      (rss.map (List.map (·.len))) cs = .ok (rss.map (ofRows b)) := by
  subst hcs
  induction rss with
  | nil => rfl
  | cons rs rss ih =>
    simp only [List.map_cons, zipMetas]
    have := init_ofRows b rs
    simp only [ofRows] at this
    simp only [ofRows] at ih ⊢
    rw [this, Except.bind_ok', ih, Except.bind_ok']

theorem splitChunkCol_eq (f : List Int → List (List Int)) (g : List Row → List (List Row)) (b : Bool) (rs : List Row)
    (hf : f (rs.map fun r => r.chunk.getD 0) = (g rs).map (List.map fun r => r.chunk.getD 0)) :
    splitChunkCol f (g rs).length (ofRows b rs).chunk = (g rs).map fun rs => (ofRows b rs).chunk := by
  cases b
  · simp [ofRows, splitChunkCol, List.map_const']
  · simp [ofRows, splitChunkCol, hf, Function.comp_def]

theorem torchSplitSize_eq {α : Type} (k : Nat) (xs : List α) (hne : xs ≠ []) : torchSplitSize k xs = chunks k xs := by
  unfold torchSplitSize
  cases xs <;> simp_all

theorem splitBatch_size (b : Bool) (rs : List Row) (k : Nat) (hk : 0 < k) (hne : rs ≠ []) :
    (ofRows b rs).splitBatch (.size k) = .ok ((chunks k rs).map (ofRows b)) := by
  unfold splitBatch
  simp only [if_neg (by omega : ¬ (k : Int) = 0), if_neg (by omega : ¬ (k : Int) < 0), Int.toNat_natCast]
  have hc := splitChunkCol_eq (torchSplitSize k) (chunks k) b rs
    (by rw [torchSplitSize_eq _ _ (by simp [hne])]; exact chunks_map _ k rs)
  have h0 : (ofRows b rs).ids = rs.map (·.id) := rfl
  have h1 : (ofRows b rs).sos = rs.map (·.sos) := rfl
  have h2 : (ofRows b rs).eos = rs.map (·.eos) := rfl
  have h3 : (ofRows b rs).lengths = rs.map (·.len) := rfl
  rw [h0, h1, h2, h3, torchSplitSize_eq _ _ (by simp [hne]), torchSplitSize_eq _ _ (by simp [hne]),
    torchSplitSize_eq _ _ (by simp [hne])]
  simp only [chunks_map, List.length_map]
  rw [hc]
  exact zipMetas_ofRows b _ _ rfl

theorem splitBatch_sections (b : Bool) (rs : List Row) (ss : List Int) (hsum : isum ss = rs.length) (hnn : ∀ s ∈ ss, 0 ≤ s) :
    (ofRows b rs).splitBatch (.sections ss) = .ok ((splitSections rs ss).map (ofRows b)) := by
  unfold splitBatch
  have hs : (ofRows b rs).size = rs.length := by simp [size, ofRows]
  have hany : ss.any (fun s => decide (s < 0)) = false := by
    rw [List.any_eq_false]; intro s hs; have := hnn s hs; simp; omega
  simp only [hs, hsum, hany, ne_eq, not_true_eq_false, if_false]
  have hc := splitChunkCol_eq (splitSections · ss) (splitSections · ss) b rs (splitSections_map _ rs ss)
  have h0 : (ofRows b rs).ids = rs.map (·.id) := rfl
  have h1 : (ofRows b rs).sos = rs.map (·.sos) := rfl
  have h2 : (ofRows b rs).eos = rs.map (·.eos) := rfl
  have h3 : (ofRows b rs).lengths = rs.map (·.len) := rfl
  rw [h0, h1, h2, h3]
  simp only [splitSections_map, List.length_map]
  rw [hc]
  simpa using zipMetas_ofRows b _ _ rfl

theorem chunksFuel_spec {α : Type} (k : Nat) (hk : 0 < k) (fuel : Nat) (xs : List α) (hf : xs.length ≤ fuel) :
    (chunksFuel k fuel xs).flatten = xs ∧ (∀ (i : Nat) (c : List α), (chunksFuel k fuel xs)[i]? = some c →
      c = (xs.drop (i * k)).take k ∧ c ≠ []) ∧ (xs ≠ [] → chunksFuel k fuel xs ≠ []) := by
  induction fuel generalizing xs with
  | zero =>
    have : xs = [] := List.length_eq_zero_iff.1 (by omega)
    subst this; simp [chunksFuel]
  | succ n ih =>
    cases xs with
    | nil => simp [chunksFuel]
    | cons x xs =>
      simp only [chunksFuel]
      obtain ⟨h1, h2, -⟩ := ih ((x :: xs).drop k) (by simp at hf ⊢; omega)
      refine ⟨?_, ?_, by simp⟩
      · rw [List.flatten_cons, h1, List.take_append_drop]
      · intro i c hc
        cases i with
        | zero =>
          simp at hc; subst hc
          cases k with
          | zero => omega
          | succ k => simp
        | succ i =>
          simp only [List.getElem?_cons_succ] at hc
          have := h2 i c hc
          rw [List.drop_drop] at this
          refine ⟨?_, this.2⟩
          rw [this.1]; congr 2; rw [Nat.succ_mul]; omega

theorem splitSections_spec {α : Type} (ss : List Int) (xs : List α) (hnn : ∀ s ∈ ss, 0 ≤ s) (hsum : isum ss = xs.length) :
    (splitSections xs ss).flatten = xs ∧ (splitSections xs ss).map (fun c => (c.length : Int)) = ss := by
  induction ss generalizing xs with
  | nil => simp [isum] at hsum; simp [splitSections, List.length_eq_zero_iff.1 (show xs.length = 0 by omega)]
  | cons s ss ih =>
    have h0 := hnn s (by simp)
    have hrest : ∀ t : List Int, (∀ s ∈ t, 0 ≤ s) → 0 ≤ isum t := by
      intro t; induction t with
      | nil => simp [isum]
      | cons a t ih => intro h; have := h a (by simp); have := ih (fun s hs => h s (by simp [hs])); simp [isum]; omega
    have hr := hrest ss (fun s hs => hnn s (by simp [hs]))
    simp only [isum] at hsum
    obtain ⟨h1, h2⟩ := ih (xs.drop s.toNat) (fun s hs => hnn s (by simp [hs])) (by simp; omega)
    refine ⟨by simp [splitSections, h1], ?_⟩
    simp only [splitSections, List.map_cons, h2, List.length_take]
    congr 1; omega

theorem uniform_sub {b : Bool} {rs : List Row} (hu : Uniform b rs) {cs : List (List Row)} (h : cs.flatten = rs) :
    ∀ c ∈ cs, Uniform b c := by
  intro c hc r hr
  exact hu r (by rw [← h]; exact List.mem_flatten.2 ⟨c, hc, hr⟩)

theorem cat_pieces (b : Bool) (rs : List Row) (hu : Uniform b rs) (cs : List (List Row)) (hf : cs.flatten = rs) (hne : cs ≠ []) :
    catBatch (cs.map (ofRows b)) = .ok (ofRows b rs) ∧ (cs.map (ofRows b)).map rows = cs := by
  have hus := uniform_sub hu hf
  have hrows : (cs.map (ofRows b)).map rows = cs := by
    rw [List.map_map]
    conv_rhs => rw [← List.map_id cs]
    apply List.map_congr_left
    intro c hc
    exact ofRows_rows b c (hus c hc)
  refine ⟨?_, hrows⟩
  obtain ⟨m', e, w, r, c⟩ := C16_cat_batch (cs.map (ofRows b)) (by simp [hne]) (by
    intro m hm; obtain ⟨c, -, rfl⟩ := List.mem_map.1 hm; exact ofRows_wf b c)
  rw [e]; congr 1
  have hfm : (cs.map (ofRows b)).flatMap rows = rs := by
    rw [List.flatMap_def, hrows, hf]
  have hb : m'.chunk.isSome = b := by
    rw [Bool.eq_iff_iff, c]
    constructor
    · intro h
      cases cs with
      | nil => exact absurd rfl hne
      | cons x cs => have := h (ofRows b x) (by simp); rwa [ofRows_isSome] at this
    · intro h m hm
      obtain ⟨c, -, rfl⟩ := List.mem_map.1 hm
      rw [ofRows_isSome, h]
  apply ext_rows w (ofRows_wf b rs)
  · rw [r, ofRows_rows b rs hu]
    unfold catRows
    split
    · exact hfm
    · rename_i hn
      rw [hfm]
      have hb' : b = false := by
        cases b with
        | false => rfl
        | true => exact absurd (c.1 hb) hn
      subst hb'
      conv_rhs => rw [← List.map_id rs]
      apply List.map_congr_left
      intro r hr
      have := hu r hr
      cases r; simp_all [Row.noChunk]
  · rw [hb, ofRows_isSome]

/-- **C17.** Splitting by a positive chunk size: the pieces are consecutive runs of `k` rows (the last one possibly
shorter, none empty), and concatenating them gives back the original. -/
theorem C17_split_batch_size (m : Meta) (hm : m.WF) (hne : m.ids ≠ []) (k : Nat) (hk : 0 < k) :
    ∃ ps, m.splitBatch (.size k) = .ok ps ∧ (ps.map rows).flatten = m.rows ∧
      (∀ (i : Nat) (p : Meta), ps[i]? = some p → p.rows = (m.rows.drop (i * k)).take k ∧ p.rows ≠ []) ∧ catBatch ps = .ok m := by
  obtain ⟨rs, hu, he, hr⟩ := exists_ofRows m hm
  have hrs : rs ≠ [] := by
    intro h; subst h
    have := rows_length m hm
    rw [hr] at this; exact hne (List.length_eq_zero_iff.1 this.symm)
  obtain ⟨h1, h2, h3⟩ := chunksFuel_spec k hk rs.length rs (Nat.le_refl _)
  obtain ⟨h4, h5⟩ := cat_pieces m.chunk.isSome rs hu (chunks k rs) h1 (h3 hrs)
  refine ⟨(chunks k rs).map (ofRows m.chunk.isSome), ?_, by rw [h5, hr]; exact h1, ?_, ?_⟩
  · conv_lhs => rw [he]
    exact splitBatch_size _ rs k hk hrs
  · intro i p hp
    have : ((chunks k rs).map (ofRows m.chunk.isSome)).map rows = chunks k rs := h5
    have hp' : (chunks k rs)[i]? = some p.rows := by rw [← this]; simp only [List.getElem?_map] at hp ⊢; rw [hp]; rfl
    rw [hr]; exact h2 i _ hp'
  · rw [h4]; congr 1; exact he.symm

example : ex3.WF ∧ ex3.ids ≠ [] ∧ ex3.splitBatch (.size 2) =
    .ok [⟨["a", "b"], [true, false], [false, false], [4, 2], some [0, 5]⟩, ⟨["c"], [false], [true], [3], some [7]⟩] := by decide

/-- **C17.** Sizes that are not positive are refused: 0 with ValueError, negative ones with RuntimeError. -/
theorem C17_split_batch_refuses (m : Meta) (k : Int) (hk : k ≤ 0) : m.splitBatch (.size k) = .error (if k = 0 then .valueError else .runtimeError) := by
  simp only [splitBatch]
  by_cases h : k = 0
  · rw [if_pos h, if_pos h]
  · rw [if_neg h, if_pos (by omega), if_neg h]

example : (⟨["a", "b"], [true, false], [true, true], [3, 2], none⟩ : Meta).splitBatch (.size 0) = .error .valueError := C17_split_batch_refuses _ 0 (by decide)

/-- **C17.** Splitting by non-negative sections with the right sum: each piece has the size of its section and
concatenating the pieces gives back the original. Sections with any other sum raise ValueError; a negative section with
the right sum is an error of torch. -/
theorem C17_split_batch_sections (m : Meta) (hm : m.WF) (hne : m.ids ≠ []) (ss : List Int) :
    (total ss = m.ids.length → (∀ s ∈ ss, 0 ≤ s) → ∃ ps, m.splitBatch (.sections ss) = .ok ps ∧
      ps.map (fun p => (p.rows.length : Int)) = ss ∧ (ps.map rows).flatten = m.rows ∧ catBatch ps = .ok m) ∧
    (total ss ≠ m.ids.length → m.splitBatch (.sections ss) = .error .valueError) ∧
    (total ss = m.ids.length → (∃ s ∈ ss, s < 0) → m.splitBatch (.sections ss) = .error .runtimeError) := by
  have htot : ∀ ss : List Int, total ss = isum ss := by
    intro ss; induction ss with
    | nil => rfl
    | cons s ss ih => simp [total, isum, ih]
  rw [htot]
  refine ⟨?_, ?_, ?_⟩
  · intro hsum hnn
    obtain ⟨rs, hu, he, hr⟩ := exists_ofRows m hm
    have hlen : rs.length = m.ids.length := by rw [← hr]; exact rows_length m hm
    obtain ⟨h1, h2⟩ := splitSections_spec ss rs hnn (by rw [hlen]; exact hsum)
    have hss : ss ≠ [] := by
      intro h; subst h
      simp [isum] at hsum; exact hne (List.length_eq_zero_iff.1 (by omega))
    obtain ⟨h4, h5⟩ := cat_pieces m.chunk.isSome rs hu (splitSections rs ss) h1 (by cases ss with | nil => exact absurd rfl hss | cons a b => simp [splitSections])
    refine ⟨(splitSections rs ss).map (ofRows m.chunk.isSome), ?_, ?_, by rw [h5, hr]; exact h1, ?_⟩
    · conv_lhs => rw [he]
      exact splitBatch_sections _ rs ss (by rw [hlen]; exact hsum) hnn
    · have : ((splitSections rs ss).map (ofRows m.chunk.isSome)).map (fun p => (p.rows.length : Int)) =
          (((splitSections rs ss).map (ofRows m.chunk.isSome)).map rows).map (fun c => (c.length : Int)) := by
        simp [Function.comp_def]
      rw [this, h5, h2]
    · rw [h4]; congr 1; exact he.symm
  · intro hsum
    unfold splitBatch size
    simp [hsum]
  · intro hsum hneg
    unfold splitBatch size
    simp only [hsum]
    rw [if_neg (by simp), if_pos (by simpa using hneg)]

example : ex3.WF ∧ total [1, 0, 2] = ex3.ids.length ∧ (∀ s ∈ [1, 0, 2], (0 : Int) ≤ s) ∧ ∃ ps, ex3.splitBatch (.sections [1, 0, 2]) = .ok ps := by
  refine ⟨by decide, by decide, by decide, _, rfl⟩
example : ex3.splitBatch (.sections [1, 1]) = .error .valueError := by decide
example : ex3.splitBatch (.sections [4, -1]) = .error .runtimeError := by decide

/-- **C18.** Unbinding gives one object per sequence, the `i`-th consisting of row `i` alone; no object for metadata
without sequences. -/
theorem C18_unbind (m : Meta) (hm : m.WF) :
    ∃ ps, m.unbindBatch = .ok ps ∧ ps.length = m.ids.length ∧
      ∀ (i : Nat) (p : Meta), ps[i]? = some p → p.WF ∧ m.Selects [i] p := by
  obtain ⟨rs, hu, he, hr⟩ := exists_ofRows m hm
  have hlen : rs.length = m.ids.length := by rw [← hr]; exact rows_length m hm
  by_cases hrs : rs = []
  · have hids : m.ids = [] := by subst hrs; exact List.length_eq_zero_iff.1 hlen.symm
    refine ⟨[], ?_, by simp [hids], by simp⟩
    unfold unbindBatch splitBatch
    simp [hids, chunks, chunksFuel, zipMetas]
  have key : ∀ (fuel : Nat) (xs : List Row), xs.length ≤ fuel → chunksFuel 1 fuel xs = xs.map fun x => [x] := by
    intro fuel
    induction fuel with
    | zero => intro xs h; rw [List.length_eq_zero_iff.1 (show xs.length = 0 by omega)]; rfl
    | succ n ih =>
      intro xs h
      cases xs with
      | nil => rfl
      | cons x xs => simp only [chunksFuel]; simp; exact ih xs (by simp at h; omega)
  have hch : chunks 1 rs = rs.map fun x => [x] := key _ _ (Nat.le_refl _)
  have hsplit : m.unbindBatch = .ok ((chunks 1 rs).map (ofRows m.chunk.isSome)) := by
    unfold unbindBatch
    conv_lhs => rw [he]
    exact splitBatch_size _ rs 1 (by omega) hrs
  refine ⟨_, hsplit, by simp [hch, hlen], ?_⟩
  intro i p hp
  rw [hch, List.map_map, List.getElem?_map] at hp
  simp only [Option.map_eq_some_iff, Function.comp_apply] at hp
  obtain ⟨r, hr', rfl⟩ := hp
  refine ⟨ofRows_wf _ _, ofRows_wf _ _, by simp [ofRows], by simp [ofRows_isSome], ?_⟩
  intro k
  have hur : Uniform m.chunk.isSome [r] := by
    intro x hx; simp at hx; subst hx; exact hu x (List.mem_of_getElem? hr')
  rw [ofRows_row _ _ hur]
  cases k with
  | zero =>
    simp only [List.getElem?_cons_zero, Option.bind_some]
    rw [← rows_get m hm, hr, hr']
  | succ k => simp

example : ex3.WF ∧ (ex3.unbindBatch.map (·.length)) = .ok 3 := by decide

end DS.Meta
