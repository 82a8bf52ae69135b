import Verif.Props.CatBatch
/-! # C19, C20: concatenating along length -/

namespace DS.Meta

theorem anyStarting_rows (m : Meta) (hm : m.WF) : m.anyStarting = false ↔ ∀ r ∈ m.rows, r.sos = false := by
  unfold anyStarting
  rw [sos_rows m hm, List.any_eq_false]
  simp

theorem anyEnding_rows (m : Meta) (hm : m.WF) : m.anyEnding = false ↔ ∀ r ∈ m.rows, r.eos = false := by
  unfold anyEnding
  rw [eos_rows m hm, List.any_eq_false]
  simp

theorem checks_ok (first : List String) (j : Nat) (ms : List Meta) (i : Nat) :
    (catLengthChecks first j i ms = .ok () ∧ ∀ (t : Nat) (m : Meta), ms[t]? = some m →
      (i + t ≠ 0 → m.ids = first) ∧ (i + t ≠ 0 → m.anyStarting = false) ∧ (i + t ≠ j → m.anyEnding = false)) ∨
    (catLengthChecks first j i ms = .error .valueError ∧ ∃ (t : Nat) (m : Meta), ms[t]? = some m ∧
      ((i + t ≠ 0 ∧ m.ids ≠ first) ∨ (i + t ≠ 0 ∧ m.anyStarting = true) ∨ (i + t ≠ j ∧ m.anyEnding = true))) := by
  induction ms generalizing i with
  | nil => left; simp [catLengthChecks]
  | cons s r ih =>
    simp only [catLengthChecks, catLengthCheck]
    split
    · right; exact ⟨rfl, 0, s, rfl, Or.inl (by simpa using ‹_›)⟩
    · split
      · right; exact ⟨rfl, 0, s, rfl, Or.inr (Or.inl (by simpa using ‹_›))⟩
      · split
        · right; exact ⟨rfl, 0, s, rfl, Or.inr (Or.inr (by simpa using ‹_›))⟩
        · rename_i h1 h2 h3
          rw [Except.bind_ok']
          rcases ih (i + 1) with ⟨e, h⟩ | ⟨e, t, m, ht, h⟩
          · left
            refine ⟨e, ?_⟩
            intro t m ht
            cases t with
            | zero =>
              simp at ht; subst ht
              refine ⟨fun h => ?_, fun h => ?_, fun h => ?_⟩
              · by_contra hc; exact h1 ⟨by simpa using h, hc⟩
              · by_contra hc; exact h2 ⟨by simpa using h, by simpa using hc⟩
              · by_contra hc; exact h3 ⟨by simpa using h, by simpa using hc⟩
            | succ t =>
              simp at ht
              have := h t m ht
              rw [show i + (t + 1) = i + 1 + t by omega]
              exact this
          · right
            refine ⟨e, t + 1, m, by simpa using ht, ?_⟩
            rw [show i + (t + 1) = i + 1 + t by omega]
            exact h

theorem addCols_fold (n : Nat) (ls : List (List Int)) (acc : List Int) (ha : acc.length = n) (hl : ∀ l ∈ ls, l.length = n) :
    (ls.foldl addCols acc).length = n ∧ ∀ k, k < n → (ls.foldl addCols acc)[k]? = some (acc.getD k 0 + total (ls.map fun l => l.getD k 0)) := by
  induction ls generalizing acc with
  | nil => refine ⟨ha, ?_⟩; intro k hk; simp [total, List.getElem?_eq_getElem (show k < acc.length by omega)]
  | cons l ls ih =>
    have h1 : (addCols acc l).length = n := by simp [addCols, ha, hl l (by simp)]
    obtain ⟨h2, h3⟩ := ih (addCols acc l) h1 (fun x hx => hl x (by simp [hx]))
    refine ⟨h2, ?_⟩
    intro k hk
    simp only [List.foldl_cons, h3 k hk, List.map_cons, total]
    have hll := hl l (by simp)
    have : (addCols acc l).getD k 0 = acc.getD k 0 + l.getD k 0 := by
      unfold addCols
      simp [List.getD_eq_getElem?_getD, List.getElem?_zipWith, List.getElem?_eq_getElem (show k < acc.length by omega),
        List.getElem?_eq_getElem (show k < l.length by omega)]
    rw [this]; congr 1; omega

theorem lenAt_eq (m : Meta) (hm : m.WF) (k : Nat) : m.lenAt k = m.lengths.getD k 0 := by
  unfold lenAt
  by_cases hk : k < m.ids.length
  · obtain ⟨r, hr, -, -, -, h, -⟩ := row_some m hm k hk
    simp [hr, List.getD_eq_getElem?_getD, h]
  · rw [row_none m k (by omega)]
    simp [List.getD_eq_getElem?_getD, List.getElem?_eq_none (l := m.lengths) (i := k) (by rw [hm.2.2.1]; omega)]

/-- The row that concatenating chunks `ms` along length must have at position `k`, from the row `f` of the first and
the row `l` of the last chunk. -/
def joinRow (ms : List Meta) (k : Nat) (f l : Row) : Row :=
  ⟨f.id, f.sos, l.eos, total (ms.map (lenAt · k)), l.chunk⟩

/-- **C19.** Concatenating two or more metadata objects along length succeeds exactly for consecutive chunks (ValueError
otherwise); the result has the first's ids and sos, the last's eos, and the sum of lengths per row. -/
theorem C19_cat_length (ms : List Meta) (h2 : 2 ≤ ms.length) (hms : ∀ m ∈ ms, m.WF) (first last : Meta)
    (hf : ms[0]? = some first) (hl : ms[ms.length - 1]? = some last) :
    (Consecutive ms → ∃ m', catLength ms = .ok m' ∧ m'.WF ∧ m'.ids.length = first.ids.length ∧ m'.chunk.isSome = first.chunk.isSome ∧
      ∀ k f l, first.row k = some f → last.row k = some l → m'.row k = some (joinRow ms k f l)) ∧
    (¬ Consecutive ms → catLength ms = .error .valueError) := by
  match ms, h2 with
  | a :: b :: r, _ =>
    simp at hf; subst hf
    have hlast : (b :: r).getLast (by simp) = last := by
      rw [List.getLast_eq_getElem]
      have : (a :: b :: r)[(a :: b :: r).length - 1]? = (b :: r)[(b :: r).length - 1]? := by simp
      rw [this, List.getElem?_eq_getElem (by simp)] at hl
      exact Option.some.inj hl
    have hlm : last ∈ a :: b :: r := List.mem_of_getElem? hl
    have hchk := checks_ok a.ids ((a :: b :: r).length - 1) (a :: b :: r) 0
    simp only [Nat.zero_add] at hchk
    have hcat : catLength (a :: b :: r) = (do
        catLengthChecks a.ids ((a :: b :: r).length - 1) 0 (a :: b :: r)
        let lengths := (b :: r).foldl (fun acc s => addCols acc s.lengths) a.lengths
        if (a :: b :: r).all (fun s => s.chunk.isSome) then init a.ids a.sos last.eos lengths last.chunk
        else if (a :: b :: r).all (fun s => s.chunk.isNone) then init a.ids a.sos last.eos lengths none
        else .error .valueError) := by
      rw [← hlast]; rfl
    constructor
    · rintro ⟨hc, hch⟩
      have hids : ∀ m ∈ a :: b :: r, m.ids = a.ids := by
        intro m hm
        obtain ⟨t, ht⟩ := List.getElem?_of_mem hm
        exact (hc t m ht).1 a rfl
      have hok : catLengthChecks a.ids ((a :: b :: r).length - 1) 0 (a :: b :: r) = .ok () := by
        rcases hchk with ⟨e, -⟩ | ⟨-, t, m, ht, h⟩
        · exact e
        · exfalso
          have hmw := hms m (List.mem_of_getElem? ht)
          obtain ⟨c1, c2, c3⟩ := hc t m ht
          rcases h with ⟨h0, h⟩ | ⟨h0, h⟩ | ⟨h0, h⟩
          · exact h (c1 a rfl)
          · rw [(anyStarting_rows m hmw).2 (c2 h0)] at h; simp at h
          · rw [(anyEnding_rows m hmw).2 (c3 (by simp at h0 ⊢; omega))] at h; simp at h
      have hlen : ∀ m ∈ a :: b :: r, m.lengths.length = a.ids.length := by
        intro m hm; rw [(hms m hm).2.2.1, hids m hm]
      have hfold : (b :: r).foldl (fun acc s => addCols acc s.lengths) a.lengths = ((b :: r).map (·.lengths)).foldl addCols a.lengths := by
        rw [List.foldl_map]
      obtain ⟨f1, f2⟩ := addCols_fold a.ids.length ((b :: r).map (·.lengths)) a.lengths (hlen a (by simp)) (by
        intro l hl; obtain ⟨m, hm, rfl⟩ := List.mem_map.1 hl; exact hlen m (by simp at hm ⊢; tauto))
      have haw := hms a (by simp)
      have hlw := hms last hlm
      have hchunk : (if (a :: b :: r).all (fun s => s.chunk.isSome) then
            init a.ids a.sos last.eos (((b :: r).map (·.lengths)).foldl addCols a.lengths) last.chunk
          else if (a :: b :: r).all (fun s => s.chunk.isNone) then
            init a.ids a.sos last.eos (((b :: r).map (·.lengths)).foldl addCols a.lengths) none
          else .error .valueError) = init a.ids a.sos last.eos (((b :: r).map (·.lengths)).foldl addCols a.lengths) last.chunk := by
        rcases hch with h | h
        · rw [if_pos (by rw [List.all_eq_true]; exact h)]
        · have hn : last.chunk = none := by have := h last hlm; simpa using this
          have ha0 := h a (by simp)
          rw [if_neg (by rw [List.all_eq_true]; intro hcon; have := hcon a (by simp); rw [ha0] at this; simp at this)]
          rw [if_pos (by rw [List.all_eq_true]; intro m hm; have := h m hm; simpa using this), hn]
      have hisome : last.chunk.isSome = a.chunk.isSome := by
        rcases hch with h | h <;> rw [h last hlm, h a (by simp)]
      have heos : last.eos.length = a.ids.length := by rw [hlw.2.1, hids last hlm]
      refine ⟨⟨a.ids, a.sos, last.eos, ((b :: r).map (·.lengths)).foldl addCols a.lengths, last.chunk⟩, ?_, ?_, rfl, hisome, ?_⟩
      · rw [hcat, hok, Except.bind_ok']
        simp only [hfold]
        rw [hchunk]
        exact init_ok haw.1 heos f1
      · refine ⟨haw.1, heos, f1, ?_⟩
        intro c hc; simp only at hc; rw [hlw.2.2.2 c hc, hids last hlm]
      · intro k f l hkf hkl
        by_cases hk : k < a.ids.length
        · obtain ⟨f', hf', i1, i2, -, i4, -⟩ := row_some a haw k hk
          obtain ⟨l', hl', -, -, j3, -, -, j6⟩ := row_some last hlw k (by rw [hids last hlm]; exact hk)
          rw [hkf] at hf'; rw [hkl] at hl'
          simp at hf' hl'; subst hf' hl'
          have hsum := f2 k hk
          have : a.lengths.getD k 0 + total (((b :: r).map (·.lengths)).map fun l => l.getD k 0) = total ((a :: b :: r).map (lenAt · k)) := by
            show _ = lenAt a k + total ((b :: r).map (lenAt · k))
            rw [lenAt_eq a haw]
            congr 1
            rw [List.map_map]
            congr 1
            apply List.map_congr_left
            intro m hm
            rw [lenAt_eq m (hms m (by simp at hm ⊢; tauto))]; rfl
          rw [this] at hsum
          unfold row
          simp only [i1, i2, j3, hsum]
          cases hc : last.chunk with
          | none =>
            have : l.chunk = none := by
              have := rows_uniform last hlw l (by
                have := rows_get last hlw k; rw [hkl] at this; exact List.mem_of_getElem? this)
              rw [hc] at this; simpa using this
            simp [joinRow, this]
          | some c =>
            have h6 := j6 c hc
            have : l.chunk.isSome = true := by
              have := rows_uniform last hlw l (by
                have := rows_get last hlw k; rw [hkl] at this; exact List.mem_of_getElem? this)
              rw [hc] at this; simpa using this
            obtain ⟨x, hx⟩ := Option.isSome_iff_exists.1 this
            rw [hx] at h6
            simp [h6, joinRow, hx]
        · rw [row_none a k (by omega)] at hkf; simp at hkf
    · intro hn
      rw [hcat]
      rcases hchk with ⟨e, h⟩ | ⟨e, -⟩
      · rw [e, Except.bind_ok']
        by_cases hsome : ∀ m ∈ a :: b :: r, m.chunk.isSome = true
        · exfalso; apply hn
          refine ⟨?_, Or.inl hsome⟩
          intro i m hi
          have hmw := hms m (List.mem_of_getElem? hi)
          obtain ⟨h1, h2, h3⟩ := h i m hi
          refine ⟨?_, fun hi0 => (anyStarting_rows m hmw).1 (h2 hi0), fun hij => (anyEnding_rows m hmw).1 (h3 (by simp at hij ⊢; omega))⟩
          intro m0 hm0; simp at hm0; subst hm0
          cases i with
          | zero => simp at hi; rw [hi]
          | succ i => exact h1 (by omega)
        · by_cases hnone : ∀ m ∈ a :: b :: r, m.chunk.isSome = false
          · exfalso; apply hn
            refine ⟨?_, Or.inr hnone⟩
            intro i m hi
            have hmw := hms m (List.mem_of_getElem? hi)
            obtain ⟨h1, h2, h3⟩ := h i m hi
            refine ⟨?_, fun hi0 => (anyStarting_rows m hmw).1 (h2 hi0), fun hij => (anyEnding_rows m hmw).1 (h3 (by simp at hij ⊢; omega))⟩
            intro m0 hm0; simp at hm0; subst hm0
            cases i with
            | zero => simp at hi; rw [hi]
            | succ i => exact h1 (by omega)
          · simp only
            rw [if_neg (by rw [List.all_eq_true]; exact hsome), if_neg (by
              rw [List.all_eq_true]; intro hcon; apply hnone; intro m hm; have := hcon m hm; simpa using this)]
      · rw [e, Except.bind_error']

/-- Two consecutive chunks of `ex3`-like sequences. -/
def exA : Meta := ⟨["a", "b"], [true, true], [false, false], [2, 2], some [0, 0]⟩
/-- The second chunk. -/
def exB : Meta := ⟨["a", "b"], [false, false], [false, false], [2, 1], some [1, 1]⟩
/-- The third chunk. -/
def exC : Meta := ⟨["a", "b"], [false, false], [true, false], [1, 2], some [2, 2]⟩

example : catLength [exA, exB, exC] = .ok ⟨["a", "b"], [true, true], [true, false], [5, 5], some [2, 2]⟩ := by decide
example : catLength [exA, exC, exB] = .error .valueError := by decide

theorem total_append (a b : List Int) : total (a ++ b) = total a + total b := by
  induction a with
  | nil => simp [total]
  | cons x a ih => simp [total, ih]; omega

theorem ext_row {m m' : Meta} (hm : m.WF) (hm' : m'.WF) (hl : m.ids.length = m'.ids.length)
    (hc : m.chunk.isSome = m'.chunk.isSome) (h : ∀ k, k < m.ids.length → m.row k = m'.row k) : m = m' := by
  apply ext_rows hm hm' _ hc
  apply List.ext_getElem?
  intro k
  rw [rows_get m hm, rows_get m' hm']
  by_cases hk : k < m.ids.length
  · exact h k hk
  · rw [row_none m k (by omega), row_none m' k (by omega)]

/-- `catLength` of consecutive well-formed operands, one or more of them. -/
theorem catLength_spec (ms : List Meta) (hms : ∀ m ∈ ms, m.WF) (first last : Meta)
    (hf : ms[0]? = some first) (hl : ms[ms.length - 1]? = some last) (hc : Consecutive ms) :
    ∃ m', catLength ms = .ok m' ∧ m'.WF ∧ m'.ids = first.ids ∧ m'.chunk.isSome = first.chunk.isSome ∧
      ∀ k f l, first.row k = some f → last.row k = some l → m'.row k = some (joinRow ms k f l) := by
  by_cases h2 : 2 ≤ ms.length
  · obtain ⟨m', h1, h3, h4, h5, h6⟩ := (C19_cat_length ms h2 hms first last hf hl).1 hc
    refine ⟨m', h1, h3, ?_, h5, h6⟩
    have hlast : last.ids = first.ids := (hc.1 _ last hl).1 first hf
    have hfw := hms first (List.mem_of_getElem? hf)
    have hlw := hms last (List.mem_of_getElem? hl)
    apply List.ext_getElem?
    intro k
    by_cases hk : k < first.ids.length
    · obtain ⟨f, hf, hfi, -⟩ := row_some first hfw k hk
      obtain ⟨l, hl, -⟩ := row_some last hlw k (by rw [hlast]; exact hk)
      have hr := h6 k f l hf hl
      obtain ⟨r, hr', hri, -⟩ := row_some m' h3 k (by omega)
      rw [hr] at hr'; simp at hr'; subst hr'
      rw [hri, hfi]; rfl
    · rw [List.getElem?_eq_none (by omega), List.getElem?_eq_none (by omega)]
  · match ms with
    | [] => simp at hf
    | [m] =>
      simp at hf hl; subst hf hl
      have hmw := hms m (by simp)
      refine ⟨m, rfl, hmw, rfl, rfl, ?_⟩
      intro k f l h1 h2
      rw [h1] at h2; simp at h2; subst h2
      rw [h1]
      simp [joinRow, total, lenAt, h1]
    | _ :: _ :: _ => simp at h2

/-- **C20.** For concatenable chunks `as ++ bs`, concatenating the two groups separately and then together gives the same
result as concatenating all at once. -/
theorem C20_cat_length_assoc (as bs : List Meta) (ha : as ≠ []) (hb : bs ≠ []) (hms : ∀ m ∈ as ++ bs, m.WF)
    (hc : Consecutive (as ++ bs)) :
    ∃ m', catLength (as ++ bs) = .ok m' ∧ (do let a ← catLength as; let b ← catLength bs; catLength [a, b]) = .ok m' := by
  have hla : 0 < as.length := List.length_pos_of_ne_nil ha
  have hlb : 0 < bs.length := List.length_pos_of_ne_nil hb
  obtain ⟨hc1, hc2⟩ := hc
  -- first and last of the groups
  have a0 := List.getElem?_eq_getElem (l := as) (i := 0) hla
  have a1 := List.getElem?_eq_getElem (l := as) (i := as.length - 1) (by omega)
  have b0 := List.getElem?_eq_getElem (l := bs) (i := 0) hlb
  have b1 := List.getElem?_eq_getElem (l := bs) (i := bs.length - 1) (by omega)
  generalize as[0] = fa at a0
  generalize as[as.length - 1] = la at a1
  generalize bs[0] = fb at b0
  generalize bs[bs.length - 1] = lb at b1
  have c0 : (as ++ bs)[0]? = some fa := by rw [List.getElem?_append_left hla]; exact a0
  have c1 : (as ++ bs)[(as ++ bs).length - 1]? = some lb := by
    rw [List.getElem?_append_right (by simp; omega), ← b1]; congr 1; simp; omega
  have idA : ∀ m ∈ as ++ bs, m.ids = fa.ids := by
    intro m hm
    obtain ⟨t, ht⟩ := List.getElem?_of_mem hm
    exact (hc1 t m ht).1 fa c0
  have getA : ∀ (t : Nat) (m : Meta), as[t]? = some m → (as ++ bs)[t]? = some m := by
    intro t m h
    rw [List.getElem?_append_left]; exact h
    by_contra hcon; rw [List.getElem?_eq_none (by omega)] at h; simp at h
  have getB : ∀ (t : Nat) (m : Meta), bs[t]? = some m → (as ++ bs)[as.length + t]? = some m := by
    intro t m h
    rw [List.getElem?_append_right (by omega)]; simpa using h
  have conA : Consecutive as := by
    refine ⟨?_, hc2.imp (fun h m hm => h m (by simp [hm])) (fun h m hm => h m (by simp [hm]))⟩
    intro i m hi
    have hlt : i < as.length := by
      by_contra hcon; rw [List.getElem?_eq_none (by omega)] at hi; simp at hi
    obtain ⟨h1, h2, h3⟩ := hc1 i m (getA i m hi)
    refine ⟨?_, h2, fun hne => h3 (by simp; omega)⟩
    intro m0 hm0; rw [a0] at hm0; simp at hm0; subst hm0; exact h1 fa c0
  have conB : Consecutive bs := by
    refine ⟨?_, hc2.imp (fun h m hm => h m (by simp [hm])) (fun h m hm => h m (by simp [hm]))⟩
    intro i m hi
    obtain ⟨h1, h2, h3⟩ := hc1 (as.length + i) m (getB i m hi)
    refine ⟨?_, fun _ => h2 (by omega), fun hne => h3 (by simp; omega)⟩
    intro m0 hm0
    rw [idA m (List.mem_of_getElem? (getB i m hi)), idA m0 (List.mem_of_getElem? (getB 0 m0 hm0))]
  obtain ⟨ma, ea, wa, ia, ca, ra⟩ := catLength_spec as (fun m hm => hms m (by simp [hm])) fa la a0 a1 conA
  obtain ⟨mb, eb, wb, ib, cb, rb⟩ := catLength_spec bs (fun m hm => hms m (by simp [hm])) fb lb b0 b1 conB
  obtain ⟨mc, ec, wc, ic, cc, rc⟩ := catLength_spec (as ++ bs) hms fa lb c0 c1 ⟨hc1, hc2⟩
  refine ⟨mc, ec, ?_⟩
  rw [ea, Except.bind_ok', eb, Except.bind_ok']
  have wfa := hms fa (List.mem_of_getElem? c0)
  have wfb := hms fb (by simp [List.mem_of_getElem? b0])
  have wla := hms la (by simp [List.mem_of_getElem? a1])
  have wlb := hms lb (by simp [List.mem_of_getElem? b1])
  have ifb : fb.ids = fa.ids := idA fb (by simp [List.mem_of_getElem? b0])
  have ila : la.ids = fa.ids := idA la (by simp [List.mem_of_getElem? a1])
  have ilb : lb.ids = fa.ids := idA lb (by simp [List.mem_of_getElem? b1])
  have all_rows : ∀ k, k < fa.ids.length → ∃ rfa rla rfb rlb, fa.row k = some rfa ∧ la.row k = some rla ∧ fb.row k = some rfb ∧ lb.row k = some rlb := by
    intro k hk
    obtain ⟨x1, h1, -⟩ := row_some fa wfa k hk
    obtain ⟨x2, h2, -⟩ := row_some la wla k (by rw [ila]; exact hk)
    obtain ⟨x3, h3, -⟩ := row_some fb wfb k (by rw [ifb]; exact hk)
    obtain ⟨x4, h4, -⟩ := row_some lb wlb k (by rw [ilb]; exact hk)
    exact ⟨x1, x2, x3, x4, h1, h2, h3, h4⟩
  have isSomes : ma.chunk.isSome = mb.chunk.isSome := by
    rw [ca, cb]
    rcases hc2 with h | h <;> rw [h fa (List.mem_of_getElem? c0), h fb (by simp [List.mem_of_getElem? b0])]
  have conAB : Consecutive [ma, mb] := by
    refine ⟨?_, ?_⟩
    · intro i m hi
      match i with
      | 0 =>
        simp at hi; subst hi
        refine ⟨by simp, by simp, fun _ => ?_⟩
        intro r hr
        obtain ⟨k, hk⟩ := List.getElem?_of_mem hr
        rw [rows_get ma wa] at hk
        have hkl : k < fa.ids.length := by
          by_contra hcon; rw [row_none ma k (by rw [ia]; omega)] at hk; simp at hk
        obtain ⟨x1, x2, x3, x4, h1, h2, h3, h4⟩ := all_rows k hkl
        rw [ra k x1 x2 h1 h2] at hk; simp at hk; subst hk
        show x2.eos = false
        refine (hc1 (as.length - 1) la (getA _ _ a1)).2.2 (by simp; omega) x2 ?_
        have := rows_get la wla k; rw [h2] at this; exact List.mem_of_getElem? this
      | 1 =>
        simp at hi; subst hi
        refine ⟨?_, fun _ => ?_, by simp⟩
        · intro m0 hm0; simp at hm0; subst hm0; rw [ib, ia, ifb]
        · intro r hr
          obtain ⟨k, hk⟩ := List.getElem?_of_mem hr
          rw [rows_get mb wb] at hk
          have hkl : k < fa.ids.length := by
            by_contra hcon; rw [row_none mb k (by rw [ib, ifb]; omega)] at hk; simp at hk
          obtain ⟨x1, x2, x3, x4, h1, h2, h3, h4⟩ := all_rows k hkl
          rw [rb k x3 x4 h3 h4] at hk; simp at hk; subst hk
          show x3.sos = false
          refine (hc1 as.length fb (getB 0 fb b0)).2.1 (by omega) x3 ?_
          have := rows_get fb wfb k; rw [h3] at this; exact List.mem_of_getElem? this
      | i + 2 => simp at hi
    · cases hb' : ma.chunk.isSome with
      | true => left; intro m hm; simp at hm; rcases hm with rfl | rfl; exacts [hb', by rw [← isSomes]; exact hb']
      | false => right; intro m hm; simp at hm; rcases hm with rfl | rfl; exacts [hb', by rw [← isSomes]; exact hb']
  obtain ⟨mx, ex, wx, ix, cx, rx⟩ := catLength_spec [ma, mb] (by intro m hm; simp at hm; rcases hm with rfl | rfl; exacts [wa, wb])
    ma mb rfl rfl conAB
  rw [ex]; congr 1
  apply ext_row wx wc (by rw [ix, ia, ic]) (by rw [cx, ca, cc])
  intro k hk
  obtain ⟨x1, x2, x3, x4, h1, h2, h3, h4⟩ := all_rows k (by rw [← ia, ← ix]; exact hk)
  have r1 := ra k x1 x2 h1 h2
  have r2 := rb k x3 x4 h3 h4
  rw [rx k _ _ r1 r2, rc k x1 x4 h1 h4]
  simp only [joinRow, List.map_append, total_append, List.map_cons, List.map_nil, total]
  congr 2
  simp only [lenAt, r1, r2, joinRow]
  simp

theorem exABC_consecutive : Consecutive [exA, exB, exC] := by
  refine ⟨?_, Or.inl (by decide)⟩
  intro i m hi
  match i with
  | 0 => simp at hi; subst hi; exact ⟨by simp, by simp, fun _ => by decide⟩
  | 1 => simp at hi; subst hi; exact ⟨by simp; decide, fun _ => by decide, fun _ => by decide⟩
  | 2 => simp at hi; subst hi; exact ⟨by simp; decide, fun _ => by decide, by simp⟩
  | i + 3 => simp at hi

example : Consecutive ([exA] ++ [exB, exC]) ∧ (∀ m ∈ [exA] ++ [exB, exC], m.WF) := ⟨exABC_consecutive, by decide⟩

end DS.Meta
