import Verif.Lemmas.Length
import Verif.Spec.Cat
/-! Metadata objects as lists of rows. -/

namespace DS.Meta

/-- The metadata object with the given rows. -/
def ofRows (b : Bool) (rs : List Row) : Meta :=
  ⟨rs.map (·.id), rs.map (·.sos), rs.map (·.eos), rs.map (·.len), if b then some (rs.map fun r => r.chunk.getD 0) else none⟩

/-- All rows have a chunk index, or none has. -/
def Uniform (b : Bool) (rs : List Row) : Prop := ∀ r ∈ rs, r.chunk.isSome = b

theorem ofRows_wf (b : Bool) (rs : List Row) : (ofRows b rs).WF := by
  refine ⟨by simp [ofRows], by simp [ofRows], by simp [ofRows], ?_⟩
  intro c hc
  simp only [ofRows] at hc
  cases b <;> simp at hc
  simp [← hc, ofRows]

theorem ofRows_row (b : Bool) (rs : List Row) (hu : Uniform b rs) (k : Nat) : (ofRows b rs).row k = rs[k]? := by
  unfold row ofRows
  simp only [List.getElem?_map]
  cases h : rs[k]? with
  | none => simp
  | some r =>
    have := hu r (List.mem_of_getElem? h)
    cases b
    · simp only [Option.map_some]
      cases r; simp_all
    · simp only [Option.map_some]
      cases r; simp_all
      rw [Option.isSome_iff_exists] at this
      obtain ⟨x, rfl⟩ := this
      rfl

theorem filterMap_range_get {α : Type} (xs : List α) : (List.range xs.length).filterMap (xs[·]?) = xs := gath_range xs

theorem ofRows_rows (b : Bool) (rs : List Row) (hu : Uniform b rs) : (ofRows b rs).rows = rs := by
  unfold rows
  have : (ofRows b rs).row = fun k => rs[k]? := by funext k; exact ofRows_row b rs hu k
  rw [this]
  have hl : (ofRows b rs).ids.length = rs.length := by simp [ofRows]
  rw [hl]
  exact filterMap_range_get rs

theorem ofRows_size (b : Bool) (rs : List Row) : (ofRows b rs).ids.length = rs.length := by simp [ofRows]
theorem ofRows_isSome (b : Bool) (rs : List Row) : (ofRows b rs).chunk.isSome = b := by cases b <;> simp [ofRows]

theorem row_some (m : Meta) (hm : m.WF) (k : Nat) (hk : k < m.ids.length) : ∃ r, m.row k = some r ∧
    m.ids[k]? = some r.id ∧ m.sos[k]? = some r.sos ∧ m.eos[k]? = some r.eos ∧ m.lengths[k]? = some r.len ∧
    r.chunk.isSome = m.chunk.isSome ∧ ∀ c, m.chunk = some c → c[k]? = r.chunk := by
  obtain ⟨w1, w2, w3, w4⟩ := hm
  have a0 := List.getElem?_eq_getElem hk
  have a1 := List.getElem?_eq_getElem (l := m.sos) (i := k) (by omega)
  have a2 := List.getElem?_eq_getElem (l := m.eos) (i := k) (by omega)
  have a3 := List.getElem?_eq_getElem (l := m.lengths) (i := k) (by omega)
  cases hc : m.chunk with
  | none => exact ⟨⟨m.ids[k], m.sos[k], m.eos[k], m.lengths[k], none⟩, by simp [row, a0, a1, a2, a3, hc], by simp [a0, a1, a2, a3]⟩
  | some c =>
    have hk4 : k < c.length := by rw [w4 c hc]; omega
    have a4 := List.getElem?_eq_getElem (l := c) (i := k) hk4
    refine ⟨⟨m.ids[k], m.sos[k], m.eos[k], m.lengths[k], some c[k]⟩, by simp [row, a0, a1, a2, a3, hc, a4], ?_⟩
    simp [a0, a1, a2, a3]
    
theorem row_none (m : Meta) (k : Nat) (hk : m.ids.length ≤ k) : m.row k = none := by
  unfold row
  rw [List.getElem?_eq_none hk]

theorem rows_get (m : Meta) (hm : m.WF) (k : Nat) : m.rows[k]? = m.row k := by
  have key : ∀ n, n ≤ m.ids.length → ((List.range n).filterMap m.row).length = n ∧
      ∀ k, k < n → ((List.range n).filterMap m.row)[k]? = m.row k := by
    intro n
    induction n with
    | zero => intro _; simp
    | succ n ih =>
      intro hn
      obtain ⟨h1, h2⟩ := ih (by omega)
      obtain ⟨r, hr, -⟩ := row_some m hm n (by omega)
      rw [List.range_succ, List.filterMap_append]
      refine ⟨by simp [h1, hr], ?_⟩
      intro k hk
      by_cases hkn : k < n
      · rw [List.getElem?_append_left (by omega)]; exact h2 k hkn
      · have : k = n := by omega
        subst this
        rw [List.getElem?_append_right (by omega)]
        simp [h1, hr]
  obtain ⟨h1, h2⟩ := key m.ids.length (Nat.le_refl _)
  by_cases hk : k < m.ids.length
  · exact h2 k hk
  · rw [row_none m k (by omega)]
    exact List.getElem?_eq_none (by unfold rows; omega)

theorem rows_length (m : Meta) (hm : m.WF) : m.rows.length = m.ids.length := by
  have h := rows_get m hm
  apply Nat.le_antisymm
  · by_contra hc
    have h1 := List.getElem?_eq_getElem (l := m.rows) (i := m.ids.length) (by omega)
    rw [h, row_none m _ (Nat.le_refl _)] at h1
    simp at h1
  · by_contra hc
    obtain ⟨r, hr, -⟩ := row_some m hm m.rows.length (by omega)
    rw [← h, List.getElem?_eq_none (Nat.le_refl _)] at hr
    simp at hr

theorem rows_uniform (m : Meta) (hm : m.WF) : Uniform m.chunk.isSome m.rows := by
  intro r hr
  obtain ⟨k, hk⟩ := List.getElem?_of_mem hr
  rw [rows_get m hm] at hk
  by_cases hlt : k < m.ids.length
  · obtain ⟨r', hr', -, -, -, -, h, -⟩ := row_some m hm k hlt
    rw [hk] at hr'; simp at hr'; rw [hr']; exact h
  · rw [row_none m k (by omega)] at hk; simp at hk

/-- Every well-formed metadata object is determined by its rows and by whether it carries chunk indices. -/
theorem eq_ofRows (m : Meta) (hm : m.WF) : m = ofRows m.chunk.isSome m.rows := by
  have hl := rows_length m hm
  have hw := hm
  obtain ⟨w1, w2, w3, w4⟩ := hm
  have col : ∀ k, k < m.ids.length → ∃ r, m.rows[k]? = some r ∧
    m.ids[k]? = some r.id ∧ m.sos[k]? = some r.sos ∧ m.eos[k]? = some r.eos ∧ m.lengths[k]? = some r.len ∧
    r.chunk.isSome = m.chunk.isSome ∧ ∀ c, m.chunk = some c → c[k]? = r.chunk := by
    intro k hk
    obtain ⟨r, h, h'⟩ := row_some m hw k hk
    exact ⟨r, by rw [rows_get m hw]; exact h, h'⟩
  have out : ∀ k, ¬ k < m.ids.length → m.rows[k]? = none := fun k hk => List.getElem?_eq_none (by omega)
  unfold ofRows
  have e0 : m.ids = m.rows.map (·.id) := by
    apply List.ext_getElem?; intro k
    by_cases hk : k < m.ids.length
    · obtain ⟨r, hr, h0, -⟩ := col k hk; simp [hr, h0]
    · simp [out k hk, List.getElem?_eq_none (l := m.ids) (i := k) (by omega)]
  have e1 : m.sos = m.rows.map (·.sos) := by
    apply List.ext_getElem?; intro k
    by_cases hk : k < m.ids.length
    · obtain ⟨r, hr, -, h0, -⟩ := col k hk; simp [hr, h0]
    · simp [out k hk, List.getElem?_eq_none (l := m.sos) (i := k) (by omega)]
  have e2 : m.eos = m.rows.map (·.eos) := by
    apply List.ext_getElem?; intro k
    by_cases hk : k < m.ids.length
    · obtain ⟨r, hr, -, -, h0, -⟩ := col k hk; simp [hr, h0]
    · simp [out k hk, List.getElem?_eq_none (l := m.eos) (i := k) (by omega)]
  have e3 : m.lengths = m.rows.map (·.len) := by
    apply List.ext_getElem?; intro k
    by_cases hk : k < m.ids.length
    · obtain ⟨r, hr, -, -, -, h0, -⟩ := col k hk; simp [hr, h0]
    · simp [out k hk, List.getElem?_eq_none (l := m.lengths) (i := k) (by omega)]
  have e4 : m.chunk = if m.chunk.isSome then some (m.rows.map fun r => r.chunk.getD 0) else none := by
    cases hc : m.chunk with
    | none => rfl
    | some c =>
      simp only [Option.isSome_some, if_true, Option.some.injEq]
      apply List.ext_getElem?; intro k
      by_cases hk : k < m.ids.length
      · obtain ⟨r, hr, -, -, -, -, h5, h6⟩ := col k hk
        have h6 := h6 c hc
        rw [h6]; simp only [List.getElem?_map, hr]
        rw [hc] at h5; simp [Option.isSome_iff_exists] at h5
        obtain ⟨x, hx⟩ := h5; simp [hx]
      · simp [out k hk, List.getElem?_eq_none (l := c) (i := k) (by rw [w4 c hc]; omega)]
  cases m
  simp only [mk.injEq]
  exact ⟨e0, e1, e2, e3, e4⟩

theorem ext_rows {m m' : Meta} (hm : m.WF) (hm' : m'.WF) (hr : m.rows = m'.rows) (hc : m.chunk.isSome = m'.chunk.isSome) : m = m' := by
  rw [eq_ofRows m hm, eq_ofRows m' hm', hr, hc]

/-- Induction-friendly form: a well-formed object is `ofRows b rs` with uniform rows. -/
theorem exists_ofRows (m : Meta) (hm : m.WF) : ∃ rs, Uniform m.chunk.isSome rs ∧ m = ofRows m.chunk.isSome rs ∧ m.rows = rs :=
  ⟨m.rows, rows_uniform m hm, eq_ofRows m hm, rfl⟩

theorem init_ofRows (b : Bool) (rs : List Row) :
    init (ofRows b rs).ids (ofRows b rs).sos (ofRows b rs).eos (ofRows b rs).lengths (ofRows b rs).chunk = .ok (ofRows b rs) :=
  init_ok (by simp [ofRows]) (by simp [ofRows]) (by simp [ofRows])

theorem noChunk_uniform (rs : List Row) : Uniform false (rs.map Row.noChunk) := by
  intro r hr
  obtain ⟨x, -, rfl⟩ := List.mem_map.1 hr
  rfl

theorem ofRows_noChunk (b : Bool) (rs : List Row) : ofRows false (rs.map Row.noChunk) = { ofRows b rs with chunk := none } := by
  simp [ofRows, Row.noChunk, Function.comp_def]

end DS.Meta
