import Verif.Props.Epochs
/-! C229 for streams of several chunks. -/

namespace DS.Conv
section
variable {α : Type} [Zero α]

omit [Zero α] in
theorem row_unpacked (x : ST α) (h : Lined x) (r : Row) (hr : r ∈ x.md.rows) :
    ∃ c ∈ unpack x, c.id = r.id ∧ c.eos = r.eos ∧ (c.frames ≠ [] → r.len ≠ 0) := by
  obtain ⟨k, hk, rfl⟩ := List.mem_iff_getElem.1 hr
  have hl : k < x.rows.length := by
    rw [h.2, Meta.ids_rows x.md h.1, List.length_map]
    exact hk
  refine ⟨⟨x.md.rows[k].id, x.md.rows[k].sos, x.md.rows[k].eos, x.md.rows[k].chunk, x.rows[k].take x.md.rows[k].len.toNat⟩, List.mem_iff_getElem?.2 ⟨k, ?_⟩, ?_⟩
  · unfold unpack
    rw [List.getElem?_zipWith, List.getElem?_eq_getElem hk, List.getElem?_eq_getElem hl]
  · refine ⟨rfl, rfl, fun hf h0 => hf ?_⟩
    rw [h0]
    rfl

omit [Zero α] in
theorem unpacked_row (x : ST α) (c : Chunk α) (hc : c ∈ unpack x) : ∃ r ∈ x.md.rows, c.id = r.id ∧ c.eos = r.eos := by
  unfold unpack at hc
  rw [List.mem_iff_getElem?] at hc
  obtain ⟨k, hk⟩ := hc
  rw [List.getElem?_zipWith] at hk
  cases h1 : x.md.rows[k]? with
  | none => rw [h1] at hk; simp at hk
  | some r =>
    cases h2 : x.rows[k]? with
    | none => rw [h1, h2] at hk; simp at hk
    | some f =>
      rw [h1, h2] at hk
      simp only [Option.some.injEq] at hk
      subst hk
      exact ⟨r, List.mem_of_getElem? h1, rfl, rfl⟩

omit [Zero α] in
/-- Batches in which the last chunk of every stream is marked as its end have finished. -/
theorem finished_last (xs : List (ST α)) (hl : ∀ x ∈ xs, Lined x) (hc : ∀ i c, (chunksOf i (xs.map unpack)).getLast? = some c → c.eos = true) : Finished xs := by
  intro i x hx
  obtain ⟨ys, hy⟩ := List.getLast?_eq_some_iff.1 hx
  obtain ⟨A, l2, rfl, -, h2⟩ := List.filter_eq_append_iff.1 hy
  obtain ⟨A', B, rfl, -, h4, h5⟩ := List.filter_eq_cons_iff.1 h2
  have hi : i ∈ x.md.ids := by simpa using h4
  have hB : ∀ b ∈ B, i ∉ b.md.ids := by
    intro b hb
    have := List.filter_eq_nil_iff.1 h5 b hb
    simpa using this
  have hlx : Lined x := hl x (by simp)
  have hBn : chunksOf i (B.map unpack) = [] := by
    unfold chunksOf
    rw [List.filter_eq_nil_iff]
    intro c hc' h
    obtain ⟨u, hu, hcu⟩ := List.mem_flatten.1 hc'
    obtain ⟨b, hb, rfl⟩ := List.mem_map.1 hu
    obtain ⟨r, hr, h1, -⟩ := unpacked_row b c hcu
    apply hB b hb
    rw [Meta.ids_rows b.md (hl b (by simp [hb])).1]
    exact List.mem_map.2 ⟨r, hr, by rw [← h1]; simpa using h⟩
  have hspl : chunksOf i ((A ++ (A' ++ x :: B)).map unpack) = chunksOf i ((A ++ A').map unpack) ++ (unpack x).filter fun c => decide (c.id = i) := by
    unfold chunksOf at hBn ⊢
    simp only [List.map_append, List.map_cons, List.flatten_append, List.flatten_cons, List.filter_append, hBn, List.append_nil, List.append_assoc]
  obtain ⟨r, hr, hri⟩ := List.mem_map.1 (by rw [Meta.ids_rows x.md hlx.1] at hi; exact hi)
  obtain ⟨c, hcm, c1, -⟩ := row_unpacked x hlx r hr
  have hne : (unpack x).filter (fun c => decide (c.id = i)) ≠ [] := by
    intro h0
    have := List.filter_eq_nil_iff.1 h0 c hcm
    simp [c1, hri] at this
  generalize hw : (unpack x).filter (fun c => decide (c.id = i)) = w at hspl hne
  have he := hc i (w.getLast hne) (by rw [hspl, List.getLast?_append, List.getLast?_eq_some_getLast hne]; rfl)
  have hm : w.getLast hne ∈ w := List.getLast_mem hne
  generalize w.getLast hne = z at he hm
  rw [← hw, List.mem_filter] at hm
  obtain ⟨q, hq, q1, q2⟩ := unpacked_row x z hm.1
  have hz : z.id = i := by simpa using hm.2
  rw [Meta.ids_rows x.md hlx.1, Meta.eos_rows x.md hlx.1, List.zip_map']
  exact List.mem_map.2 ⟨q, hq, by rw [← q1, ← q2, hz, he]⟩

omit [Zero α] in
theorem last_complete (cs : List (Chunk α)) (h : Complete cs) (c : Chunk α) (hc : cs.getLast? = some c) : c.eos = true := by
  have hlen : 0 < cs.length := List.length_pos_iff.2 h.1
  rw [List.getLast?_eq_getElem?] at hc
  exact (h.2.2 _ c hc).2 (by omega)

omit [Zero α] in
/-- Batches in which every stream is a sequence of complete streams have finished. -/
theorem finished_histories (xs : List (ST α)) (hl : ∀ x ∈ xs, Lined x) (hc : ∀ i, ∃ done, History (chunksOf i (xs.map unpack)) done []) : Finished xs := by
  refine finished_last xs hl fun i c h => ?_
  obtain ⟨done, h1, h2, -⟩ := hc i
  rw [h1, List.append_nil] at h
  rcases List.eq_nil_or_concat done with rfl | ⟨ds, d, rfl⟩
  · simp at h
  · have hd := h2 d (by simp)
    rw [List.concat_eq_append, List.flatten_append, List.flatten_singleton, List.getLast?_append, List.getLast?_eq_some_getLast hd.1] at h
    exact last_complete d hd c (by rw [List.getLast?_eq_some_getLast hd.1]; simpa using h)

omit [Zero α] in
theorem keeps_batchOK (x : ST α) (h : Lined x) (hb : BatchOK (unpack x)) : Keeps x := by
  rcases hb.2.2 with h1 | h1
  · left
    have e := Meta.ids_rows x.md h.1
    have hl := h.2
    unfold unpack at h1
    rw [List.length_zipWith, hl, e, List.length_map, Nat.min_self] at h1
    rw [e, List.length_map, h1]
  · right; right
    intro r hr he h0
    obtain ⟨c, hc, -, c2, c3⟩ := row_unpacked x h r hr
    by_cases hf : c.frames = []
    · have := (h1 c hc hf).2
      rw [c2, he] at this
      cases this
    · exact c3 hf h0

/-- If the layers of a stack get only batches as in C62, the stack is ready for another pass after a pass. -/
theorem ready_fine (ls : List (Layer α)) (xs : List (ST α)) (hx : ∀ x ∈ xs, Lined x) (hf : Fine ls xs) : Ready ls xs := by
  induction ls generalizing xs with
  | nil => trivial
  | cons l ls ih =>
    have hk : ∀ x ∈ xs, Keeps x := fun x hm => keeps_batchOK x (hx x hm) (hf.1 x hm)
    refine ⟨hk, fun ys b h => ih ys ?_ (hf.2.2 ys b h)⟩
    exact (layerRun_ends l xs (fun x hm => ⟨hx x hm, hk x hm⟩) (fun _ => none) (fun _ _ _ => rfl) ys b h).1

theorem chainRun_length {s : List (Layer α × Buf α)} {xs ys : List (ST α)} {t : List (Layer α × Buf α)} (h : chainRun s xs = .ok (ys, t)) : ys.length = xs.length := by
  induction xs generalizing s ys t with
  | nil =>
    simp only [chainRun, Except.ok.injEq, Prod.mk.injEq] at h
    rw [← h.1]
  | cons x xs ih =>
    simp only [chainRun] at h
    obtain ⟨⟨y, s1⟩, -, h⟩ := Meta.bind_ok_iff h
    obtain ⟨⟨ys', s2⟩, h2, h⟩ := Meta.bind_ok_iff h
    simp only [Except.ok.injEq, Prod.mk.injEq] at h
    rw [← h.1, List.length_cons, List.length_cons, ih h2]

/-- **C229** for streams of any number of chunks. A stack as in C114 and any number of passes, each a schedule in which every stream ends, with chunks as long as C114 asks (the first long enough for one output of the stack, the later ones as long as its total
stride): no call raises in any pass, the outputs of every pass are those of the ordinary stack on the whole sequences, and the stack holds nothing at the end. Ids may be used again within a pass and in other passes. Missing: shorter chunks. -/
theorem C229_stack_partial (ls : List (Layer α)) (hl : StackOK true ls) (ho : Overlapping ls) (es : List (List (ST α)))
    (hs : ∀ xs ∈ es, Schedule xs ∧ (∀ i, ∃ done, History (chunksOf i (xs.map unpack)) done []) ∧
      ∀ x ∈ xs, ∀ u ∈ unpack x, atLeast (need ls) (jump ls) (rest ls) u ≤ u.frames.length) :
    ∃ zss : List (List (ST α)), chainRun (fresh ls) es.flatten = .ok (zss.flatten, fresh ls) ∧
      List.Forall₂ (fun xs zs => zs.length = xs.length ∧ ∀ i, Complete (chunksOf i (xs.map unpack)) → collected i zs = offlineChain ls (collected i xs)) es zss := by
  induction es with
  | nil => exact ⟨[], rfl, .nil⟩
  | cons xs es ih =>
    obtain ⟨zss, i1, i2⟩ := ih fun z hz => hs z (by simp [hz])
    obtain ⟨h1, h2, h3⟩ := hs xs (by simp)
    have hlin : ∀ x ∈ xs, Lined x := by
      intro x hm
      have := wp_shaped (h1.1 x hm).1
      exact ⟨this.1, this.2.1⟩
    obtain ⟨hfine, -⟩ := stack_field ls true hl ho xs ⟨fun x hm => ⟨wp_shaped (h1.1 x hm).1, (h1.1 x hm).2⟩, h1.2⟩ (fun _ x hm => (h1.1 x hm).1) h3
    obtain ⟨zs, t, r1, -, r3⟩ := C114_total_stride ls hl ho xs h1 h3
    obtain rfl := C229_again_partial ls xs hlin (ready_fine ls xs hlin hfine) (finished_histories xs hlin h2) zs t r1
    refine ⟨zs :: zss, ?_, .cons ⟨chainRun_length r1, r3⟩ i2⟩
    rw [List.flatten_cons, List.flatten_cons, chainRun_two, r1]
    simp only [Except.bind, i1, map_ok']

end

theorem exLong_ends (i : String) : ∃ done, History (chunksOf i (exLong.map unpack)) done [] := by
  by_cases ha : i = "a"
  · subst ha
    exact ⟨[[⟨"a", true, false, none, [1, 2, 3]⟩, ⟨"a", false, true, none, [4, 5, 6, 7]⟩]], by decide⟩
  · by_cases hb : i = "b"
    · subst hb
      exact ⟨[[⟨"b", true, false, none, [7, 8, 9]⟩, ⟨"b", false, true, none, [1, 8, 9]⟩]], by decide⟩
    · refine ⟨[], ?_⟩
      have : chunksOf i (exLong.map unpack) = [] := by
        unfold chunksOf
        rw [List.filter_eq_nil_iff]
        intro x hx
        have : ∀ x ∈ (exLong.map unpack).flatten, x.id = "a" ∨ x.id = "b" := by decide
        rcases this x hx with h | h <;> simp [h, Ne.symm ha, Ne.symm hb]
      rw [this]
      exact ⟨rfl, by simp, .inl rfl⟩

-- Two passes over the two streams of two chunks of C114, with its stack.
example : ∀ xs ∈ [exLong, exLong], Schedule xs ∧ (∀ i, ∃ done, History (chunksOf i (xs.map unpack)) done []) ∧
    ∀ x ∈ xs, ∀ u ∈ unpack x, atLeast (need exLayers) (jump exLayers) (rest exLayers) u ≤ u.frames.length := by
  intro xs hx
  have : xs = exLong := by simpa using hx
  subst this
  exact ⟨exLong_schedule, exLong_ends, by decide⟩
example : (chainRun (fresh exLayers) (exLong ++ exLong)).map (fun r => (collected "a" r.1, collected "b" r.1)) =
    .ok (offlineChain exLayers [1, 2, 3, 4, 5, 6, 7] ++ offlineChain exLayers [1, 2, 3, 4, 5, 6, 7], offlineChain exLayers [7, 8, 9, 1, 8, 9] ++ offlineChain exLayers [7, 8, 9, 1, 8, 9]) := by decide

end DS.Conv
