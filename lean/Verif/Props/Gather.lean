import Verif.Props.Narrow
import Verif.Props.JointIndex
/-! # C45, C92: gather, take_along_dim -/

namespace DS.Tn
open Meta

variable {α : Type}

theorem names_idxOf {x : STen α} {s : String} {c : Nat} (hx : x.t.WF) (h : x.t.names[c]? = some (some s)) :
    some s ∈ x.t.names ∧ x.t.names.idxOf (some s) = c := by
  have hm : some s ∈ x.t.names := List.mem_of_getElem? h
  refine ⟨hm, ?_⟩
  have := nameIndex_of hx.2.1 h
  unfold nameIndex at this
  rw [if_pos hm] at this
  exact Except.ok.inj this

/-- How a row `r` becomes `q` when the metadata `m` are cut to the leading `rb` rows and `wl` of `w` frames: the id, the chunk index and the
leading frames are kept. If frames are cut off, a row keeps its end iff it has frames and all of them are kept, and its start iff some
frame of some kept row is kept. -/
structure LeadRow (m : Meta) (rb w wl : Nat) (r q : Row) : Prop where
  id : q.id = r.id
  chunk : q.chunk = r.chunk
  len : q.len = min r.len wl
  whole : wl = w → q = r
  eos : wl ≠ w → q.eos = (r.eos && decide (0 < r.len ∧ r.len ≤ wl))
  sos : wl ≠ w → (q.sos = true ↔ r.sos = true ∧ 0 < wl ∧ ∃ k r', k < rb ∧ m.row k = some r' ∧ 0 < r'.len)

/-- The slices that the index's sizes give. -/
theorem leadSlice_eq (x : STen α) (b l : Nat) (hx : x.Describes b l) (index : Ten Nat) (w rb wl : Nat) (hw : x.t.shape[l]? = some w)
    (hrb : index.shape[b]? = some rb) (hwl : index.shape[l]? = some wl) :
    leadSlice x index BATCH = (if rb = x.md.ids.length then none else some { stop := some (rb : Int) }) ∧
    leadSlice x index LENGTH = (if wl = w then none else some { stop := some (wl : Int) }) := by
  obtain ⟨hbm, hbi⟩ := names_idxOf hx.wf hx.batch
  obtain ⟨hlm, hli⟩ := names_idxOf hx.wf hx.length
  have hbs : leadSlice x index BATCH = if rb = x.md.ids.length then none else some { stop := some (rb : Int) } := by
    unfold leadSlice
    have e1 : index.shape.getD (x.t.names.idxOf BATCH) 0 = rb := by
      show index.shape.getD (x.t.names.idxOf (some "B")) 0 = rb
      rw [hbi, List.getD_eq_getElem?_getD, hrb]; rfl
    have e2 : x.t.shape.getD (x.t.names.idxOf BATCH) 0 = x.md.ids.length := by
      show x.t.shape.getD (x.t.names.idxOf (some "B")) 0 = _
      rw [hbi, List.getD_eq_getElem?_getD, hx.rows]; rfl
    rw [if_pos (show BATCH ∈ x.t.names from hbm)]
    simp only [e1, e2]
  have hls : leadSlice x index LENGTH = if wl = w then none else some { stop := some (wl : Int) } := by
    unfold leadSlice
    have e1 : index.shape.getD (x.t.names.idxOf LENGTH) 0 = wl := by
      show index.shape.getD (x.t.names.idxOf (some "L")) 0 = wl
      rw [hli, List.getD_eq_getElem?_getD, hwl]; rfl
    have e2 : x.t.shape.getD (x.t.names.idxOf LENGTH) 0 = w := by
      show x.t.shape.getD (x.t.names.idxOf (some "L")) 0 = _
      rw [hli, List.getD_eq_getElem?_getD, hw]; rfl
    rw [if_pos (show LENGTH ∈ x.t.names from hlm)]
    simp only [e1, e2]
  exact ⟨hbs, hls⟩

/-- The leading rows. -/
theorem lead_batch (x : STen α) (b l : Nat) (hx : x.Describes b l) (index : Ten Nat) (w rb wl : Nat) (hw : x.t.shape[l]? = some w)
    (hrb : index.shape[b]? = some rb) (hwl : index.shape[l]? = some wl) :
    ∃ m1, x.md.indexBatch (bOf (leadSlice x index BATCH)) = .ok m1 ∧ x.md.Selects (List.range (min rb x.md.ids.length)) m1 := by
  obtain ⟨hbs, -⟩ := leadSlice_eq x b l hx index w rb wl hw hrb hwl
  rw [hbs]
  by_cases h : rb = x.md.ids.length
  · rw [if_pos h]
    exact C01_index_batch x.md hx.mdwf .none (.ok (List.range (min rb x.md.ids.length))) (by rw [h, Nat.min_self]; rfl)
  · rw [if_neg h]
    refine C01_index_batch x.md hx.mdwf (.slice { stop := some (rb : Int) }) (.ok (List.range (min rb x.md.ids.length))) ?_
    have : slicePos x.md.ids.length { stop := some (rb : Int) } = List.range (min rb x.md.ids.length) := by
      rw [slicePos_unit _ _ rfl]
      have h2 : sliceHi x.md.ids.length { stop := some (rb : Int) } = (min rb x.md.ids.length : Nat) := by
        simp only [sliceHi, boundOf]; split <;> omega
      rw [h2]
      simp [sliceLo, List.range_eq_range']
    rw [← this]
    rfl

/-- The metadata of the leading `rb` rows and `wl` frames. -/
theorem lead_rows (junk : Int) (x : STen α) (b l : Nat) (hx : x.Describes b l) (index : Ten Nat) (w rb wl : Nat) (hw : x.t.shape[l]? = some w)
    (hrb : index.shape[b]? = some rb) (hwl : index.shape[l]? = some wl) (hpos : (0 < rb ∧ 0 < x.md.ids.length) ∨ wl = w) :
    ∃ m', x.md.index2 junk (bOf (leadSlice x index BATCH)) (lOf (leadSlice x index LENGTH)) = .ok m' ∧ m'.WF ∧ m'.ids.length = min rb x.md.ids.length ∧
      ∀ k r, k < rb → x.md.row k = some r → ∃ q, m'.row k = some q ∧ LeadRow x.md rb w wl r q := by
  obtain ⟨w', hw', hf⟩ := hx.fits
  obtain rfl : w' = w := by rw [hw] at hw'; exact (Option.some.inj hw').symm
  obtain ⟨-, hls⟩ := leadSlice_eq x b l hx index w' rb wl hw hrb hwl
  have hrlt : ∀ {k : Nat} {r : Row}, x.md.row k = some r → k < x.md.ids.length := by
    intro k r hr
    by_contra hc
    rw [row_none _ _ (by omega)] at hr
    exact absurd hr (by simp)
  obtain ⟨m1, e1, hs⟩ := lead_batch x b l hx index w' rb wl hw hrb hwl
  unfold index2
  rw [e1, Except.bind_ok', hls]
  have hlen1 : m1.ids.length = min rb x.md.ids.length := by rw [hs.2.1, List.length_range]
  have hrow : ∀ k, k < min rb x.md.ids.length → m1.row k = x.md.row k := by
    intro k hk
    rw [hs.2.2.2 k, List.getElem?_range hk]; rfl
  have hbd : ∀ k r, x.md.row k = some r → 0 ≤ r.len ∧ r.len ≤ w' := fun k r hr => hf _ (row_len_mem hr)
  by_cases h : wl = w'
  · rw [if_pos h]
    refine ⟨m1, rfl, hs.1, hlen1, ?_⟩
    intro k r hk hr
    have := hbd k r hr
    have := hrlt hr
    exact ⟨r, by rw [hrow k (by omega), hr], rfl, rfl, by omega, fun _ => rfl, fun e => absurd h e, fun e => absurd h e⟩
  · rw [if_neg h]
    have h0 : 0 < min rb x.md.ids.length := by rcases hpos with h' | h' <;> [omega; exact absurd h' h]
    obtain ⟨n, hn⟩ : ∃ n : Nat, m1.Longest n := by
      have hlen : m1.lengths.length = min rb x.md.ids.length := by rw [← hlen1]; exact hs.1.2.2.1
      have hb : ∀ a ∈ m1.lengths, 0 ≤ a := by
        intro a ha
        obtain ⟨k, hk⟩ := List.mem_iff_getElem?.1 ha
        have hlt := (List.getElem?_eq_some_iff.1 hk).1
        obtain ⟨r, hr, -, -, -, h3, -⟩ := row_some m1 hs.1 k (by omega)
        have := hbd k r (by rw [← hrow k (by omega)]; exact hr)
        rw [hk] at h3
        have := Option.some.inj h3
        omega
      obtain ⟨mx, hmx⟩ : ∃ mx, m1.maxLength = .ok mx := by
        unfold maxLength
        cases e : m1.lengths with
        | nil => rw [e] at hlen; simp at hlen; omega
        | cons a as => exact ⟨_, rfl⟩
      have h2 := (torchMax_iff _ _).1 hmx
      refine ⟨mx.toNat, ?_, ?_⟩
      · rw [Int.toNat_of_nonneg (hb _ h2.1)]; exact h2.1
      · intro a ha
        rw [Int.toNat_of_nonneg (hb _ h2.1)]
        exact ⟨hb a ha, h2.2 a ha⟩
    have hlo : sliceLo n { stop := some (wl : Int) } = 0 := rfl
    have hhi : sliceHi n { stop := some (wl : Int) } = min (wl : Int) n := by
      simp only [sliceHi, boundOf]; split <;> omega
    obtain ⟨m', e, hmap⟩ := C05_length_slice junk m1 hs.1 n hn { stop := some (wl : Int) } rfl (by rw [hlo, hhi]; omega)
    refine ⟨m', e, hmap.1, by rw [hmap.2.1, hlen1], ?_⟩
    intro k r hk hr
    have hkn := hrlt hr
    have hr1 : m1.row k = some r := by rw [hrow k (by omega)]; exact hr
    have hb := row_bounds hn hr1
    have hmem := fun j => mem_slicePos n { stop := some (wl : Int) } j rfl
    rw [hlo, hhi] at hmem
    refine ⟨_, hmap.2.2.2 k r hr1, rfl, rfl, ?_, fun e => absurd e h, fun _ => ?_, fun _ => ?_⟩
    · show keptData _ _ = _
      rw [keptData_slice n { stop := some (wl : Int) } _ Int.one_pos, hlo, hhi]
      show max 0 ((min (min (wl : Int) n) r.len - 0 + 1 - 1) / 1) = _
      rw [Int.ediv_one]
      omega
    · show (r.eos && keepsLast _ _) = _
      unfold keepsLast
      rw [any_decide_iff]
      congr 1
      rw [decide_eq_decide]
      constructor
      · rintro ⟨j, hj, hj2⟩
        rw [hmem] at hj
        omega
      · intro hle
        exact ⟨(r.len - 1).toNat, by rw [hmem]; omega, by omega⟩
    · show (r.sos && keepsFirst _) = true ↔ _
      unfold keepsFirst
      rw [Bool.and_eq_true, decide_eq_true_eq, hmem]
      constructor
      · rintro ⟨h1, h2⟩
        obtain ⟨j, r', hr', hl'⟩ := row_of_len_mem hs.1 hn.1
        have hj : j < min rb x.md.ids.length := by
          by_contra hc
          rw [row_none _ _ (by omega)] at hr'
          exact absurd hr' (by simp)
        exact ⟨h1, by omega, j, r', by omega, by rw [← hrow j hj]; exact hr', by omega⟩
      · rintro ⟨h1, h2, j, r', hj, hr', hl'⟩
        have := hrlt hr'
        have := row_bounds hn (show m1.row j = some r' by rw [hrow j (by omega)]; exact hr')
        exact ⟨h1, by omega⟩

/-- No rows to cut frames off: the longest of no sequences is asked for. -/
theorem lead_none (junk : Int) (x : STen α) (b l : Nat) (hx : x.Describes b l) (index : Ten Nat) (w rb wl : Nat) (hw : x.t.shape[l]? = some w)
    (hrb : index.shape[b]? = some rb) (hwl : index.shape[l]? = some wl) (h0 : rb = 0 ∨ x.md.ids.length = 0) (hne : wl ≠ w) :
    x.md.index2 junk (bOf (leadSlice x index BATCH)) (lOf (leadSlice x index LENGTH)) = .error .runtimeError := by
  obtain ⟨-, hls⟩ := leadSlice_eq x b l hx index w rb wl hw hrb hwl
  obtain ⟨m1, e1, hs⟩ := lead_batch x b l hx index w rb wl hw hrb hwl
  have hl : m1.lengths = [] := by
    have h3 := hs.1.2.2.1
    rw [hs.2.1, List.length_range] at h3
    exact List.length_eq_zero_iff.1 (by omega)
  unfold index2
  rw [e1, Except.bind_ok', hls, if_neg hne]
  show m1.indexLengthSlice _ = _
  unfold indexLengthSlice maxLength
  rw [hl]
  rfl

theorem out_rename {x : STen α} (hx : x.t.WF) (t : Ten α) (h : t.ndim = x.t.ndim) : t.rename x.t.names = .ok { t with names := x.t.names } :=
  rename_ok _ _ (by rw [hx.1]; exact h.symm) hx.2

/-- **C45 is false of the code.** An index with no rows and fewer frames than the tensor: torch returns an empty tensor, the override raises RuntimeError,
because the longest of no sequences is asked for. -/
theorem C45_gather_empty_false : ∃ (x : STen (List Nat)) (index : Ten Nat), x.Describes 0 2 ∧ (∃ t, gatherTen x.t.unnamed 1 index = .ok t ∧ t.shape = [0, 1, 2]) ∧
    ∀ junk, gather junk x 1 index = .error .runtimeError :=
  ⟨_, { shape := [0, 1, 2], names := [none, none, none], val := fun _ => 0 }, exBFL_describes, ⟨_, rfl, rfl⟩, fun _ => rfl⟩

/-- **C45, the part that holds.** Gathering along an axis other than batch and length, with an index that has at least one row or the full width: the data are torch's, the metadata
are those of the leading rows, each cut to the leading frames (`LeadRow`). `rb`, `wl` are the index's sizes on batch and length. Missing: an index
without rows that is narrower than the tensor (`C45_gather_empty_false`, `C45_gather_empty_partial`). -/
theorem C45_gather_partial (junk : Int) (x : STen α) (b l : Nat) (hx : x.Describes b l) (d : Int) (a : Nat) (hd : posOf x.t.ndim d = some a) (hb : a ≠ b) (hl : a ≠ l)
    (index : Ten Nat) (hn : index.ndim = x.t.ndim) (hsz : ∀ c < x.t.ndim, c ≠ a → index.shape.getD c 0 ≤ x.t.shape.getD c 0)
    (w rb wl : Nat) (hw : x.t.shape[l]? = some w) (hrb : index.shape[b]? = some rb) (hwl : index.shape[l]? = some wl) (hpos : 0 < rb ∨ wl = w) :
    ∃ y, gather junk x d index = .ok y ∧ y.t.names = x.t.names ∧ y.t.shape = index.shape ∧ (∀ ix, y.t.val ix = x.t.val (ix.set a (index.val ix))) ∧
      y.md.WF ∧ y.md.ids.length = rb ∧
      ∀ k r, k < rb → x.md.row k = some r → ∃ q, y.md.row k = some q ∧ LeadRow x.md rb w wl r q := by
  have hll : x.t.names.length = x.t.ndim := hx.wf.1
  obtain ⟨nm, h1, h2, h3⟩ := other_name hx (posOf_lt hd) hb hl
  have hrle : rb ≤ x.md.ids.length := by
    have := hsz b (Describes.lt hx).1 (Ne.symm hb)
    rw [List.getD_eq_getElem?_getD, List.getD_eq_getElem?_getD, hrb, hx.rows] at this
    exact this
  have hwle : wl ≤ w := by
    have := hsz l (Describes.lt hx).2 (Ne.symm hl)
    rw [List.getD_eq_getElem?_getD, List.getD_eq_getElem?_getD, hwl, hw] at this
    exact this
  obtain ⟨m', e, hm', hids, hrows⟩ := lead_rows junk x b l hx index w rb wl hw hrb hwl (by omega)
  rw [Nat.min_eq_left hrle] at hids
  refine ⟨⟨{ shape := index.shape, names := x.t.names, val := fun ix => x.t.val (ix.set a (index.val ix)) }, m'⟩, ?_, rfl, rfl, fun _ => rfl, hm', hids, hrows⟩
  unfold gather gatherTen
  rw [normDim_ok (show posOf x.t.unnamed.ndim d = some a from hd), Except.bind_ok', if_pos ⟨hn, hsz⟩, Except.bind_ok']
  unfold gatherFinish
  rw [pyGet_names (by rw [hll]; exact hd) _ h1, Except.bind_ok', if_neg (by simp [h2, h3]), out_rename hx.wf _ hn, Except.bind_ok', e]
  rfl

/-- **C45**, the remaining indices: without rows and narrower than the tensor, RuntimeError. Missing: an empty StreamTensor. -/
theorem C45_gather_empty_partial (junk : Int) (x : STen α) (b l : Nat) (hx : x.Describes b l) (d : Int) (a : Nat) (hd : posOf x.t.ndim d = some a) (hb : a ≠ b) (hl : a ≠ l)
    (index : Ten Nat) (hn : index.ndim = x.t.ndim) (hsz : ∀ c < x.t.ndim, c ≠ a → index.shape.getD c 0 ≤ x.t.shape.getD c 0)
    (w wl : Nat) (hw : x.t.shape[l]? = some w) (hrb : index.shape[b]? = some 0) (hwl : index.shape[l]? = some wl) (hne : wl ≠ w) :
    gather junk x d index = .error .runtimeError := by
  have hll : x.t.names.length = x.t.ndim := hx.wf.1
  obtain ⟨nm, h1, h2, h3⟩ := other_name hx (posOf_lt hd) hb hl
  unfold gather gatherTen
  rw [normDim_ok (show posOf x.t.unnamed.ndim d = some a from hd), Except.bind_ok', if_pos ⟨hn, hsz⟩, Except.bind_ok']
  unfold gatherFinish
  rw [pyGet_names (by rw [hll]; exact hd) _ h1, Except.bind_ok', if_neg (by simp [h2, h3]), out_rename hx.wf _ hn, Except.bind_ok',
    lead_none junk x b l hx index w 0 wl hw hrb hwl (.inl rfl) hne]
  rfl

example : ∃ x : STen (List Nat), x.Describes 0 2 ∧ x.t.shape[2]? = some 3 ∧
    gather 0 x (-2) { shape := [0, 5, 2], names := [none, none, none], val := fun _ => 0 } = .error .runtimeError :=
  ⟨_, exBFL_describes, rfl, rfl⟩

/-- **C45**, the refusal: along batch or length IndexError, for either spelling of the axis. Missing: a result with metadata along these axes. -/
theorem C45_gather_refuses_partial (junk : Int) (x : STen α) (b l : Nat) (hx : x.Describes b l) (d : Int) (a : Nat) (hd : posOf x.t.ndim d = some a) (h : a = b ∨ a = l)
    (index : Ten Nat) (hn : index.ndim = x.t.ndim) (hsz : ∀ c < x.t.ndim, c ≠ a → index.shape.getD c 0 ≤ x.t.shape.getD c 0) :
    gather junk x d index = .error .indexError := by
  have hll : x.t.names.length = x.t.ndim := hx.wf.1
  unfold gather gatherTen
  rw [normDim_ok (show posOf x.t.unnamed.ndim d = some a from hd), Except.bind_ok', if_pos ⟨hn, hsz⟩, Except.bind_ok']
  unfold gatherFinish
  rcases h with rfl | rfl
  · rw [pyGet_names (by rw [hll]; exact hd) _ hx.batch, Except.bind_ok', if_pos (Or.inr rfl)]
  · rw [pyGet_names (by rw [hll]; exact hd) _ hx.length, Except.bind_ok', if_pos (Or.inl rfl)]

example : ∃ (x : STen (List Nat)) (y : STen (List Nat)), x.Describes 0 2 ∧ gather 0 x (-2) { shape := [1, 5, 2], names := [none, none, none], val := fun ix => ix.getD 1 0 % 4 } = .ok y ∧
    y.md = ⟨["a"], [true], [false], [2], none⟩ ∧ y.t.shape = [1, 5, 2] ∧ y.t.val [0, 4, 1] = [0, 0, 1] :=
  ⟨_, _, exBFL_describes, rfl, by decide, rfl, rfl⟩
example : ∃ x : STen (List Nat), x.Describes 0 2 ∧ gather 0 x (-1) { shape := [1, 4, 2], names := [none, none, none], val := fun _ => 1 } = .error .indexError :=
  ⟨_, exBFL_describes, rfl⟩

/-! ## C92 -/

/-- **C92 is false of the code.** An index of one row is broadcast over the batch: `n` rows of data, one row of metadata. -/
theorem C92_take_along_broadcast_false : ∃ (x y : STen (List Nat)) (index : Ten Nat), x.Describes 0 2 ∧ (∀ junk, takeAlongDim junk x 1 index = .ok y) ∧
    y.t.shape = [2, 1, 3] ∧ y.md.ids = ["a"] :=
  ⟨_, _, { shape := [1, 1, 3], names := [none, none, none], val := fun _ => 0 }, exBFL_describes, fun _ => rfl, rfl, rfl⟩

theorem bcast_shape (s t : List Nat) (a : Nat) (hlen : t.length = s.length) (hsz : ∀ c < s.length, c ≠ a → t.getD c 0 = s.getD c 0 ∨ s.getD c 0 = 1 ∨ t.getD c 0 = 1) :
    ∃ sh, ((List.range s.length).map fun c => if c = a then some (t.getD c 0) else bsize (s.getD c 0) (t.getD c 0)).mapM id = some sh ∧ sh.length = s.length ∧
      (∀ c < s.length, c ≠ a → sh.getD c 0 = if s.getD c 0 = 1 then t.getD c 0 else s.getD c 0) := by
  have key : ∀ (cs : List Nat), (∀ c ∈ cs, c < s.length) → ∃ sh : List Nat, (cs.map fun c => if c = a then some (t.getD c 0) else bsize (s.getD c 0) (t.getD c 0)).mapM id = some sh ∧
      sh.length = cs.length ∧ ∀ k c, cs[k]? = some c → c ≠ a → sh.getD k 0 = if s.getD c 0 = 1 then t.getD c 0 else s.getD c 0 := by
    intro cs hcs
    induction cs with
    | nil => exact ⟨[], rfl, rfl, by simp⟩
    | cons c cs ih =>
      obtain ⟨sh, h1, h2, h3⟩ := ih (fun d hd => hcs d (by simp [hd]))
      obtain ⟨v, hv, hv2⟩ : ∃ v, (if c = a then some (t.getD c 0) else bsize (s.getD c 0) (t.getD c 0)) = some v ∧
          (c ≠ a → v = if s.getD c 0 = 1 then t.getD c 0 else s.getD c 0) := by
        by_cases e : c = a
        · exact ⟨_, if_pos e, fun h => absurd e h⟩
        · rw [if_neg e]
          have hc := hsz c (hcs c (by simp)) e
          unfold bsize
          generalize s.getD c 0 = p at *
          generalize t.getD c 0 = q at *
          by_cases h1 : p = q
          · exact ⟨p, if_pos h1, fun _ => by split <;> omega⟩
          · by_cases h2 : p = 1
            · exact ⟨q, by rw [if_neg h1, if_pos h2], fun _ => by rw [if_pos h2]⟩
            · exact ⟨p, by rw [if_neg h1, if_neg h2, if_pos (by omega)], fun _ => by rw [if_neg h2]⟩
      refine ⟨v :: sh, ?_, by simp [h2], ?_⟩
      · rw [List.map_cons, List.mapM_cons, hv]
        show (Option.bind (some v) fun y => _) = _
        simp only [Option.bind_some]
        show (Option.bind (List.mapM id _) fun ys => _) = _
        rw [h1]; rfl
      · intro k d hk hd
        cases k with
        | zero => simp at hk; subst hk; simpa using hv2 hd
        | succ k => simpa using h3 k d (by simpa using hk) hd
  obtain ⟨sh, h1, h2, h3⟩ := key (List.range s.length) (fun c hc => List.mem_range.1 hc)
  refine ⟨sh, h1, by simpa using h2, ?_⟩
  intro c hc hca
  exact h3 c c (List.getElem?_range hc) hca

/-- **C92, the part that holds.** If the index has the tensor's own sizes on batch and length, the metadata are the tensor's and there are as many data rows as metadata rows.
Missing: indices that are broadcast over, or broadcast, the batch or length axis (`C92_take_along_exact_partial`). -/
theorem C92_take_along_partial (junk : Int) (x : STen α) (b l : Nat) (hx : x.Describes b l) (d : Int) (a : Nat) (hd : posOf x.t.ndim d = some a) (hb : a ≠ b) (hl : a ≠ l)
    (index : Ten Nat) (hn : index.ndim = x.t.ndim)
    (hsz : ∀ c < x.t.ndim, c ≠ a → index.shape.getD c 0 = x.t.shape.getD c 0 ∨ x.t.shape.getD c 0 = 1 ∨ index.shape.getD c 0 = 1)
    (hrb : index.shape[b]? = x.t.shape[b]?) (hwl : index.shape[l]? = x.t.shape[l]?) :
    ∃ y, takeAlongDim junk x d index = .ok y ∧ y.md = x.md ∧ y.t.names = x.t.names ∧ y.Describes b l := by
  have hll : x.t.names.length = x.t.ndim := hx.wf.1
  obtain ⟨nm, h1, h2, h3⟩ := other_name hx (posOf_lt hd) hb hl
  obtain ⟨w, hw, hf⟩ := hx.fits
  obtain ⟨sh, hs1, hs2, hs3⟩ := bcast_shape x.t.shape index.shape a hn hsz
  obtain ⟨m', e, hm', hids, hrows⟩ := lead_rows junk x b l hx index w x.md.ids.length w hw (by rw [hrb, hx.rows]) (by rw [hwl, hw]) (Or.inr rfl)
  obtain ⟨hbm, hbi⟩ := names_idxOf hx.wf hx.batch
  obtain ⟨hlm, hli⟩ := names_idxOf hx.wf hx.length
  have hmd : x.md.index2 junk (bOf (leadSlice x index BATCH)) (lOf (leadSlice x index LENGTH)) = .ok x.md := by
    have e1 : leadSlice x index BATCH = none := by
      unfold leadSlice
      have e1 : index.shape.getD (x.t.names.idxOf BATCH) 0 = x.t.shape.getD (x.t.names.idxOf BATCH) 0 := by
        show index.shape.getD (x.t.names.idxOf (some "B")) 0 = x.t.shape.getD (x.t.names.idxOf (some "B")) 0
        rw [hbi, List.getD_eq_getElem?_getD, List.getD_eq_getElem?_getD, hrb]
      rw [if_pos (show BATCH ∈ x.t.names from hbm)]
      simp only [e1, if_true]
    have e2 : leadSlice x index LENGTH = none := by
      unfold leadSlice
      have e1 : index.shape.getD (x.t.names.idxOf LENGTH) 0 = x.t.shape.getD (x.t.names.idxOf LENGTH) 0 := by
        show index.shape.getD (x.t.names.idxOf (some "L")) 0 = x.t.shape.getD (x.t.names.idxOf (some "L")) 0
        rw [hli, List.getD_eq_getElem?_getD, List.getD_eq_getElem?_getD, hwl]
      rw [if_pos (show LENGTH ∈ x.t.names from hlm)]
      simp only [e1, if_true]
    rw [e1, e2]
    unfold index2
    obtain ⟨m1, e1, hs⟩ := C01_index_batch x.md hx.mdwf .none (.ok (List.range x.md.ids.length)) rfl
    rw [selects_range hx.mdwf hs] at e1
    show (do let m' ← x.md.indexBatch .none; m'.indexLength junk .none) = _
    rw [e1]
    rfl
  have hbl := Describes.lt hx
  have hsb : sh[b]? = x.t.shape[b]? := by
    have e1 := hs3 b hbl.1 (Ne.symm hb)
    simp only [List.getD_eq_getElem?_getD, hrb, ite_self] at e1
    rw [hx.rows] at e1
    rw [hx.rows]
    have : b < sh.length := by rw [hs2]; exact hbl.1
    rw [List.getElem?_eq_getElem this] at e1 ⊢
    simpa using e1
  have hsl : sh[l]? = x.t.shape[l]? := by
    have e1 := hs3 l hbl.2 (Ne.symm hl)
    simp only [List.getD_eq_getElem?_getD, hwl, ite_self] at e1
    rw [hw] at e1
    rw [hw]
    have : l < sh.length := by rw [hs2]; exact hbl.2
    rw [List.getElem?_eq_getElem this] at e1 ⊢
    simpa using e1
  refine ⟨⟨{ shape := sh, names := x.t.names, val := fun ix => x.t.val ((bix x.t.shape ix).set a (index.val (bix index.shape ix))) }, x.md⟩, ?_, rfl, rfl, ?_⟩
  · unfold takeAlongDim takeAlongTen
    rw [normDim_ok (show posOf x.t.unnamed.ndim d = some a from hd), Except.bind_ok', if_neg (by rw [hn]; exact fun h => h rfl)]
    have : ((List.range x.t.unnamed.ndim).map fun b => if b = a then some (index.shape.getD b 0) else bsize (x.t.unnamed.shape.getD b 0) (index.shape.getD b 0)).mapM id = some sh := hs1
    rw [this, Except.bind_ok']
    unfold gatherFinish
    rw [pyGet_names (by rw [hll]; exact hd) _ h1, Except.bind_ok', if_neg (by simp [h2, h3]), out_rename hx.wf _ (by exact hs2), Except.bind_ok', hmd]
    rfl
  · exact ⟨⟨by rw [hs2]; exact hx.wf.1, hx.wf.2⟩, hx.batch, hx.length, hx.mdwf, by show sh[b]? = _; rw [hsb]; exact hx.rows, w, by show sh[l]? = _; rw [hsl]; exact hw, hf⟩

example : ∃ (x y : STen (List Nat)), x.Describes 0 2 ∧ takeAlongDim 0 x 1 { shape := [2, 5, 3], names := [none, none, none], val := fun _ => 3 } = .ok y ∧ y.t.shape = [2, 5, 3] :=
  ⟨_, _, exBFL_describes, rfl, rfl⟩

/-- **C92, exactly, for every index that torch broadcasts**, except those without rows. `n`, `w` are the tensor's rows and frames, `rb`, `wl` the index's. The
data have the broadcast sizes, the metadata describe the first `rb` rows (or all `n` if there are fewer) and `wl` frames. So the number of rows is right exactly if `rb = n`,
or `n = 1` and `rb ≤ 1`; and a row's length is right, as far as the data have it, if `wl = w`. Missing: metadata are not broadcast. -/
theorem C92_take_along_exact_partial (junk : Int) (x : STen α) (b l : Nat) (hx : x.Describes b l) (d : Int) (a : Nat) (hd : posOf x.t.ndim d = some a) (hb : a ≠ b) (hl : a ≠ l)
    (index : Ten Nat) (hn : index.ndim = x.t.ndim)
    (hsz : ∀ c < x.t.ndim, c ≠ a → index.shape.getD c 0 = x.t.shape.getD c 0 ∨ x.t.shape.getD c 0 = 1 ∨ index.shape.getD c 0 = 1)
    (n w rb wl : Nat) (hnr : x.md.ids.length = n) (hw : x.t.shape[l]? = some w) (hrb : index.shape[b]? = some rb) (hwl : index.shape[l]? = some wl) :
    ((0 < rb ∧ 0 < n) ∨ wl = w → ∃ y, takeAlongDim junk x d index = .ok y ∧ y.t.names = x.t.names ∧
      y.t.shape[b]? = some (if n = 1 then rb else n) ∧ y.t.shape[l]? = some (if w = 1 then wl else w) ∧
      y.md.WF ∧ y.md.ids.length = min rb n ∧ ∀ k r, k < rb → x.md.row k = some r → ∃ q, y.md.row k = some q ∧ LeadRow x.md rb w wl r q) ∧
    (rb = 0 ∨ n = 0 → wl ≠ w → takeAlongDim junk x d index = .error .runtimeError) := by
  have hll : x.t.names.length = x.t.ndim := hx.wf.1
  obtain ⟨nm, h1, h2, h3⟩ := other_name hx (posOf_lt hd) hb hl
  obtain ⟨sh, hs1, hs2, hs3⟩ := bcast_shape x.t.shape index.shape a hn hsz
  have hbl := Describes.lt hx
  have hstep : takeAlongDim junk x d index = (x.md.index2 junk (bOf (leadSlice x index BATCH)) (lOf (leadSlice x index LENGTH))).map fun m =>
      ⟨{ shape := sh, names := x.t.names, val := fun ix => x.t.val ((bix x.t.shape ix).set a (index.val (bix index.shape ix))) }, m⟩ := by
    unfold takeAlongDim takeAlongTen
    rw [normDim_ok (show posOf x.t.unnamed.ndim d = some a from hd), Except.bind_ok', if_neg (by rw [hn]; exact fun h => h rfl)]
    have : ((List.range x.t.unnamed.ndim).map fun b => if b = a then some (index.shape.getD b 0) else bsize (x.t.unnamed.shape.getD b 0) (index.shape.getD b 0)).mapM id = some sh := hs1
    rw [this, Except.bind_ok']
    unfold gatherFinish
    rw [pyGet_names (by rw [hll]; exact hd) _ h1, Except.bind_ok', if_neg (by simp [h2, h3]), out_rename hx.wf _ (by exact hs2), Except.bind_ok']
    cases x.md.index2 junk (bOf (leadSlice x index BATCH)) (lOf (leadSlice x index LENGTH)) <;> rfl
  have hget : ∀ c < x.t.shape.length, c ≠ a → ∀ p q, x.t.shape[c]? = some p → index.shape[c]? = some q → sh[c]? = some (if p = 1 then q else p) := by
    intro c hc hca p q hp hq
    have e := hs3 c hc hca
    simp only [List.getD_eq_getElem?_getD, hp, hq, Option.getD_some] at e
    rw [List.getElem?_eq_getElem (by omega)] at e ⊢
    rw [← e]; rfl
  constructor
  · intro hpos
    obtain ⟨m', e, hm', hids, hrows⟩ := lead_rows junk x b l hx index w rb wl hw hrb hwl (by rw [hnr]; exact hpos)
    refine ⟨⟨{ shape := sh, names := x.t.names, val := fun ix => x.t.val ((bix x.t.shape ix).set a (index.val (bix index.shape ix))) }, m'⟩, ?_, rfl, ?_, ?_, hm',
      by rw [hids, hnr], hrows⟩
    · rw [hstep, e]; rfl
    · exact hget b hbl.1 (Ne.symm hb) _ _ (by rw [hx.rows, hnr]) hrb
    · exact hget l hbl.2 (Ne.symm hl) _ _ hw hwl
  · intro h0 hne
    rw [hstep, lead_none junk x b l hx index w rb wl hw hrb hwl (by rw [hnr]; exact h0) hne]
    rfl

example : ∃ (x y : STen (List Nat)), x.Describes 0 2 ∧ takeAlongDim 0 x 1 { shape := [2, 5, 1], names := [none, none, none], val := fun _ => 3 } = .ok y ∧ y.t.shape = [2, 5, 3] ∧
    y.md.lengths = [1, 1] :=
  ⟨_, _, exBFL_describes, rfl, rfl, by decide⟩

theorem mapM_none_mem {γ : Type} (os : List (Option γ)) (h : none ∈ os) : os.mapM id = none := by
  induction os with
  | nil => simp at h
  | cons o os ih =>
    rw [List.mapM_cons]
    cases o with
    | none => rfl
    | some v =>
      rcases List.mem_cons.1 h with h | h
      · simp at h
      · simp [ih h]

/-- C92, refusals: an index of another rank, or one that differs from the tensor on another axis where neither has size 1, is refused with torch's RuntimeError, whatever the metadata. Missing: out-of-range values in the index. -/
theorem C92_take_along_refused_partial (junk : Int) (x : STen α) (d : Int) (a : Nat) (hd : posOf x.t.ndim d = some a) (index : Ten Nat)
    (h : index.ndim ≠ x.t.ndim ∨ ∃ c < x.t.ndim, c ≠ a ∧ index.shape.getD c 0 ≠ x.t.shape.getD c 0 ∧ x.t.shape.getD c 0 ≠ 1 ∧ index.shape.getD c 0 ≠ 1) :
    takeAlongDim junk x d index = .error .runtimeError := by
  unfold takeAlongDim takeAlongTen
  rw [normDim_ok (show posOf x.t.unnamed.ndim d = some a from hd), Except.bind_ok']
  by_cases hn : index.ndim ≠ x.t.ndim
  · rw [if_pos (by exact hn)]
    rfl
  · rw [if_neg (by exact hn)]
    rcases h with h | ⟨c, hc, hca, h1, h2, h3⟩
    · exact absurd h hn
    · rw [mapM_none_mem]
      · rfl
      · refine List.mem_map.2 ⟨c, List.mem_range.2 hc, ?_⟩
        rw [if_neg hca]
        unfold bsize
        have h1' : x.t.unnamed.shape.getD c 0 ≠ index.shape.getD c 0 := fun hh => h1 hh.symm
        rw [if_neg h1', if_neg (show ¬ x.t.unnamed.shape.getD c 0 = 1 from h2), if_neg h3]

example : takeAlongDim 0 (⟨{ shape := [1, 2, 3], names := [BATCH, some "F", LENGTH], val := fun ix => ix.getD 2 0 }, ⟨["a"], [true], [true], [3], none⟩⟩ : STen Nat) 1
    { shape := [2, 5, 2], names := [none, none, none], val := fun _ => 1 } = .error .runtimeError :=
  C92_take_along_refused_partial 0 _ 1 1 rfl _ (.inr ⟨2, by decide, by decide, by decide, by decide, by decide⟩)

end DS.Tn
