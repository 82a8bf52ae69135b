import Verif.Lemmas.Rows
import Verif.Lemmas.Length
import Verif.Props.CatBatch
import Verif.Props.BatchIndex
/-! # C15, C87: 2-D masks over batch and length -/

namespace DS.Meta

/-- The rows with their mask rows, keeping those whose mask row has some `True`. -/
def keptPairs (rs : List Row) (mask : List (List Bool)) : List (Row × List Bool) :=
  (rs.zip mask).filter fun p => decide (true ∈ p.2)

theorem any_id_mem (bs : List Bool) : bs.any id = decide (true ∈ bs) := by
  induction bs with
  | nil => rfl
  | cons b bs ih => cases b <;> simp_all

theorem torchMask_map {α γ : Type} (f : γ → α) (g : γ → Bool) (ps : List γ) :
    torchMask (ps.map f) (ps.map g) = .ok ((ps.filter g).map f) := by
  unfold torchMask
  rw [if_pos (by simp)]
  congr 1
  induction ps with
  | nil => rfl
  | cons p ps ih =>
    simp only [List.map_cons, List.zip_cons_cons, List.filterMap_cons, List.filter_cons, ih]
    cases g p <;> simp

theorem idsByMask_map {γ : Type} (f : γ → String) (g : γ → Bool) (ps : List γ) :
    idsByMask (ps.map f) (ps.map g) = .ok ((ps.filter g).map f) := by
  induction ps with
  | nil => rfl
  | cons p ps ih =>
    simp only [List.map_cons, idsByMask, ih, Except.bind_ok', List.filter_cons]
    cases g p <;> simp

theorem bcast_map {α β γ δ : Type} (f : α → β → γ) (a : δ → α) (b : δ → β) (ps : List δ) :
    bcast f (ps.map a) (ps.map b) = .ok (ps.map fun p => f (a p) (b p)) := by
  unfold bcast
  rw [if_pos (by simp)]
  congr 1
  induction ps with
  | nil => rfl
  | cons p ps ih => simp [ih]

theorem mapM_id_ok {α δ : Type} (c : δ → Py α) (v : δ → α) (ps : List δ) (h : ∀ p ∈ ps, c p = .ok (v p)) :
    (ps.map c).mapM id = (.ok (ps.map v) : Py (List α)) := by
  induction ps with
  | nil => rfl
  | cons p ps ih =>
    rw [List.map_cons, List.mapM_cons, ih (fun q hq => h q (by simp [hq])), id, h p (by simp)]
    rfl

theorem cumCounts_get (row : List Bool) (acc : Int) (i : Nat) (h : i < row.length) :
    (cumCounts acc row)[i]? = some (acc + (((row.take (i + 1)).filter id).length : Int)) := by
  induction row generalizing acc i with
  | nil => simp at h
  | cons b bs ih =>
    cases i with
    | zero => cases b <;> simp [cumCounts]
    | succ i =>
      simp only [List.length_cons] at h
      simp only [cumCounts, List.getElem?_cons_succ, ih _ i (by omega), List.take_succ_cons, List.filter_cons]
      cases b <;> simp; omega

theorem pyGet_of_get {α : Type} (xs : List α) (i : Nat) (x : α) (h : xs[i]? = some x) : pyGet xs (i : Int) = .ok x := by
  unfold pyGet getNonneg
  have h1 : ¬ ((i : Int) < 0) := by omega
  have h2 : (0 : Int) ≤ i := by omega
  simp only [if_neg h1, if_pos h2, Int.toNat_natCast, h]

theorem cumCounts_length (row : List Bool) (acc : Int) : (cumCounts acc row).length = row.length := by
  induction row generalizing acc with
  | nil => rfl
  | cons b bs ih => simp [cumCounts, ih]

theorem keptData_truePos (row : List Bool) (l : Nat) :
    keptData (truePos row) l = (((row.take l).filter id).length : Int) := by
  unfold keptData
  induction row generalizing l with
  | nil => simp [truePos]
  | cons b bs ih =>
    cases l with
    | zero =>
      simp only [List.take_zero]
      simp
    | succ l =>
      have := ih l
      rw [truePos_cons]
      have h2 : ∀ xs : List Nat, ((xs.map (· + 1)).filter fun (j : Nat) => decide ((j : Int) < ((l + 1 : Nat) : Int))).length =
          (xs.filter fun (j : Nat) => decide ((j : Int) < (l : Int))).length := by
        intro xs
        rw [List.filter_map, List.length_map]
        congr 2
        funext j
        simp only [Function.comp]
        rw [decide_eq_decide]; omega
      rw [List.take_succ_cons, List.filter_append, List.length_append, h2]
      cases b
      · simp only [List.filter_cons, id]; simp at this ⊢; omega
      · simp only [List.filter_cons, id]; simp at this ⊢; omega

theorem mem_truePos (bs : List Bool) (j : Nat) : j ∈ truePos bs ↔ bs[j]? = some true := by
  unfold truePos
  simp only [List.mem_filter, List.mem_range, beq_iff_eq]
  constructor
  · exact fun h => h.2
  · intro h; exact ⟨by by_contra hc; rw [List.getElem?_eq_none (by omega)] at h; simp at h, h⟩

theorem lastTrueStop_le (row : List Bool) (h : true ∈ row) (l : Int) :
    decide (l ≤ lastTrueStop row) = (truePos row).any fun (j : Nat) => decide (l - 1 ≤ (j : Int)) := by
  rw [any_decide_iff, decide_eq_decide]
  have hlt : row.reverse.findIdx id < row.reverse.length := by
    rw [List.findIdx_lt_length]; exact ⟨true, by simpa using h, rfl⟩
  have hg : row.reverse[row.reverse.findIdx id]? = some true := by
    rw [List.getElem?_eq_getElem hlt]; exact congrArg some (List.findIdx_getElem (w := hlt))
  have hmin : ∀ i, i < row.reverse.findIdx id → row.reverse[i]? ≠ some true := by
    intro i hi h
    rw [List.getElem?_eq_getElem (by omega)] at h
    have := List.not_of_lt_findIdx hi
    simp at h this
    rw [h] at this; simp at this
  unfold lastTrueStop
  generalize row.reverse.findIdx id = i at *
  rw [List.length_reverse] at hlt
  rw [if_pos hlt]
  rw [List.getElem?_reverse hlt] at hg
  constructor
  · intro hl
    exact ⟨row.length - 1 - i, by rw [mem_truePos]; exact hg, by omega⟩
  · rintro ⟨j, hj, hl⟩
    rw [mem_truePos] at hj
    have hjl : j < row.length := by
      by_contra hc; rw [List.getElem?_eq_none (by omega)] at hj; simp at hj
    by_contra hcon
    have := hmin (row.length - 1 - j) (by omega)
    rw [List.getElem?_reverse (by omega)] at this
    rw [show row.length - 1 - (row.length - 1 - j) = j by omega] at this
    exact this hj

theorem head_mem (row : List Bool) : row.head?.getD false = decide (0 ∈ truePos row) := by
  cases row with
  | nil => rfl
  | cons b bs =>
    have : (0 ∈ truePos (b :: bs)) ↔ b = true := by rw [mem_truePos]; simp
    simp only [List.head?_cons, Option.getD_some, this]
    cases b <;> rfl

/-- What `index` with a 2-D mask makes of a kept row `p.1` with mask row `p.2`: length = number of kept data frames,
sos iff frame 0 is kept, eos iff some kept position is at or beyond the last data frame, *except* for rows of length 1
whose frame is kept. -/
def maskRow (p : Row × List Bool) : Row :=
  { p.1 with
    sos := p.1.sos && keepsFirst (truePos p.2)
    eos := p.1.eos && ((truePos p.2).any fun (j : Nat) => decide (p.1.len - 1 ≤ (j : Int))) && !(decide (p.1.len = 1) && keepsFirst (truePos p.2))
    len := keptData (truePos p.2) p.1.len }

theorem filter_eq_self_of_all {γ : Type} (g : γ → Bool) (ps : List γ) (h : ps.all g = true) : ps.filter g = ps := by
  rw [List.filter_eq_self]; exact fun a ha => List.all_eq_true.1 h a ha

theorem mask2d_core (m : Meta) (hm : m.WF) (n : Nat) (hn : m.Longest n) (hpos : ∀ l ∈ m.lengths, 0 < l)
    (mask : List (List Bool)) (hrows : mask.length = m.ids.length) (hw : ∀ r ∈ mask, r.length = n)
    (hc : m.chunk = none ∨ ∀ r ∈ mask, true ∈ r) :
    ∃ m', m.indexBatchAndLength mask n = .ok m' ∧ m'.WF ∧ m'.rows = (keptPairs m.rows mask).map maskRow ∧
      (m.chunk.isSome = true → m'.chunk.isSome = true) := by
  have hnpos : 0 < n := by have := hpos _ hn.1; omega
  have hlen := rows_length m hm
  obtain ⟨ps, hp1, hp2⟩ : ∃ ps : List (Row × List Bool), ps.map (·.1) = m.rows ∧ ps.map (·.2) = mask := by
    refine ⟨m.rows.zip mask, ?_, ?_⟩
    · rw [List.map_fst_zip (by omega)]
    · rw [List.map_snd_zip (by omega)]
  have hzip : m.rows.zip mask = ps := by
    rw [← hp1, ← hp2, List.zip_map']; simp
  have hu := rows_uniform m hm
  have hmo := eq_ofRows m hm
  have hps : ∀ p ∈ ps, 0 < p.1.len ∧ p.1.len ≤ n ∧ p.2.length = n := by
    intro p hp
    have h1 : p.1 ∈ m.rows := by rw [← hp1]; exact List.mem_map_of_mem hp
    have h2 : p.2 ∈ mask := by rw [← hp2]; exact List.mem_map_of_mem hp
    obtain ⟨k, hk⟩ := List.getElem?_of_mem h1
    rw [rows_get m hm] at hk
    have := row_len_mem hk
    exact ⟨hpos _ this, (hn.2 _ this).2, hw _ h2⟩
  have hne : ps ≠ [] := by
    intro h; subst h
    simp at hp2
    rw [hp2] at hrows
    simp at hrows
    have := hn.1
    have h3 := hm.2.2.1
    rw [← hrows] at h3
    rw [List.length_eq_zero_iff.1 h3] at this
    simp at this
  have hmax := hn.max
  have hchunkAll : m.chunk.isSome = true → ps.all (fun p => p.2.any id) = true := by
    intro h
    rw [List.all_eq_true]
    intro p hp
    rcases hc with hc | hc
    · rw [hc] at h; simp at h
    · rw [any_id_mem]; exact decide_eq_true (hc p.2 (by rw [← hp2]; exact List.mem_map_of_mem hp))
  have hkp : keptPairs m.rows mask = ps.filter fun p => p.2.any id := by
    unfold keptPairs; rw [hzip]; congr 1; funext p; exact (any_id_mem _).symm
  rw [hkp]
  rw [show mask = ps.map (·.2) from hp2.symm]
  rw [← hp1] at hmo hu
  generalize m.chunk.isSome = b at *
  clear hkp hp1 hp2 hc hzip hlen hrows hw
  subst hmo
  have hidlen : ((ofRows b (ps.map (·.1))).ids.length = ps.length) := by rw [ofRows_size]; simp
  have hbb : (decide ((ps.map (fun p : Row × List Bool => p.2)).length = 1) && decide ((ofRows b (ps.map (·.1))).ids.length > 1)) = false := by
    rw [hidlen, List.length_map]
    by_cases h : ps.length = 1
    · simp [h]
    · simp [h]
  have e1 : (ofRows b (ps.map (·.1))).ids = ps.map fun p => p.1.id := by simp [ofRows]
  have e2 : (ofRows b (ps.map (·.1))).sos = ps.map fun p => p.1.sos := by simp [ofRows]
  have e3 : (ofRows b (ps.map (·.1))).eos = ps.map fun p => p.1.eos := by simp [ofRows]
  have e4 : (ofRows b (ps.map (·.1))).lengths = ps.map fun p => p.1.len := by simp [ofRows]
  have e5 : (ofRows b (ps.map (·.1))).chunk = if b then some (ps.map fun p => p.1.chunk.getD 0) else none := by cases b <;> simp [ofRows]
  have kr : (ps.map (fun p : Row × List Bool => p.2)).filter (fun r => r.any id) = (ps.filter fun p => p.2.any id).map (·.2) := by
    rw [List.filter_map]; rfl
  unfold indexBatchAndLength
  rw [if_neg (by omega)]
  by_cases hany : ps.any (fun p => p.2.any id) = true
  swap
  · have hfil : ps.filter (fun p => p.2.any id) = [] := by
      rw [List.filter_eq_nil_iff]; intro p hp; rw [List.any_eq_true] at hany; intro h; exact hany ⟨p, hp, h⟩
    have hka : ((ps.map (fun p : Row × List Bool => p.2)).map (fun r : List Bool => r.any id)).any id = false := by
      rw [List.map_map, List.any_map]
      rw [Bool.not_eq_true] at hany
      exact hany
    simp only [hka, hfil]
    refine ⟨_, rfl, by simp [WF], by simp [rows], ?_⟩
    intro hb
    have := hchunkAll hb
    exfalso
    cases ps with
    | nil => exact hne rfl
    | cons p ps =>
      simp only [List.all_cons, Bool.and_eq_true] at this
      simp only [List.any_cons, this.1, Bool.true_or] at hany
      exact hany trivial
  · have hk : (List.map (fun r : List Bool => r.any id) (List.map (fun p : Row × List Bool => p.2) ps)) = ps.map fun p => p.2.any id := by simp
    simp only [hk]
    have hka : (ps.map (fun p : Row × List Bool => p.2.any id)).any id = true := by
      rw [List.any_map]; exact hany
    have hbl : maskBroadcastLength (ofRows b (ps.map (·.1))) n = .ok false := by
      unfold maskBroadcastLength
      by_cases h1 : n = 1
      · rw [if_pos h1, hmax, Except.bind_ok', h1]; rfl
      · rw [if_neg h1]
    have hcols : maskCols (ofRows b (ps.map (·.1))) (ps.map fun p => p.2.any id) = .ok (ofRows b ((ps.filter fun p => p.2.any id).map (·.1))) := by
      unfold maskCols
      by_cases hall : ps.all (fun p => p.2.any id) = true
      · rw [if_pos (by rw [List.all_map]; simpa [Function.comp_def] using hall), filter_eq_self_of_all _ _ hall]
      · rw [if_neg (by rw [List.all_map]; simpa [Function.comp_def] using hall), e1, e2, e3, e4, e5, idsByMask_map, torchMask_map, torchMask_map, torchMask_map]
        have hb : b = false := by
          cases b with
          | false => rfl
          | true => exact absurd (hchunkAll rfl) hall
        rw [hb]
        simp [ofRows, Except.bind_ok', onChunk]
    simp only [hka, if_true, hbl, hbb, hcols, kr, Except.bind_ok', Bool.false_and]
    rw [if_neg (by simp)]
    unfold maskFinish
    have hcum : cumAt ((ps.filter fun p => p.2.any id).map (·.2)) ((ps.filter fun p => p.2.any id).map fun p => p.1.len) =
        .ok ((ps.filter fun p => p.2.any id).map fun p => keptData (truePos p.2) p.1.len) := by
      unfold cumAt
      rw [bcast_map, Except.bind_ok']
      apply mapM_id_ok
      intro p hp
      obtain ⟨h1, h2, h3⟩ := hps p (List.mem_filter.1 hp).1
      obtain ⟨l, hl⟩ : ∃ l : Nat, p.1.len = (l : Int) + 1 := ⟨(p.1.len - 1).toNat, by omega⟩
      have := keptData_truePos p.2 (l + 1)
      rw [hl, show ((l : Int) + 1) = ((l + 1 : Nat) : Int) by omega, this]
      rw [show (((l + 1 : Nat) : Int) - 1) = (l : Int) by omega, pyGet_of_get _ _ _ (cumCounts_get _ _ _ (by omega))]
      simp
    have hchunk : onChunk (torchMask · (ps.map fun p => p.2.any id)) (if b = true then some ((ps.filter fun p => p.2.any id).map fun p => p.1.chunk.getD 0) else none) =
        .ok (if b = true then some ((ps.filter fun p => p.2.any id).map fun p => p.1.chunk.getD 0) else none) := by
      cases b with
      | false => rfl
      | true =>
        have hall := hchunkAll rfl
        rw [filter_eq_self_of_all _ _ hall]
        simp only [if_true, onChunk, torchMask_map, Except.bind_ok']
        rw [filter_eq_self_of_all _ _ hall]
    simp only [ofRows, bcast_map, List.map_map, Except.bind_ok', Function.comp_def, hcum, hchunk]
    rw [if_neg (by simp)]
    refine ⟨ofRows b ((ps.filter fun p => p.2.any id).map maskRow), ?_, ofRows_wf _ _, ?_, ?_⟩
    · rw [← init_ofRows]
      have c1 : ∀ p ∈ ps.filter (fun p => p.2.any id), (p.1.sos && p.2.head?.getD false) = (maskRow p).sos := by
        intro p hp
        simp only [maskRow, keepsFirst, head_mem]
      have c2 : ∀ p ∈ ps.filter (fun p => p.2.any id), ((p.1.eos && decide ((if p.2.head?.getD false = true then (1 : Int) else 0) < p.1.len)) &&
          decide (p.1.len ≤ lastTrueStop p.2)) = (maskRow p).eos := by
        intro p hp
        obtain ⟨h1, h2, h3⟩ := hps p (List.mem_filter.1 hp).1
        have hm := (List.mem_filter.1 hp).2
        rw [any_id_mem, decide_eq_true_eq] at hm
        rw [lastTrueStop_le _ hm]
        simp only [maskRow, keepsFirst, head_mem]
        rw [Bool.and_assoc, Bool.and_assoc, Bool.and_comm (decide _) (List.any _ _)]
        congr 2
        by_cases h0 : 0 ∈ truePos p.2
        · by_cases hl : p.1.len = 1
          · simp [h0, hl]
          · simp [h0, hl]; omega
        · simp [h0, h1]
      have d1 := List.map_congr_left c1
      have d2 := List.map_congr_left c2
      rw [d1, d2]
      simp [ofRows, maskRow, Function.comp_def]
    · apply ofRows_rows
      intro r hr
      obtain ⟨p, hp, rfl⟩ := List.mem_map.1 hr
      exact hu p.1 (List.mem_map_of_mem (List.mem_filter.1 hp).1)
    · intro hb; rw [ofRows_isSome]; exact hb

/-- **C15.** A 2-D mask of shape (batch, longest length) on metadata with positive lengths and no chunk indices keeps
exactly the rows whose mask row has some `True`, in order; ids are kept, the new length is the number of `True` at data
positions, and sos survives iff position 0 is kept. -/
theorem C15_mask2d (m : Meta) (hm : m.WF) (n : Nat) (hn : m.Longest n) (hpos : ∀ l ∈ m.lengths, 0 < l) (hc : m.chunk = none)
    (mask : List (List Bool)) (hrows : mask.length = m.ids.length) (hw : ∀ r ∈ mask, r.length = n) :
    ∃ m', m.indexBatchAndLength mask n = .ok m' ∧ m'.WF ∧ m'.ids = (keptPairs m.rows mask).map (·.1.id) ∧
      m'.lengths = (keptPairs m.rows mask).map (fun p => keptData (truePos p.2) p.1.len) ∧
      m'.sos = (keptPairs m.rows mask).map (fun p => p.1.sos && decide (0 ∈ truePos p.2)) := by
  obtain ⟨m', h1, h2, h3, -⟩ := mask2d_core m hm n hn hpos mask hrows hw (.inl hc)
  refine ⟨m', h1, h2, ?_, ?_, ?_⟩
  · rw [ids_rows m' h2, h3, List.map_map]; rfl
  · rw [lengths_rows m' h2, h3, List.map_map]; rfl
  · rw [sos_rows m' h2, h3, List.map_map]; rfl

example : ({ ex3 with chunk := none } : Meta).WF ∧ ({ ex3 with chunk := none } : Meta).Longest 4 ∧
    ({ ex3 with chunk := none } : Meta).indexBatchAndLength [[true, false, true, true], [false, false, false, false], [false, true, false, true]] 4 =
      .ok ⟨["a", "c"], [true, false], [false, true], [3, 1], none⟩ := by decide

/-- **C87 is false of the code**, three ways: a row of length 1 loses its eos under the all-`True` mask; a row keeps eos
although no data frame of it is kept; and dropping any row raises IndexError when there are chunk indices. -/
theorem C87_mask2d_eos_false :
    (⟨["a"], [true], [true], [1], none⟩ : Meta).indexBatchAndLength [[true]] 1 = .ok ⟨["a"], [true], [false], [1], none⟩ ∧
    (⟨["a", "b"], [true, true], [true, true], [2, 3], none⟩ : Meta).indexBatchAndLength [[false, false, true], [true, true, true]] 3 =
      .ok ⟨["a", "b"], [false, true], [true, true], [0, 3], none⟩ ∧
    (⟨["a", "b"], [true, true], [true, true], [2, 2], some [0, 0]⟩ : Meta).indexBatchAndLength [[true, true], [false, false]] 2 = .error .indexError := by
  decide

/-- C87, what holds: without chunk indices, or when every row is kept, the rows of the result are exactly the kept rows with
their chunk index, and eos survives iff some kept position is at or beyond the last data frame and not (the row has length 1 and
its frame is kept). Missing: the second clause of C87 and rows of length 1; see `C87_mask2d_eos_false`. -/
theorem C87_mask2d_eos_partial (m : Meta) (hm : m.WF) (n : Nat) (hn : m.Longest n) (hpos : ∀ l ∈ m.lengths, 0 < l)
    (mask : List (List Bool)) (hrows : mask.length = m.ids.length) (hw : ∀ r ∈ mask, r.length = n)
    (hc : m.chunk = none ∨ ∀ r ∈ mask, true ∈ r) :
    ∃ m', m.indexBatchAndLength mask n = .ok m' ∧ m'.WF ∧ m'.rows = (keptPairs m.rows mask).map maskRow ∧
      (m.chunk.isSome = true → m'.chunk.isSome = true) :=
  mask2d_core m hm n hn hpos mask hrows hw hc

example : ex3.WF ∧ ex3.Longest 4 ∧
    ex3.indexBatchAndLength [[true, false, true, true], [false, true, false, false], [false, true, false, true]] 4 =
      .ok ⟨["a", "b", "c"], [true, false, false], [false, false, true], [3, 1, 1], some [0, 5, 7]⟩ := by decide

end DS.Meta
