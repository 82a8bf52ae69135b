import Verif.Props.Gather
import Verif.Props.SplitLength
/-! # C98, C95: splitting a StreamTensor along length, unpadding -/

namespace DS.Tn
open Meta

variable {α : Type}

/-! ## C98 -/

/-- What torch accepts for an axis of size `w`: a positive size, or non-negative sections that add up to `w`. (Also pieces of size 0 if `w = 0`, see `C98_zero_false`.) -/
def TorchSplit (w : Nat) : SplitArg → Prop
  | .size k => 0 < k
  | .sections ss => (∀ s ∈ ss, 0 ≤ s) ∧ total ss = w

/-- What torch refuses for an axis of size `w`. -/
def TorchRefuses (w : Nat) : SplitArg → Prop
  | .size k => k < 0 ∨ k = 0 ∧ 0 < w
  | .sections ss => (∃ s ∈ ss, s < 0) ∨ total ss ≠ w

theorem longest_of_rows {m : Meta} (hm : m.WF) (h0 : m.ids ≠ []) (w : Nat) (hf : ∀ n ∈ m.lengths, 0 ≤ n ∧ n ≤ (w : Int)) : ∃ n : Nat, m.Longest n ∧ n ≤ w := by
  have hne : m.lengths ≠ [] := by
    intro e
    have := hm.2.2.1
    rw [e] at this
    exact h0 (List.length_eq_zero_iff.1 this.symm)
  obtain ⟨mx, hmx⟩ : ∃ mx, m.maxLength = .ok mx := by
    unfold maxLength
    cases e : m.lengths with
    | nil => exact absurd e hne
    | cons a as => exact ⟨_, rfl⟩
  have h2 := (torchMax_iff _ _).1 hmx
  have h3 := hf _ h2.1
  refine ⟨mx.toNat, ⟨?_, ?_⟩, by omega⟩
  · rw [Int.toNat_of_nonneg h3.1]; exact h2.1
  · intro a ha
    rw [Int.toNat_of_nonneg h3.1]
    exact ⟨(hf a ha).1, h2.2 a ha⟩

theorem lengths_row {m : Meta} (hm : m.WF) {n : Int} (h : n ∈ m.lengths) : ∃ k r, m.row k = some r ∧ r.len = n := by
  obtain ⟨k, hk⟩ := List.mem_iff_getElem?.1 h
  have hlt := (List.getElem?_eq_some_iff.1 hk).1
  obtain ⟨r, hr, -, -, -, h3, -⟩ := row_some m hm k (by rw [← hm.2.2.1]; exact hlt)
  rw [hk] at h3
  exact ⟨k, r, hr, (Option.some.inj h3).symm⟩

/-- A data piece that starts where the metadata piece starts and is at least as wide. -/
def PieceOf (x : STen α) (l : Nat) (b : Int × Int) (t : Ten α) : Prop :=
  ∃ j : Int, t = x.t.piece l b.1 j ∧ b.2 ≤ j

theorem zip_lines (x : STen α) (b l : Nat) (hx : x.Describes b l) (w n : Nat) (hw : x.t.shape[l]? = some w) (hn : x.md.Longest n)
    (bs : List (Int × Int)) (ps : List Meta) (hf : List.Forall₂ (x.md.IsPiece n) bs ps) (a : Int) (ha : 0 ≤ a) (ht : Tiles n a bs) (ts : List (Ten α))
    (hts : ∀ (i : Nat) c, bs[i]? = some c → ∃ t, ts[i]? = some t ∧ PieceOf x l c t) :
    (∀ y ∈ zipStream ts ps, y.md.ids = x.md.ids ∧ y.t.names = x.t.names ∧ y.Describes b l) ∧
    ∀ (ix : List Nat) (i : Nat) (r : Row), x.md.row i = some r →
      (zipStream ts ps).flatMap (fun y => y.line b l ix i) = (List.range' a.toNat (r.len - a).toNat).map fun j => x.t.val ((ix.set b i).set l j) := by
  induction hf generalizing a ts with
  | nil =>
    have hz : ∀ ts : List (Ten α), zipStream ts [] = [] := by intro ts; cases ts <;> rfl
    rw [hz]
    refine ⟨by simp, ?_⟩
    intro ix i r hr
    have := row_bounds hn hr
    simp only [Tiles] at ht
    have : (r.len - a).toNat = 0 := by omega
    rw [this]
    simp
  | @cons c p bs ps hp hf ih =>
    obtain ⟨i, j⟩ := c
    obtain ⟨rfl, hij, ht⟩ := ht
    obtain ⟨t, h0, jt, rfl, hjt⟩ := hts 0 (i, j) rfl
    cases ts with
    | nil => simp at h0
    | cons t' ts =>
      simp at h0
      subst h0
      obtain ⟨ih1, ih2⟩ := ih j (by omega) ht ts (fun i c hc => by simpa using hts (i + 1) c (by simpa using hc))
      refine ⟨?_, ?_⟩
      · intro y hy
        rw [zipStream, List.mem_cons] at hy
        rcases hy with rfl | hy
        · refine ⟨hp.1, rfl, ⟨?_, hx.wf.2⟩, hx.batch, hx.length, hp.2.1, ?_, (jt - i).toNat, ?_, ?_⟩
          · show x.t.names.length = (x.t.shape.set l _).length
            rw [List.length_set]; exact hx.wf.1
          · show (x.t.shape.set l _)[b]? = some p.ids.length
            rw [List.getElem?_set_ne (Describes.ne hx).symm, hx.rows, hp.1]
          · show (x.t.shape.set l _)[l]? = _
            rw [List.getElem?_set_self (List.getElem?_eq_some_iff.1 hw).1]
          · intro m hm
            obtain ⟨k, q, hq, rfl⟩ := lengths_row hp.2.1 hm
            have hk : k < x.md.ids.length := by
              by_contra hcon
              rw [row_none p k (by rw [hp.1]; omega)] at hq
              simp at hq
            obtain ⟨r, hr, -⟩ := row_some x.md hx.mdwf k hk
            rw [hp.2.2.2.2 k r hr] at hq
            obtain rfl := Option.some.inj hq
            have := row_bounds hn hr
            simp only [pieceRow]
            simp only at hjt
            omega
        · exact ih1 y hy
      · intro ix k r hr
        have hb := row_bounds hn hr
        have hrow := hp.2.2.2.2 k r hr
        rw [zipStream, List.flatMap_cons, ih2 ix k r hr]
        have hl : (p.lenAt k).toNat = (min j r.len - min i r.len).toNat := by
          unfold lenAt; rw [hrow]; rfl
        have e1 : STen.line (⟨x.t.piece l i jt, p⟩ : STen α) b l ix k = (List.range' i.toNat (min j r.len - min i r.len).toNat).map fun j => x.t.val ((ix.set b k).set l j) := by
          unfold STen.line
          show (List.range (p.lenAt k).toNat).map _ = _
          rw [hl, List.range'_eq_map_range, List.map_map]
          apply List.map_congr_left
          intro q _
          show x.t.val (((ix.set b k).set l q).modify l (· + i.toNat)) = _
          rw [modify_set]
          rfl
        rw [e1, ← List.map_append]
        congr 1
        by_cases h : r.len ≤ j
        · have : (r.len - j).toNat = 0 := by omega
          rw [this, List.range'_zero, List.append_nil]
          congr 1
          omega
        · have h1 : (min j r.len - min i r.len).toNat = (j - i).toNat := by omega
          have h2 : j.toNat = i.toNat + 1 * (j - i).toNat := by omega
          rw [h1, h2, List.range'_append]
          congr 1
          omega

/-- **C98 is false of the code** for a batch without rows: torch splits the data, the longest of no sequences is asked for and RuntimeError raised. -/
theorem C98_split_no_rows_false : ∃ x : STen (List Nat), x.Describes 0 1 ∧ (∃ ts, x.t.split 1 (.size 2) = .ok ts ∧ ts.length = 2) ∧ split x (.size 2) 1 = .error .runtimeError :=
  ⟨⟨exT [0, 4] [some "B", some "L"], ⟨[], [], [], [], none⟩⟩, ⟨by decide, rfl, rfl, by decide, rfl, 4, rfl, by decide⟩, ⟨_, rfl, by decide +kernel⟩, rfl⟩

/-- **C98, the part that holds.** For a batch with rows, every spelling of the length axis and every argument that torch accepts: each piece has the names and ids of `x` and metadata that describe its
data, and for every row the valid frames of the pieces, concatenated in order, are the valid frames of `x`. (If `x` is padded beyond its longest sequence, pieces of pure padding are dropped.)
Missing: batches without rows (`C98_no_rows_partial`), pieces of size 0 of an empty tensor (`C98_zero_partial`). -/
theorem C98_split_length_partial (x : STen α) (b l : Nat) (hx : x.Describes b l) (d : Int) (hd : posOf x.t.ndim d = some l) (w : Nat) (hw : x.t.shape[l]? = some w)
    (h0 : x.md.ids ≠ []) (arg : SplitArg) (harg : TorchSplit w arg) :
    ∃ ys, split x arg d = .ok ys ∧ (∀ y ∈ ys, y.md.ids = x.md.ids ∧ y.t.names = x.t.names ∧ y.Describes b l) ∧
      ∀ (ix : List Nat) (i : Nat), i < x.md.ids.length → ys.flatMap (fun y => y.line b l ix i) = x.line b l ix i := by
  have hll : x.t.names.length = x.t.ndim := hx.wf.1
  obtain ⟨w', hw', hf⟩ := hx.fits
  obtain rfl : w' = w := by rw [hw] at hw'; exact (Option.some.inj hw').symm
  obtain ⟨n, hn, hnw⟩ := longest_of_rows hx.mdwf h0 w' hf
  have hg : x.t.shape.getD l 0 = w' := by rw [List.getD_eq_getElem?_getD, hw]; rfl
  have key : ∀ (bs : List (Int × Int)) (ts : List (Ten α)), x.md.splitLength arg = lengthPieces x.md bs → Tiles n 0 bs → x.t.split l arg = .ok ts →
      (∀ (i : Nat) c, bs[i]? = some c → ∃ t, ts[i]? = some t ∧ PieceOf x l c t) →
      ∃ ys, split x arg d = .ok ys ∧ (∀ y ∈ ys, y.md.ids = x.md.ids ∧ y.t.names = x.t.names ∧ y.Describes b l) ∧
      ∀ (ix : List Nat) (i : Nat), i < x.md.ids.length → ys.flatMap (fun y => y.line b l ix i) = x.line b l ix i := by
    intro bs ts e1 ht e2 hts
    obtain ⟨ps, e3, hps⟩ := pieces_spec x.md hx.mdwf n hn bs 0 (by omega) ht
    obtain ⟨h1, h2⟩ := zip_lines x b l hx w' n hw hn bs ps hps 0 (by omega) ht ts hts
    refine ⟨zipStream ts ps, ?_, h1, ?_⟩
    · unfold split
      rw [pyGet_names (by rw [hll]; exact hd) _ hx.length, Except.bind_ok', normDim_ok hd, Except.bind_ok', e2, Except.bind_ok', if_pos rfl, e1, e3]
      rfl
    · intro ix i hi
      obtain ⟨r, hr, -⟩ := row_some x.md hx.mdwf i hi
      rw [h2 ix i r hr]
      unfold STen.line lenAt
      rw [hr, List.range_eq_range']
      simp
  cases arg with
  | size k =>
    have hk : 0 < k := harg
    have ht := (sizeBounds_tiles n k hk _ 0 (Nat.le_refl _)).1
    rw [show min (0 : Int) n = 0 by omega] at ht
    by_cases hw0 : w' = 0
    · have hn0 : n = 0 := by omega
      refine key (sizeBounds n k) [x.t] ?_ ht ?_ ?_
      · unfold splitLength
        simp only [hn.max, Except.bind_ok']
        rw [if_neg (by omega), if_neg (by omega)]
      · unfold Ten.split
        simp only [hg]
        rw [if_neg (by omega), if_pos hw0]
      · intro i c hc
        have : sizeBounds n k = [] := by unfold sizeBounds; rw [range_empty 0 n k hk (by omega)]; rfl
        rw [this] at hc; simp at hc
    · refine key (sizeBounds n k) ((sizeBounds w' k).map fun c => x.t.piece l c.1 c.2) ?_ ht ?_ ?_
      · unfold splitLength
        simp only [hn.max, Except.bind_ok']
        rw [if_neg (by omega), if_neg (by omega)]
      · unfold Ten.split
        simp only [hg]
        rw [if_neg (by omega), if_neg hw0]
      · have hr : ∀ (fuel : Nat) (a : Int), ((n : Int) - a).toNat ≤ fuel → ∀ (i : Nat) c, (rangePositions a n k)[i]? = some c → (rangePositions a w' k)[i]? = some c := by
          intro fuel
          induction fuel with
          | zero =>
            intro a h i c hc
            rw [range_empty a n k hk (by omega)] at hc
            simp at hc
          | succ f ih =>
            intro a h i c hc
            by_cases han : a < n
            · rw [range_unfold a n k hk han] at hc
              rw [range_unfold a w' k hk (by omega)]
              cases i with
              | zero => exact hc
              | succ i => exact ih (a + k) (by omega) i c (by simpa using hc)
            · rw [range_empty a n k hk (by omega)] at hc
              simp at hc
        intro i c hc
        unfold sizeBounds at hc ⊢
        rw [List.getElem?_map] at hc
        obtain ⟨s, hs, rfl⟩ := Option.map_eq_some_iff.1 hc
        refine ⟨_, by rw [List.getElem?_map, List.getElem?_map, hr _ 0 (Nat.le_refl _) i s hs]; rfl, min (s + k) w', rfl, by simp only; omega⟩
  | sections ss =>
    obtain ⟨h1, h2⟩ := harg
    rw [total_isum] at h2
    refine key (sectionBounds 0 ss) ((sectionBounds 0 ss).map fun c => x.t.piece l c.1 c.2) ?_ (sectionBounds_tiles _ _ _ h1 (by omega)) ?_ ?_
    · unfold splitLength
      simp only [hn.max, Except.bind_ok']
      rw [if_neg (by omega)]
    · unfold Ten.split
      simp only [hg]
      rw [if_neg]
      intro h
      rcases h with h | h
      · rw [List.any_eq_true] at h
        obtain ⟨s, hs, h⟩ := h
        have := h1 s hs
        simp at h
        omega
      · exact h h2
    · intro i c hc
      exact ⟨_, by rw [List.getElem?_map, hc]; rfl, c.2, rfl, le_rfl⟩

example : ∃ x : STen (List Nat), x.Describes 0 2 ∧ TorchSplit 3 (.size 2) ∧ TorchSplit 3 (.sections [0, 1, 2]) ∧ ∃ ys, split x (.sections [0, 1, 2]) (-1) = .ok ys ∧
    ys.map (fun y => y.line 0 2 [0, 1, 0] 1) = [[], [[1, 1, 0]], [[1, 1, 1]]] :=
  ⟨_, exBFL_describes, by unfold TorchSplit; omega, ⟨by decide, by decide⟩, _, rfl, by decide +kernel⟩

/-! ## C95 -/

theorem mapM_forall₂ {β γ : Type} {f : β → Py γ} {R : β → γ → Prop} (xs : List β) (h : ∀ x ∈ xs, ∃ y, f x = .ok y ∧ R x y) :
    ∃ ys, xs.mapM f = .ok ys ∧ List.Forall₂ R xs ys := by
  induction xs with
  | nil => exact ⟨[], rfl, .nil⟩
  | cons x xs ih =>
    obtain ⟨y, e, hr⟩ := h x (by simp)
    obtain ⟨ys, e2, hf⟩ := ih (fun z hz => h z (by simp [hz]))
    refine ⟨y :: ys, ?_, .cons hr hf⟩
    rw [List.mapM_cons, e, Except.bind_ok', e2]
    rfl

theorem eraseIdx_get {β : Type} (xs : List β) (b l : Nat) (h : b ≠ l) : (xs.eraseIdx b)[if b < l then l - 1 else l]? = xs[l]? := by
  rw [List.getElem?_eraseIdx]
  by_cases h1 : b < l
  · rw [if_pos h1, if_neg (by omega)]
    congr 1
    omega
  · rw [if_neg h1, if_pos (by omega)]

/-- What `unpad_sequence` returns. -/
theorem unpad_spec (junk : Int) (x : STen α) (b l : Nat) (hx : x.Describes b l) :
    ∃ ys, unpadSequence junk x = .ok ys ∧ ys.length = x.md.ids.length ∧ ∀ (i : Nat) (r : Row) (y : STen α), x.md.row i = some r → ys[i]? = some y →
      y.t.names = x.t.names.eraseIdx b ∧ y.t.shape = (x.t.shape.eraseIdx b).set (if b < l then l - 1 else l) r.len.toNat ∧
      (∀ ix : List Nat, ix[b]? = some i → y.t.val (ix.eraseIdx b) = x.t.val ix) ∧
      y.md.WF ∧ y.md.ids.length = 1 ∧ ∃ q, y.md.row 0 = some q ∧ q.id = r.id ∧ q.len = r.len ∧ q.chunk = r.chunk ∧
        q.sos = (r.sos && decide (0 < r.len)) ∧ q.eos = (r.eos && decide (0 < r.len)) := by
  have hb := nameIndex_of hx.wf.2.1 hx.batch
  have hl := nameIndex_of hx.wf.2.1 hx.length
  change nameIndex _ BATCH = _ at hb
  change nameIndex _ LENGTH = _ at hl
  have hbl := Describes.ne hx
  obtain ⟨us, e, hlen, hus⟩ := C48_unbind_batch x b l hx b (posOf_nat _ _ (Describes.lt hx).1)
  obtain ⟨w, hw, hfit⟩ := hx.fits
  let l' := if b < l then l - 1 else l
  let R : STen α → STen α → Prop := fun u y => ∃ r, u.md.row 0 = some r ∧ y.t.names = u.t.names ∧ y.t.shape = u.t.shape.set l' r.len.toNat ∧ y.t.val = u.t.val ∧
      y.md.WF ∧ y.md.ids.length = 1 ∧ ∃ q, y.md.row 0 = some q ∧ q.id = r.id ∧ q.len = r.len ∧ q.chunk = r.chunk ∧
        q.sos = (r.sos && decide (0 < r.len)) ∧ q.eos = (r.eos && decide (0 < r.len))
  obtain ⟨ys, e2, hf⟩ := mapM_forall₂ (f := unpadSequence.unpadRow junk l') (R := R) us (by
    intro u hu
    obtain ⟨i, hi⟩ := List.getElem?_of_mem hu
    obtain ⟨hs, hnm, hsh, hv⟩ := hus i u hi
    have hil : i < x.md.ids.length := by rw [← hlen]; exact (List.getElem?_eq_some_iff.1 hi).1
    obtain ⟨r, hr, -⟩ := row_some x.md hx.mdwf i hil
    have hrow : u.md.row 0 = some r := by rw [hs.2.2.2 0]; exact hr
    have hids : u.md.ids.length = 1 := hs.2.1
    have hr0 := hfit _ (row_len_mem hr)
    have hlens : u.md.lengths = [r.len] := by
      have h1 : u.md.lengths.length = 1 := by rw [hs.1.2.2.1, hids]
      obtain ⟨a, ha⟩ := List.length_eq_one_iff.1 h1
      obtain ⟨r', hr', -, -, -, h3, -⟩ := row_some u.md hs.1 0 (by omega)
      rw [hrow] at hr'
      obtain rfl := Option.some.inj hr'
      rw [ha] at h3 ⊢
      simpa using h3
    have hlong : u.md.Longest r.len.toNat := by
      unfold Longest
      rw [hlens, Int.toNat_of_nonneg hr0.1]
      refine ⟨by simp, ?_⟩
      intro a ha
      rw [List.mem_singleton.1 ha]
      exact ⟨hr0.1, le_rfl⟩
    have hlo : sliceLo r.len.toNat { start := some 0, stop := some (0 + r.len) } = 0 := by simp only [sliceLo, boundOf]; split <;> omega
    have hhi : sliceHi r.len.toNat { start := some 0, stop := some (0 + r.len) } = r.len := by simp only [sliceHi, boundOf]; split <;> omega
    obtain ⟨m', e, hmap⟩ := C05_length_slice junk u.md hs.1 _ hlong { start := some 0, stop := some (0 + r.len) } rfl (by rw [hlo, hhi]; exact hr0.1)
    have hwu : u.t.shape[l']? = some w := by rw [hsh, eraseIdx_get _ _ _ hbl]; exact hw
    have hnu : u.t.names[l']? = some LENGTH := by rw [hnm, eraseIdx_get _ _ _ hbl]; exact hx.length
    have hlt : l' < u.t.ndim := (List.getElem?_eq_some_iff.1 hwu).1
    have hnn : l' < u.t.names.length := (List.getElem?_eq_some_iff.1 hnu).1
    have hmem := fun j => mem_slicePos r.len.toNat { start := some 0, stop := some (0 + r.len) } j rfl
    rw [hlo, hhi] at hmem
    refine ⟨⟨{ u.t with shape := u.t.shape.set l' r.len.toNat, val := fun ix => u.t.val (ix.modify l' (· + 0)) }, m'⟩, ?_, r, hrow, rfl, rfl, ?_, hmap.1, by rw [hmap.2.1, hids], ?_⟩
    · simp only [unpadSequence.unpadRow, hlens]
      unfold narrow
      have := ten_narrow u.t l' l' (posOf_nat _ _ hlt) 0 r.len.toNat 0 w hwu (Or.inl rfl) (by omega)
      rw [Int.toNat_of_nonneg hr0.1] at this
      rw [this, Except.bind_ok', pyGet_names (posOf_nat _ _ hnn) _ hnu, Except.bind_ok', if_neg (by decide), if_pos rfl]
      unfold index2
      rw [indexBatch_full _ hs.1, Except.bind_ok', e]
      rfl
    · funext ix
      show u.t.val _ = u.t.val _
      congr 1
      exact List.modify_id ..
    · refine ⟨_, hmap.2.2.2 0 r hrow, rfl, ?_, rfl, ?_, ?_⟩
      · show keptData _ _ = _
        rw [keptData_slice _ { start := some 0, stop := some (0 + r.len) } _ Int.one_pos, hlo, hhi]
        show max 0 ((min r.len r.len - 0 + 1 - 1) / 1) = _
        rw [Int.ediv_one]
        omega
      · show (r.sos && keepsFirst _) = _
        unfold keepsFirst
        congr 1
        rw [decide_eq_decide, hmem]
        omega
      · show (r.eos && keepsLast _ _) = _
        unfold keepsLast
        rw [any_decide_iff]
        congr 1
        rw [decide_eq_decide]
        constructor
        · rintro ⟨j, hj, hj2⟩
          rw [hmem] at hj
          omega
        · intro hle
          exact ⟨(r.len - 1).toNat, by rw [hmem]; omega, by omega⟩)
  refine ⟨ys, ?_, by rw [← hf.length_eq, hlen], ?_⟩
  · unfold unpadSequence
    rw [hb, Except.bind_ok', hl, Except.bind_ok']
    simp only [e, Except.bind_ok']
    exact e2
  · intro i r y hr hy
    obtain ⟨u, hu, r', hrow, h1, h2, h3, h4⟩ := forall₂_get hf i y hy
    obtain ⟨hs, hnm, hsh, hv⟩ := hus i u hu
    have : r' = r := by
      rw [hs.2.2.2 0] at hrow
      simp [hr] at hrow
      exact hrow.symm
    subst this
    exact ⟨by rw [h1, hnm], by rw [h2, hsh], fun ix hix => by rw [h3]; exact hv ix hix, h4⟩

/-- **C95 is false of the code.** The tensor of a row of length 0 is neither starting nor ending, whatever the row said. -/
theorem C95_unpad_empty_false (junk : Int) (x : STen α) (b l : Nat) (hx : x.Describes b l) (i : Nat) (r : Row) (hr : x.md.row i = some r) (h0 : r.len = 0) :
    ∃ ys y q, unpadSequence junk x = .ok ys ∧ ys[i]? = some y ∧ y.md.row 0 = some q ∧ q.id = r.id ∧ q.sos = false ∧ q.eos = false := by
  obtain ⟨ys, e, hlen, h⟩ := unpad_spec junk x b l hx
  have hi : i < ys.length := by
    rw [hlen]
    by_contra hcon
    rw [row_none _ _ (by omega)] at hr
    simp at hr
  obtain ⟨-, -, -, -, -, q, hq, h1, -, -, h2, h3⟩ := h i r _ hr (List.getElem?_eq_getElem hi)
  refine ⟨ys, _, q, e, List.getElem?_eq_getElem hi, hq, h1, ?_, ?_⟩
  · rw [h2, h0]; simp
  · rw [h3, h0]; simp

example : ∃ x : STen (List Nat), x.Describes 0 1 ∧ x.md.row 1 = some ⟨"b", true, true, 0, none⟩ :=
  ⟨⟨exT [2, 3] [some "B", some "L"], ⟨["a", "b"], [true, true], [false, true], [3, 0], none⟩⟩, ⟨by decide, rfl, rfl, by decide, rfl, 3, rfl, by decide⟩, by decide⟩

/-- **C95, the part that holds.** One tensor per row, in order, without the batch axis, holding exactly the row's valid frames and, for a row that has frames, exactly the row's metadata. Missing:
the flags of rows of length 0. -/
theorem C95_unpad_partial (junk : Int) (x : STen α) (b l : Nat) (hx : x.Describes b l) :
    ∃ ys, unpadSequence junk x = .ok ys ∧ ys.length = x.md.ids.length ∧ ∀ (i : Nat) (r : Row) (y : STen α), x.md.row i = some r → ys[i]? = some y →
      y.t.names = x.t.names.eraseIdx b ∧ y.t.shape = (x.t.shape.eraseIdx b).set (if b < l then l - 1 else l) r.len.toNat ∧
      (∀ ix : List Nat, ix[b]? = some i → y.t.val (ix.eraseIdx b) = x.t.val ix) ∧
      y.md.WF ∧ y.md.ids.length = 1 ∧ (0 < r.len → y.md.row 0 = some r) ∧ (r.len = 0 → ∃ q, y.md.row 0 = some q ∧ q.id = r.id ∧ q.len = 0 ∧ q.chunk = r.chunk) := by
  obtain ⟨ys, e, hlen, h⟩ := unpad_spec junk x b l hx
  refine ⟨ys, e, hlen, ?_⟩
  intro i r y hr hy
  obtain ⟨h1, h2, h3, h4, h5, q, hq, g1, g2, g3, g4, g5⟩ := h i r y hr hy
  refine ⟨h1, h2, h3, h4, h5, ?_, fun h0 => ⟨q, hq, g1, by rw [g2, h0], g3⟩⟩
  intro h0
  rw [hq]
  congr 1
  obtain ⟨_, _, _, _, _⟩ := q
  obtain ⟨_, _, _, _, _⟩ := r
  simp_all

example : ∃ x : STen (List Nat), x.Describes 0 2 ∧ ∃ ys, unpadSequence 0 x = .ok ys ∧ ys.map (fun y => (y.md.ids, y.md.lengths, y.t.shape)) = [(["a"], [3], [4, 3]), (["b"], [2], [4, 2])] :=
  ⟨_, exBFL_describes, _, rfl, by decide +kernel⟩

end DS.Tn
