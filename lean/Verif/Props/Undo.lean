import Verif.Spec.Undo
import Verif.Props.Axes2
import Verif.Props.TensorSplit
import Verif.Props.CatLen
/-! # C210: functions that undo each other -/

namespace DS.Tn
open Meta

variable {α : Type}

theorem inside_length {p shape : List Nat} (h : Inside p shape) : p.length = shape.length := List.Forall₂.length_eq h

/-- **C210, permute.** Reordering the axes and reordering them back gives the StreamTensor back, for every spelling of the axes. -/
theorem C210_permute (x : STen α) (hx : x.t.WF) (dims back : List Int) (ds es : List Nat) (hd : positions x.t.ndim dims = some ds)
    (he : positions x.t.ndim back = some es) (hp : ds.Perm (List.range x.t.ndim)) (hq : es.Perm (List.range x.t.ndim)) (hu : Undoes ds es) :
    ∃ y z, permute x dims = .ok y ∧ permute y back = .ok z ∧ x.Same z := by
  obtain ⟨y, hy, hm, hnl, hsl, hns, hv⟩ := C34_permute x hx dims ds hd hp
  have hlen : ds.length = x.t.ndim := by simpa using hp.length_eq
  have helen : es.length = x.t.ndim := by simpa using hq.length_eq
  have hyn : y.t.ndim = x.t.ndim := hsl
  have hnames : y.t.names = ds.map fun a => x.t.names.getD a none := by
    apply List.ext_getElem?
    intro j
    rw [List.getElem?_map]
    cases h : ds[j]? with
    | none =>
      rw [List.getElem?_eq_none (by rw [hnl, ← hlen]; exact List.getElem?_eq_none_iff.1 h)]; rfl
    | some a =>
      rw [(hns j a h).1]
      have ha : a < x.t.names.length := by
        have : a ∈ List.range x.t.ndim := hp.mem_iff.1 (List.mem_of_getElem? h)
        have h1 := hx.1
        rw [List.mem_range] at this
        unfold Ten.ndim at this
        omega
      simp [List.getD_eq_getElem?_getD, List.getElem?_eq_getElem ha]
  have hyw : y.t.WF := by
    refine ⟨by rw [hnl, hsl], ?_⟩
    have hperm : y.t.names.Perm x.t.names := by
      rw [hnames]
      have h1 := hp.map fun a => x.t.names.getD a none
      refine h1.trans (List.Perm.of_eq ?_)
      apply List.ext_getElem?
      intro j
      rw [List.getElem?_map]
      have hl : x.t.names.length = x.t.ndim := hx.1
      by_cases hj : j < x.t.ndim
      · rw [List.getElem?_range hj]
        simp [List.getD_eq_getElem?_getD, List.getElem?_eq_getElem (show j < x.t.names.length by omega)]
      · rw [List.getElem?_eq_none (by simp; omega), List.getElem?_eq_none (by omega)]; rfl
    exact okNames_perm hperm hx.2
  obtain ⟨z, hz, hzm, hznl, hzsl, hzns, hzv⟩ := C34_permute y hyw back es (by rw [hyn]; exact he) (by rw [hyn]; exact hq)
  -- every axis of the result is that axis of `x`
  have hax : ∀ a : Nat, a < x.t.ndim → ∃ j, ds[j]? = some a ∧ es[a]? = some j := by
    intro a ha
    have : a ∈ ds := hp.mem_iff.2 (List.mem_range.2 ha)
    obtain ⟨j, hj⟩ := List.getElem?_of_mem this
    exact ⟨j, hj, hu j a hj⟩
  refine ⟨y, z, hy, hz, ?_, ?_, by rw [hzm, hm], ?_⟩
  · apply List.ext_getElem?
    intro a
    by_cases ha : a < x.t.ndim
    · obtain ⟨j, h1, h2⟩ := hax a ha
      rw [(hzns a j h2).2, (hns j a h1).2]
    · rw [List.getElem?_eq_none (by rw [hzsl, hyn]; omega), List.getElem?_eq_none (by unfold Ten.ndim at ha; omega)]
  · apply List.ext_getElem?
    intro a
    by_cases ha : a < x.t.ndim
    · obtain ⟨j, h1, h2⟩ := hax a ha
      rw [(hzns a j h2).1, (hns j a h1).1]
    · rw [List.getElem?_eq_none (by rw [hznl, hyn]; omega), List.getElem?_eq_none (by rw [hx.1]; unfold Ten.ndim at ha; omega)]
  · intro ix hin
    have hil : ix.length = x.t.ndim := inside_length hin
    rw [← hv ix hil]
    have h2 := hzv (ds.map fun a => ix.getD a 0) (by rw [List.length_map, hlen, hyn])
    rw [← h2]
    congr 1
    apply List.ext_getElem?
    intro a
    by_cases ha : a < x.t.ndim
    · obtain ⟨j, h1, h2⟩ := hax a ha
      rw [List.getElem?_map, h2, Option.map_some, List.getD_eq_getElem?_getD, List.getElem?_map, h1, Option.map_some, Option.getD_some, List.getD_eq_getElem?_getD,
        List.getElem?_eq_getElem (by omega)]
      rfl
    · rw [List.getElem?_eq_none (by omega), List.getElem?_eq_none (by rw [List.length_map, helen]; omega)]

example : (exT [2, 5, 3] [some "B", none, some "L"]).WF ∧ positions 3 [2, 0, -2] = some [2, 0, 1] ∧ positions 3 [1, -1, 0] = some [1, 2, 0] ∧
    [2, 0, 1].Perm (List.range 3) ∧ [1, 2, 0].Perm (List.range 3) ∧ Undoes [2, 0, 1] [1, 2, 0] := by
  refine ⟨by decide, by decide, by decide, by decide, by decide, ?_⟩
  intro j a h
  match j, h with
  | 0, h => simp at h; subst h; rfl
  | 1, h => simp at h; subst h; rfl
  | 2, h => simp at h; subst h; rfl
  | j + 3, h => simp at h

theorem tensorTranspose_eq (x : STen α) (i j : Int) (a b : Nat) (hi : posOf x.t.ndim i = some a) (hj : posOf x.t.ndim j = some b) :
    tensorTranspose x i j = .ok ⟨⟨swap x.t.shape a b, swap x.t.names a b, fun ix => x.t.val (swap ix a b)⟩, x.md⟩ := by
  unfold tensorTranspose Ten.transpose
  rw [normDim_ok hi, normDim_ok hj]
  rfl

/-- **C210, transpose.** The method `x.transpose(i, j)` called twice gives the StreamTensor back. -/
theorem C210_transpose (x : STen α) (hx : x.t.WF) (i j : Int) (a b : Nat) (hi : posOf x.t.ndim i = some a) (hj : posOf x.t.ndim j = some b) :
    ∃ y z, tensorTranspose x i j = .ok y ∧ tensorTranspose y i j = .ok z ∧ x.Same z := by
  have ha := posOf_lt hi
  have hb := posOf_lt hj
  have hl : x.t.names.length = x.t.ndim := hx.1
  have hnd : (swap x.t.shape a b).length = x.t.ndim := swap_length _ _ _
  refine ⟨_, _, tensorTranspose_eq x i j a b hi hj, tensorTranspose_eq _ i j a b (by unfold Ten.ndim; rw [hnd]; exact hi) (by unfold Ten.ndim; rw [hnd]; exact hj), ?_, ?_, rfl, ?_⟩
  · exact swap_swap _ _ _ ha hb
  · exact swap_swap _ _ _ (by omega) (by omega)
  · intro ix hin
    have hil : ix.length = x.t.ndim := inside_length hin
    show x.t.val (swap (swap ix a b) a b) = _
    rw [swap_swap _ _ _ (by omega) (by omega)]

example : (exT [2, 5, 3] [some "B", none, some "L"]).WF ∧ posOf 3 (-1) = some 2 ∧ posOf 3 0 = some 0 := by decide

/-! ## A new axis and its removal -/

/-- **C210, unsqueeze and squeeze.** Adding an axis and removing it gives the StreamTensor back if the axis is not spelled with a negative number (or is the first).
Missing: other negative spellings (`C210_new_axis_false`, `C210_negative_partial`). -/
theorem C210_new_axis_partial (x : STen α) (hx : x.t.WF) (d : Int) (a : Nat) (hd : posOf (x.t.ndim + 1) d = some a) (hs : 0 ≤ d ∨ a = 0) :
    ∃ y z, unsqueeze x d = .ok y ∧ squeezeDim y d = .ok z ∧ x.Same z := by
  have ha := posOf_lt hd
  have hl : x.t.names.length = x.t.ndim := hx.1
  have hsl : x.t.shape.length = x.t.ndim := rfl
  obtain ⟨y, hy, hm, hn, hsh, hv⟩ := C36_unsqueeze_partial x hx d a hd hs
  have hyl : y.t.ndim = x.t.ndim + 1 := by unfold Ten.ndim at *; rw [hsh, List.length_insertIdx_of_le_length (by omega)]
  have hyw : y.t.WF := by
    refine ⟨?_, ?_⟩
    · rw [hn, hsh, List.length_insertIdx_of_le_length (by omega), List.length_insertIdx_of_le_length (by omega), hx.1]
    · rw [hn]; exact okNames_insert a (by omega) hx.2
  obtain ⟨z, hz, hzm, hz1, -⟩ := C37_squeeze_dim_partial y hyw d a (by rw [hyl]; exact hd)
  obtain ⟨h1, h2, h3⟩ := hz1 (by rw [hsh, List.getElem?_insertIdx_self, if_pos (by omega)])
  refine ⟨y, z, hy, hz, ?_, ?_, by rw [hzm, hm], ?_⟩
  · rw [h2, hsh, List.eraseIdx_insertIdx_self]
  · rw [h1, hn, List.eraseIdx_insertIdx_self]
  · intro ix hin
    have hil : ix.length = x.t.ndim := inside_length hin
    have h4 := h3 (ix.insertIdx a 0) (by rw [List.getElem?_insertIdx_self, if_pos (by omega)])
    rw [List.eraseIdx_insertIdx_self] at h4
    rw [h4, hv]

example : (exT [2, 3] [some "B", some "L"]).WF ∧ posOf 3 1 = some 1 := by decide

/-- **C210 is false** for negative axes: after `x.unsqueeze(-1).squeeze(-1)` the last axis has no name any more. -/
theorem C210_new_axis_false : ∃ y z, unsqueeze ⟨exT [2, 3] [some "B", some "L"], exM2⟩ (-1) = .ok y ∧ squeezeDim y (-1) = .ok z ∧
    z.t.shape = [2, 3] ∧ z.t.names = [some "B", none] := ⟨_, _, rfl, rfl, rfl, rfl⟩

/-- **C210, negative spellings, exactly.** If the new axis is given by a negative number and is not the first, its removal gives back the data and metadata, and all names but that of the axis before
the new one, which is lost. Missing: that name. -/
theorem C210_negative_partial (x : STen α) (hx : x.t.WF) (d : Int) (a : Nat) (hd : posOf (x.t.ndim + 1) d = some (a + 1)) (hs : d < 0) :
    ∃ y z, unsqueeze x d = .ok y ∧ squeezeDim y d = .ok z ∧ STen.Same ⟨⟨x.t.shape, x.t.names.set a none, x.t.val⟩, x.md⟩ z := by
  have ha := posOf_lt hd
  have hl : x.t.names.length = x.t.ndim := hx.1
  have hsl : x.t.shape.length = x.t.ndim := rfl
  have hins : pyInsert x.t.names d none = x.t.names.insertIdx a none := by
    unfold pyInsert
    rw [posOf_iff] at hd
    simp only [if_pos hs]
    congr 1
    omega
  have hy : unsqueeze x d = .ok ⟨⟨x.t.shape.insertIdx (a + 1) 1, x.t.names.insertIdx a none, fun ix => x.t.val (ix.eraseIdx (a + 1))⟩, x.md⟩ := by
    unfold unsqueeze Ten.unsqueeze
    have e : x.t.unnamed.ndim = x.t.ndim := rfl
    simp only [e, normDim_ok hd, Except.bind_ok', hins]
    rw [rename_ok]
    · rfl
    · show (x.t.names.insertIdx a none).length = (x.t.shape.insertIdx (a + 1) 1).length
      rw [List.length_insertIdx_of_le_length (by omega), List.length_insertIdx_of_le_length (by omega), hx.1]
    · exact okNames_insert a (by omega) hx.2
  have hyl : (x.t.shape.insertIdx (a + 1) 1).length = x.t.ndim + 1 := by rw [List.length_insertIdx_of_le_length (by omega)]; rfl
  obtain ⟨z, hz, hzm, hz1, -⟩ := C37_squeeze_dim_partial ⟨⟨x.t.shape.insertIdx (a + 1) 1, x.t.names.insertIdx a none, fun ix => x.t.val (ix.eraseIdx (a + 1))⟩, x.md⟩
    ⟨by show (x.t.names.insertIdx a none).length = (x.t.shape.insertIdx (a + 1) 1).length
        rw [List.length_insertIdx_of_le_length (by omega), List.length_insertIdx_of_le_length (by omega), hx.1], okNames_insert a (by omega) hx.2⟩ d (a + 1)
    (by unfold Ten.ndim; rw [hyl]; exact hd)
  obtain ⟨h1, h2, h3⟩ := hz1 (by show (x.t.shape.insertIdx (a + 1) 1)[a + 1]? = _; rw [List.getElem?_insertIdx_self, if_pos (by omega)])
  refine ⟨_, z, hy, hz, ?_, ?_, hzm, ?_⟩
  · rw [h2]; exact List.eraseIdx_insertIdx_self _
  · rw [h1]
    show (x.t.names.insertIdx a none).eraseIdx (a + 1) = x.t.names.set a none
    apply List.ext_getElem?
    intro k
    rw [List.getElem?_eraseIdx, List.getElem?_insertIdx, List.getElem?_insertIdx, List.getElem?_set]
    by_cases h1 : k < a
    · rw [if_pos (by omega), if_pos h1, if_neg (by omega)]
    · by_cases h2 : k = a
      · subst h2; rw [if_pos (by omega), if_neg (by omega), if_pos rfl, if_pos (by omega), if_pos rfl, if_pos (by omega)]
      · rw [if_neg (by omega), if_neg (by omega), if_neg (by omega), if_neg (by omega)]; rfl
  · intro ix hin
    have hil : ix.length = x.t.ndim := inside_length hin
    have h4 := h3 (ix.insertIdx (a + 1) 0) (by rw [List.getElem?_insertIdx_self, if_pos (by omega)])
    rw [List.eraseIdx_insertIdx_self] at h4
    rw [h4]
    show x.t.val ((ix.insertIdx (a + 1) 0).eraseIdx (a + 1)) = _
    rw [List.eraseIdx_insertIdx_self]

example : (exT [2, 3] [some "B", some "L"]).WF ∧ posOf 3 (-1) = some (1 + 1) := by decide

/-! ## Splitting and concatenating -/

/-- The ends of the intervals. -/
def Ends (w : Int) (bs : List (Int × Int)) : Prop := ∀ b ∈ bs, b.2 ≤ w

theorem tiles_sum (w a : Int) (bs : List (Int × Int)) (ht : Tiles w a bs) (he : Ends w bs) (ha : a ≤ w) : (((bs.map fun b => (b.2 - b.1).toNat).sum : Nat) : Int) = w - a := by
  induction bs generalizing a with
  | nil => simp only [Tiles] at ht; simp; omega
  | cons b bs ih =>
    obtain ⟨h1, h2, h3⟩ := ht
    have := he b (by simp)
    have := ih b.2 h3 (fun c hc => he c (by simp [hc])) this
    simp only [List.map_cons, List.sum_cons, Int.natCast_add, this]
    omega

theorem piece_size (t : Ten α) (a : Nat) (ha : a < t.shape.length) (i j : Int) : (t.piece a i j).shape.getD a 0 = (j - i).toNat := by
  simp [Ten.piece, List.getD_eq_getElem?_getD, ha]

/-- The entries of consecutive pieces, concatenated. -/
theorem catVal_pieces (t : Ten α) (a : Nat) (ha : a < t.shape.length) (w : Int) (bs : List (Int × Int)) : ∀ (b : Int × Int) (s : Nat) (ix : List Nat), Tiles w s (b :: bs) → a < ix.length →
    catVal a (t.piece a b.1 b.2) (bs.map fun c => t.piece a c.1 c.2) ix = t.val (ix.modify a (· + s)) := by
  induction bs with
  | nil =>
    intro b s ix ht hix
    obtain ⟨h1, h2, h3⟩ := ht
    show t.val (ix.modify a (· + b.1.toNat)) = _
    rw [h1]; rfl
  | cons c bs ih =>
    intro b s ix ht hix
    obtain ⟨h1, h2, h3⟩ := ht
    simp only [List.map_cons, catVal]
    rw [piece_size t a ha]
    split
    · show t.val (ix.modify a (· + b.1.toNat)) = _
      rw [h1]; rfl
    · next hlt =>
      have e2 : b.2 = ((b.2.toNat : Nat) : Int) := by omega
      rw [ih c b.2.toNat (ix.modify a (· - (b.2 - b.1).toNat)) (by rw [← e2]; exact h3) (by simpa using hix)]
      congr 1
      apply List.ext_getElem?
      intro k
      simp only [List.getElem?_modify]
      by_cases hk : a = k
      · subst hk
        rw [List.getElem?_eq_getElem hix]
        rw [List.getD_eq_getElem?_getD, List.getElem?_eq_getElem hix, Option.getD_some] at hlt
        simp only [if_true, Option.map_some]
        simp; omega
      · simp [hk]

/-- Concatenating consecutive pieces of a tensor gives the tensor. -/
theorem catTen_pieces (t : Ten α) (ht : t.WF) (d : Int) (a : Nat) (hd : posOf t.ndim d = some a) (w : Nat) (hw : t.shape[a]? = some w) (b : Int × Int) (bs : List (Int × Int))
    (h : Tiles w 0 (b :: bs)) (he : Ends w (b :: bs)) :
    ∃ u, catTen (t.piece a b.1 b.2) (bs.map fun c => t.piece a c.1 c.2) d = .ok u ∧ u.shape = t.shape ∧ u.names = t.names ∧ ∀ ix : List Nat, ix.length = t.ndim → u.val ix = t.val ix := by
  have ha : a < t.shape.length := posOf_lt hd
  have hnd : (t.piece a b.1 b.2).ndim = t.ndim := by simp [Ten.piece, Ten.ndim]
  have her : ∀ c : Int × Int, (t.piece a c.1 c.2).shape.eraseIdx a = t.shape.eraseIdx a := by
    intro c
    apply List.ext_getElem?
    intro k
    simp only [Ten.piece, List.getElem?_eraseIdx, List.getElem?_set]
    by_cases hk : k < a
    · simp [hk]; omega
    · rw [if_neg hk, if_neg (by omega), if_neg hk]
  have hsum := tiles_sum w 0 (b :: bs) h he (by omega)
  refine ⟨⟨t.shape, t.names, catVal a (t.piece a b.1 b.2) (bs.map fun c => t.piece a c.1 c.2)⟩, ?_, rfl, rfl, ?_⟩
  · unfold catTen
    have hun : unifyAll (t.piece a b.1 b.2).names (bs.map fun c => t.piece a c.1 c.2) = .ok t.names := by
      apply unifyAll_self t.names
      intro u hu
      rw [List.mem_map] at hu
      obtain ⟨c, -, rfl⟩ := hu
      rfl
    rw [hnd, normDim_ok hd, Except.bind_ok', if_pos, hun, Except.bind_ok', if_pos ((namesOK_iff _).2 ht.2)]
    · congr 2
      have e1 : (((t.piece a b.1 b.2) :: bs.map fun c => t.piece a c.1 c.2).map fun u => u.shape.getD a 0).sum = w := by
        rw [← List.map_cons (f := fun c : Int × Int => t.piece a c.1 c.2), List.map_map]
        have : ((fun u : Ten α => u.shape.getD a 0) ∘ fun c : Int × Int => t.piece a c.1 c.2) = fun c => (c.2 - c.1).toNat := by
          funext c; exact piece_size t a ha _ _
        rw [this]; omega
      rw [e1]
      show (t.shape.set a _).set a w = t.shape
      rw [List.set_set]
      apply List.ext_getElem?
      intro k
      rw [List.getElem?_set]
      by_cases hk : a = k
      · subst hk; rw [if_pos rfl, if_pos ha, hw]
      · simp [hk]
    · rw [List.all_eq_true]
      intro u hu
      rw [List.mem_map] at hu
      obtain ⟨c, -, rfl⟩ := hu
      rw [decide_eq_true_eq]
      refine ⟨by simp [Ten.piece], ?_⟩
      rw [her c, her b]
  · intro ix hix
    show catVal _ _ _ ix = _
    rw [catVal_pieces t a ha w bs b 0 ix h (by rw [hix]; exact ha)]
    congr 1
    exact List.modify_id a ix

/-- The pieces of a tensor are consecutive intervals of the axis. -/
theorem split_tiles (t : Ten α) (a : Nat) (w : Nat) (hw : t.shape[a]? = some w) (arg : SplitArg) (harg : TorchSplit w arg) (h0 : w = 0 → ∃ ss, arg = .sections ss ∧ ss ≠ []) :
    ∃ b bs, t.split a arg = .ok ((b :: bs).map fun c => t.piece a c.1 c.2) ∧ Tiles w 0 (b :: bs) ∧ Ends w (b :: bs) ∧
      (∀ k : Int, arg = .size k → b :: bs = sizeBounds w k) ∧ ∀ ss, arg = .sections ss → b :: bs = sectionBounds 0 ss := by
  have hg : t.shape.getD a 0 = w := by rw [List.getD_eq_getElem?_getD, hw]; rfl
  cases arg with
  | size k =>
    have hk : 0 < k := harg
    have hw0 : w ≠ 0 := by
      intro h
      obtain ⟨ss, h1, -⟩ := h0 h
      cases h1
    have h1 := (sizeBounds_tiles w k hk w 0 (by omega)).1
    have h2 : Ends w (sizeBounds w k) := by
      intro b hb
      unfold sizeBounds at hb
      rw [List.mem_map] at hb
      obtain ⟨i, -, rfl⟩ := hb
      simp only; omega
    have h3 : Tiles w 0 (sizeBounds w k) := by
      rw [show min (0 : Int) w = 0 by omega] at h1
      exact h1
    cases e : sizeBounds w k with
    | nil => rw [e] at h3; simp only [Tiles] at h3; omega
    | cons b bs =>
      rw [e] at h3 h2
      refine ⟨b, bs, ?_, h3, h2, fun k' h => by simp at h; rw [← h]; exact e.symm, fun ss h => by simp at h⟩
      simp only [Ten.split, hg]
      rw [if_neg (by omega), if_neg hw0, e]
  | sections ss =>
    obtain ⟨h1, h2⟩ := (harg : (∀ s ∈ ss, 0 ≤ s) ∧ total ss = w)
    rw [total_isum] at h2
    have h3 := sectionBounds_tiles w ss 0 h1 (by omega)
    have h4 : ∀ (ss : List Int) (acc : Int), (∀ s ∈ ss, 0 ≤ s) → acc + isum ss ≤ w → Ends w (sectionBounds acc ss) := by
      intro ss
      induction ss with
      | nil => intro acc _ _ b hb; simp [sectionBounds] at hb
      | cons s ss ih =>
        intro acc hn hle b hb
        simp only [isum] at hle
        have := isum_nonneg ss (fun s hs => hn s (by simp [hs]))
        simp only [sectionBounds, List.mem_cons] at hb
        rcases hb with rfl | hb
        · simp only; omega
        · exact ih (acc + s) (fun s hs => hn s (by simp [hs])) (by omega) b hb
    cases e : sectionBounds 0 ss with
    | nil =>
      cases ss with
      | nil =>
        simp [isum] at h2
        obtain ⟨ss', h5, h6⟩ := h0 (by omega)
        cases h5; exact absurd rfl h6
      | cons s ss => simp [sectionBounds] at e
    | cons b bs =>
      have h5 := h4 ss 0 h1 (by omega)
      rw [e] at h3 h5
      refine ⟨b, bs, ?_, h3, h5, fun k' h => by simp at h, fun ss' h => by simp at h; rw [← h]; exact e.symm⟩
      simp only [Ten.split, hg]
      rw [if_neg, e]
      rintro (h | h)
      · rw [List.any_eq_true] at h
        obtain ⟨s, hs, h⟩ := h
        have := h1 s hs
        simp at h; omega
      · exact h h2

/-- One piece that is everything. -/
theorem same_single (x : STen α) (a w : Nat) (hw : x.t.shape[a]? = some w) (b : Int × Int) (h : Tiles w 0 [b]) (he : Ends w [b]) (m : Meta) (hm : m = x.md) :
    x.Same ⟨x.t.piece a b.1 b.2, m⟩ := by
  obtain ⟨h1, h2, h3⟩ := h
  have h4 := he b (by simp)
  simp only [Tiles] at h3
  have ha : a < x.t.shape.length := (List.getElem?_eq_some_iff.1 hw).1
  refine ⟨?_, rfl, hm, ?_⟩
  · show x.t.shape.set a (b.2 - b.1).toNat = _
    apply List.ext_getElem?
    intro k
    rw [List.getElem?_set]
    by_cases hk : a = k
    · subst hk; rw [if_pos rfl, if_pos ha, hw]; congr 1; omega
    · simp [hk]
  · intro ix _
    show x.t.val (ix.modify a (· + b.1.toNat)) = _
    rw [h1]
    congr 1
    exact List.modify_id a ix

theorem piece_wf (t : Ten α) (ht : t.WF) (a : Nat) (i j : Int) : (t.piece a i j).WF := ⟨by simp [Ten.piece, ht.1], ht.2⟩

/-- **C210, splitting along another axis.** Splitting along an axis that is neither batch nor length and concatenating the pieces gives the StreamTensor back. Missing: StreamTensors with chunk indices, whose
pieces `cat` refuses (C24, C32). -/
theorem C210_split_other_partial (x : STen α) (hx : x.t.WF) (hc : x.md.chunk = none) (d : Int) (a : Nat) (hd : posOf x.t.ndim d = some a) (hB : x.t.names[a]? ≠ some BATCH)
    (hL : x.t.names[a]? ≠ some LENGTH) (w : Nat) (hw : x.t.shape[a]? = some w) (arg : SplitArg) (harg : TorchSplit w arg) (hne : arg ≠ .sections []) :
    ∃ y, splitCat x arg d = .ok (.stream y) ∧ x.Same y := by
  have ha : a < x.t.shape.length := posOf_lt hd
  have hll : x.t.names.length = x.t.ndim := hx.1
  have hg : x.t.shape.getD a 0 = w := by rw [List.getD_eq_getElem?_getD, hw]; rfl
  have hget : x.t.names[a]? = some (x.t.names[a]'(by have := hx.1; omega)) := List.getElem?_eq_getElem _
  have hsplit : ∀ ts, x.t.split a arg = .ok ts → split x arg d = .ok (ts.map fun t => ⟨t, x.md⟩) := by
    intro ts hts
    unfold split
    rw [pyGet_names (by rw [hll]; exact hd) _ hget, Except.bind_ok', normDim_ok hd, Except.bind_ok', hts, Except.bind_ok', if_neg, if_neg]
    · intro h; rw [h] at hget; exact hB hget
    · intro h; rw [h] at hget; exact hL hget
  by_cases h0 : w = 0 ∧ ∃ k, arg = .size k
  · obtain ⟨h0, k, rfl⟩ := h0
    have hk : 0 < k := harg
    refine ⟨x, ?_, rfl, rfl, rfl, fun _ _ => rfl⟩
    unfold splitCat
    rw [hsplit [x.t] (by simp only [Ten.split, hg]; rw [if_neg (by omega), if_pos h0]), Except.bind_ok']
    rfl
  · obtain ⟨b, bs, e, ht, he, -, -⟩ := split_tiles x.t a w hw arg harg (by
      intro hw0
      cases arg with
      | size k => exact absurd ⟨hw0, k, rfl⟩ h0
      | sections ss => exact ⟨ss, rfl, fun h => hne (by rw [h])⟩)
    unfold splitCat
    rw [hsplit _ e, Except.bind_ok', List.map_map, List.map_cons]
    cases bs with
    | nil => exact ⟨_, rfl, same_single x a w hw b ht he x.md rfl⟩
    | cons c bs =>
      obtain ⟨u, hu, h1, h2, h3⟩ := catTen_pieces x.t hx d a hd w hw b (c :: bs) ht he
      refine ⟨⟨u, x.md⟩, ?_, h1, h2, rfl, fun ix hix => h3 ix (inside_length hix)⟩
      show cat (.stream ⟨x.t.piece a b.1 b.2, x.md⟩) (((c :: bs).map ((fun t => (⟨t, x.md⟩ : STen α)) ∘ fun c => x.t.piece a c.1 c.2)).map .stream) d = _
      rw [(C32_cat_feature_partial ⟨x.t.piece a b.1 b.2, x.md⟩ _ (by simp) d a ?_ ?_).2 ?_]
      · rw [List.map_map]
        show (catTen (x.t.piece a b.1 b.2) ((c :: bs).map fun c => x.t.piece a c.1 c.2) d).map _ = _
        rw [hu]; rfl
      · intro y hy
        have : ∃ c : Int × Int, y = ⟨x.t.piece a c.1 c.2, x.md⟩ := by
          rcases List.mem_cons.1 hy with rfl | hy
          · exact ⟨b, rfl⟩
          · obtain ⟨c, -, rfl⟩ := List.mem_map.1 hy; exact ⟨c, rfl⟩
        obtain ⟨c, rfl⟩ := this
        refine ⟨piece_wf _ hx _ _ _, ?_, hB, hL⟩
        show posOf (x.t.shape.set a _).length d = _
        rw [List.length_set]; exact hd
      · intro y hy
        rcases List.mem_cons.1 hy with rfl | hy
        · exact hc
        · obtain ⟨c, -, rfl⟩ := List.mem_map.1 hy; exact hc
      · intro y hy
        obtain ⟨c, -, rfl⟩ := List.mem_map.1 (List.dropLast_subset _ hy)
        rfl

example : (exT [2, 4, 3] [some "B", none, some "L"]).WF ∧ exM2.chunk = none ∧ posOf 3 (-2) = some 1 ∧ TorchSplit 4 (.sections [1, 3]) :=
  ⟨by decide, by decide, by decide, by decide, by decide⟩

theorem zipStream_t (ts : List (Ten α)) (ms : List Meta) (h : ts.length = ms.length) : (zipStream ts ms).map (·.t) = ts := by
  induction ts generalizing ms with
  | nil => cases ms <;> simp_all [zipStream]
  | cons t ts ih =>
    cases ms with
    | nil => simp at h
    | cons m ms => simp [zipStream, ih ms (by simpa using h)]

theorem zipStream_md (ts : List (Ten α)) (ms : List Meta) (h : ts.length = ms.length) : (zipStream ts ms).map (·.md) = ms := by
  induction ts generalizing ms with
  | nil => cases ms <;> simp_all [zipStream]
  | cons t ts ih =>
    cases ms with
    | nil => simp at h
    | cons m ms => simp [zipStream, ih ms (by simpa using h)]

/-- Concatenating StreamTensors along batch: data and metadata. -/
theorem cat_batch_step (y : STen α) (ys : List (STen α)) (hne : ys ≠ []) (d : Int) (b : Nat) (hw : ∀ z ∈ y :: ys, z.t.WF ∧ posOf z.t.ndim d = some b) (hb : y.t.names[b]? = some BATCH) (u : Ten α) (m : Meta)
    (hu : catTen y.t (ys.map (·.t)) d = .ok u) (hm : catBatch (y.md :: ys.map (·.md)) = .ok m) : cat (.stream y) (ys.map .stream) d = .ok (.stream ⟨u, m⟩) := by
  have hst : streams (Opd.stream y :: ys.map .stream) = y :: ys := streams_map (y :: ys)
  have hstep : cat (.stream y) (ys.map .stream) d = catBatchDim (.stream y) (ys.map .stream) d := by
    cases ys with
    | nil => exact absurd rfl hne
    | cons z zs =>
      unfold cat
      simp only [List.map_cons] at hst ⊢
      rw [hst, dimIs_ok BATCH d b _ hw, Except.bind_ok', if_pos]
      simp [hb]
  rw [hstep]
  unfold catBatchDim
  rw [← List.map_cons (f := Opd.stream), allStream_map, List.map_map]
  have hcomp : (Opd.ten ∘ Opd.stream : STen α → Ten α) = (·.t) := rfl
  simp only [hcomp, Opd.ten, hu, Except.bind_ok', List.map_cons, hm]

/-- **C210, splitting along batch.** Splitting a batch with rows into batches and concatenating them gives it back. -/
theorem C210_split_batch (x : STen α) (b l : Nat) (hx : x.Describes b l) (h0 : x.md.ids ≠ []) (d : Int) (hd : posOf x.t.ndim d = some b) (arg : SplitArg)
    (harg : TorchSplit x.md.ids.length arg) : ∃ y, splitCat x arg d = .ok (.stream y) ∧ x.Same y := by
  have hll : x.t.names.length = x.t.ndim := hx.wf.1
  have hpos : 0 < x.md.ids.length := List.length_pos_iff.2 h0
  obtain ⟨c, bs, e, ht, he, hsz, hsec⟩ := split_tiles x.t b _ hx.rows arg harg (fun h => by omega)
  have hmd : ∃ ps, x.md.splitBatch arg = .ok ps ∧ ps.length = (c :: bs).length ∧ catBatch ps = .ok x.md := by
    cases arg with
    | size k =>
      have hk : 0 < k := harg
      obtain ⟨ps, h1, h2, h3, h4⟩ := C17_split_batch_size x.md hx.mdwf h0 k.toNat (by omega)
      refine ⟨ps, by rw [← h1]; congr 2; omega, ?_, h4⟩
      rw [hsz k rfl, sizeBounds, List.length_map, rangePositions_length _ _ _ hk]
      -- the number of pieces: the last one is not empty, all rows are in some piece
      have hr : x.md.rows.length = x.md.ids.length := rows_length x.md hx.mdwf
      have hsum : ∀ (ps : List Meta) (n : Nat), (∀ p ∈ ps, p.rows.length ≤ n) → ((ps.map rows).flatten).length ≤ ps.length * n := by
        intro ps n
        induction ps with
        | nil => simp
        | cons p ps ih =>
          intro h
          have h5 := h p (by simp)
          have h6 := ih (fun q hq => h q (by simp [hq]))
          simp only [List.map_cons, List.flatten_cons, List.length_append, List.length_cons, Nat.add_mul]
          omega
      have hle := hsum ps k.toNat (fun p hp => by
        obtain ⟨i, hi⟩ := List.getElem?_of_mem hp
        rw [(h3 i p hi).1]; simp)
      rw [h2, hr] at hle
      have hgt : (ps.length - 1) * k.toNat < x.md.ids.length := by
        have hpl : 0 < ps.length := by
          cases ps with
          | nil => rw [List.length_nil, Nat.zero_mul] at hle; omega
          | cons => simp
        obtain ⟨p, hp⟩ : ∃ p, ps[ps.length - 1]? = some p := ⟨_, List.getElem?_eq_getElem (by omega)⟩
        have := (h3 _ p hp)
        rw [this.1] at this
        have h5 := this.2
        by_contra hcon
        apply h5
        rw [List.drop_eq_nil_of_le (by omega), List.take_nil]
      have hkn : ((k.toNat : Nat) : Int) = k := by omega
      symm
      have hq : (((x.md.ids.length : Int) - 0 + k - 1) / k) = ps.length := by
        have hlen : 0 < ps.length := by
          cases ps with
          | nil => rw [List.length_nil, Nat.zero_mul] at hle; omega
          | cons => simp
        have a1 : ((ps.length : Int)) * k ≤ (x.md.ids.length : Int) - 0 + k - 1 := by
          have : (((ps.length - 1) * k.toNat : Nat) : Int) < x.md.ids.length := by exact_mod_cast hgt
          rw [Int.natCast_mul, hkn] at this
          have h7 : ((ps.length - 1 : Nat) : Int) = ps.length - 1 := by omega
          rw [h7, Int.sub_mul] at this
          omega
        have a2 : (x.md.ids.length : Int) - 0 + k - 1 < ((ps.length : Int) + 1) * k := by
          have : (x.md.ids.length : Int) ≤ ((ps.length * k.toNat : Nat) : Int) := by exact_mod_cast hle
          rw [Int.natCast_mul, hkn] at this
          rw [Int.add_mul]
          omega
        apply Int.le_antisymm
        · exact Int.lt_add_one_iff.1 (Int.ediv_lt_of_lt_mul hk a2)
        · exact Int.le_ediv_of_mul_le hk a1
      rw [hq]; rfl
    | sections ss =>
      obtain ⟨h1, h2⟩ := (harg : (∀ s ∈ ss, 0 ≤ s) ∧ total ss = x.md.ids.length)
      obtain ⟨ps, h3, h4, h5, h6⟩ := (C17_split_batch_sections x.md hx.mdwf h0 ss).1 h2 h1
      refine ⟨ps, h3, ?_, h6⟩
      have hl := congrArg List.length h4
      rw [List.length_map] at hl
      have : ∀ (ss : List Int) (a : Int), (sectionBounds a ss).length = ss.length := by
        intro ss
        induction ss with
        | nil => intro a; rfl
        | cons s ss ih => intro a; simp [sectionBounds, ih]
      rw [hsec ss rfl, this, hl]
  obtain ⟨ps, hps, hlen, hcat⟩ := hmd
  have hsplit : split x arg d = .ok (zipStream ((c :: bs).map fun c => x.t.piece b c.1 c.2) ps) := by
    unfold split
    rw [pyGet_names (by rw [hll]; exact hd) _ hx.batch, Except.bind_ok', normDim_ok hd, Except.bind_ok', e, Except.bind_ok', if_neg (by decide), if_pos rfl, hps]
    rfl
  cases ps with
  | nil => simp at hlen
  | cons p ps =>
    unfold splitCat
    rw [hsplit, Except.bind_ok']
    simp only [List.map_cons, zipStream]
    cases bs with
    | nil =>
      have hps0 : ps = [] := List.length_eq_zero_iff.1 (by simpa using hlen)
      subst hps0
      refine ⟨_, rfl, same_single x b _ hx.rows c ht he p ?_⟩
      have : catBatch [p] = .ok p := rfl
      rw [this] at hcat
      exact Except.ok.inj hcat
    | cons c' bs =>
      obtain ⟨u, hu, h1, h2, h3⟩ := catTen_pieces x.t hx.wf d b hd _ hx.rows c (c' :: bs) ht he
      refine ⟨⟨u, x.md⟩, ?_, h1, h2, rfl, fun ix hix => h3 ix (inside_length hix)⟩
      have hpl : ((c' :: bs).map fun c => x.t.piece b c.1 c.2).length = ps.length := by simpa using hlen.symm
      apply cat_batch_step _ _ _ d b
      · intro z hz
        have : ∃ c : Int × Int, z.t = x.t.piece b c.1 c.2 := by
          rcases List.mem_cons.1 hz with rfl | hz
          · exact ⟨c, rfl⟩
          · have h4 := List.mem_map_of_mem (f := fun z : STen α => z.t) hz
            have h5 := zipStream_t _ _ hpl
            rw [h5] at h4
            obtain ⟨c, -, h6⟩ := List.mem_map.1 h4
            exact ⟨c, h6.symm⟩
        obtain ⟨c, hc⟩ := this
        rw [hc]
        refine ⟨piece_wf _ hx.wf _ _ _, ?_⟩
        show posOf (x.t.shape.set b _).length d = _
        rw [List.length_set]; exact hd
      · exact hx.batch
      · have h5 := zipStream_t _ _ hpl
        rw [h5]
        exact hu
      · have h5 := zipStream_md _ _ hpl
        rw [h5]
        exact hcat
      · intro h
        have := congrArg List.length h
        rw [zipStream_length _ _ hpl] at this
        simp at this

example : ∃ x : STen (List Nat), x.Describes 0 2 ∧ x.md.ids ≠ [] ∧ posOf x.t.ndim 0 = some 0 ∧ TorchSplit x.md.ids.length (.size 1) :=
  ⟨_, exBFL_describes, by decide, rfl, (by decide : (0 : Int) < 1)⟩

theorem lastStart_bounds (w a : Int) (b : Int × Int) (bs : List (Int × Int)) (h : Tiles w a (b :: bs)) :
    (∀ c ∈ (b :: bs).dropLast, c.2 ≤ lastStart (b :: bs)) ∧ (bs ≠ [] → ∃ c ∈ (b :: bs).dropLast, c.2 = lastStart (b :: bs)) ∧ b.1 ≤ lastStart (b :: bs) := by
  induction bs generalizing a b with
  | nil => exact ⟨by simp, by simp, by simp [lastStart]⟩
  | cons c bs ih =>
    obtain ⟨h1, h2, h3⟩ := h
    obtain ⟨h4, h5, h6⟩ := ih b.2 c h3
    have h7 : c.1 = b.2 := h3.1
    have e : lastStart (b :: c :: bs) = lastStart (c :: bs) := rfl
    rw [e]
    have hd : (b :: c :: bs).dropLast = b :: (c :: bs).dropLast := rfl
    rw [hd]
    refine ⟨?_, ?_, by omega⟩
    · intro q hq
      rcases List.mem_cons.1 hq with rfl | hq
      · omega
      · exact h4 q hq
    · intro _
      cases bs with
      | nil => exact ⟨b, by simp, by simp [lastStart, h7]⟩
      | cons c' bs =>
        obtain ⟨q, hq, h8⟩ := h5 (by simp)
        exact ⟨q, List.mem_cons_of_mem _ hq, h8⟩

theorem exact_torch {w : Nat} {arg : SplitArg} (h : ExactSplit w arg) : TorchSplit w arg := by
  cases arg with
  | size k => exact h
  | sections ss => exact ⟨fun s hs => by have := h.1 s hs; omega, h.2⟩

/-- **C210, splitting along length, exactly.** A batch as wide as its longest sequence, split into pieces along length: concatenating the pieces gives it back if and only if every sequence reaches the
last piece, and into it if it ends there. Missing: batches with shorter sequences, for which the concatenation raises (C31) or has other flags (C23). -/
theorem C210_split_length_partial (x : STen α) (b l : Nat) (hx : x.Describes b l) (w : Nat) (hw : x.t.shape[l]? = some w) (hn : x.md.Longest w) (hpos : 0 < w) (d : Int)
    (hd : posOf x.t.ndim d = some l) (arg : SplitArg) (harg : ExactSplit w arg) :
    (∃ y, splitCat x arg d = .ok (.stream y) ∧ x.Same y) ↔
      ∀ k r, x.md.row k = some r → lastPieceStart w arg ≤ r.len ∧ (r.eos = true → lastPieceStart w arg < r.len) := by
  have hll : x.t.names.length = x.t.ndim := hx.wf.1
  have hlt : l < x.t.shape.length := posOf_lt hd
  have h0 : x.md.ids ≠ [] := by
    intro h
    have h1 := hx.mdwf.2.2.1
    rw [h] at h1
    have h2 := hn.1
    rw [List.eq_nil_of_length_eq_zero h1] at h2
    simp at h2
  obtain ⟨c, cs, e2, ht, he, hsz, hsec⟩ := split_tiles x.t l w hw arg (exact_torch harg) (fun h => by omega)
  have ebs : x.md.splitLength arg = lengthPieces x.md (c :: cs) ∧ Strict (c :: cs) ∧ lastStart (c :: cs) = lastPieceStart w arg := by
    cases arg with
    | size k =>
      have hk : 0 < k := harg
      rw [hsz k rfl]
      refine ⟨?_, (sizeBounds_tiles w k hk _ 0 (Nat.le_refl _)).2, sizeBounds_lastStart _ _ hk (by omega)⟩
      unfold splitLength
      simp only [hn.max, Except.bind_ok']
      rw [if_neg (by omega), if_neg (by omega)]
    | sections ss =>
      obtain ⟨h1, h2⟩ := harg
      rw [total_isum] at h2
      rw [hsec ss rfl]
      refine ⟨?_, sectionBounds_strict _ _ h1, ?_⟩
      · unfold splitLength
        simp only [hn.max, Except.bind_ok']
        rw [if_neg (by omega)]
      · have hne : ss ≠ [] := by intro h; subst h; simp [isum] at h2; omega
        rw [sectionBounds_lastStart ss 0 hne, h2, lastPieceStart, List.getLastD_eq_getLast?, List.getLast?_eq_some_getLast hne]
        simp
  obtain ⟨e1, hs, hls⟩ := ebs
  obtain ⟨ps, e3, hf⟩ := pieces_spec x.md hx.mdwf w hn (c :: cs) 0 (by omega) ht
  have hrt := roundtrip_iff x.md hx.mdwf w hn hpos (c :: cs) ht hs ps hf
  rw [hls] at hrt
  have hpl : ((c :: cs).map fun c => x.t.piece l c.1 c.2).length = ps.length := by rw [List.length_map]; exact hf.length_eq
  have hsplit : split x arg d = .ok (zipStream ((c :: cs).map fun c => x.t.piece l c.1 c.2) ps) := by
    unfold split
    rw [pyGet_names (by rw [hll]; exact hd) _ hx.length, Except.bind_ok', normDim_ok hd, Except.bind_ok', e2, Except.bind_ok', if_pos rfl, e1, e3]
    rfl
  have hdesc := (zip_lines x b l hx w w hw hn (c :: cs) ps hf 0 (by omega) ht ((c :: cs).map fun c => x.t.piece l c.1 c.2) (by
    intro i q hq
    exact ⟨_, by rw [List.getElem?_map, hq]; rfl, q.2, rfl, Int.le_refl _⟩)).1
  have hzt := zipStream_t _ _ hpl
  have hzm := zipStream_md _ _ hpl
  -- what a piece that is not the last knows about its rows
  have hpad : (∃ y ∈ (zipStream ((c :: cs).map fun c => x.t.piece l c.1 c.2) ps).dropLast, ∃ n ∈ y.md.lengths, n < y.t.shape.getD l 0) ↔
      ∃ q ∈ (c :: cs).dropLast, ∃ k r, x.md.row k = some r ∧ r.len < q.2 := by
    have hone : ∀ (i : Nat) (y : STen α) (q : Int × Int), (zipStream ((c :: cs).map fun c => x.t.piece l c.1 c.2) ps)[i]? = some y → (c :: cs)[i]? = some q →
        ((∃ n ∈ y.md.lengths, n < y.t.shape.getD l 0) ↔ ∃ k r, x.md.row k = some r ∧ r.len < q.2) := by
      intro i y q hy hq
      rw [zipStream_get, List.getElem?_map, hq, Option.map_some] at hy
      obtain ⟨hy1, hy2⟩ := hy
      have hp : IsPiece x.md w q y.md := by
        obtain ⟨q', hq', hp⟩ := forall₂_get hf i y.md hy2
        rw [hq] at hq'
        rw [Option.some.inj hq']
        exact hp
      have hq12 := hs q (List.mem_of_getElem? hq)
      rw [← Option.some.inj hy1, piece_size x.t l hlt]
      constructor
      · rintro ⟨n, hn1, hn2⟩
        obtain ⟨k, r', hr', rfl⟩ := lengths_row hp.2.1 hn1
        have hk : k < x.md.ids.length := by
          rw [← hp.2.2.1]
          by_contra hcon
          have : y.md.row k = none := by
            unfold Meta.row
            rw [List.getElem?_eq_none (by omega)]
          rw [this] at hr'
          cases hr'
        obtain ⟨r, hr, -⟩ := row_some x.md hx.mdwf k hk
        have h1 := hp.2.2.2.2 k r hr
        rw [h1] at hr'
        refine ⟨k, r, hr, ?_⟩
        rw [← Option.some.inj hr'] at hn2
        simp only [pieceRow] at hn2
        omega
      · rintro ⟨k, r, hr, hlt2⟩
        have h1 := hp.2.2.2.2 k r hr
        refine ⟨_, row_len_mem h1, ?_⟩
        have hb := row_bounds hn hr
        simp only [pieceRow]
        omega
    constructor
    · rintro ⟨y, hy, h⟩
      obtain ⟨i, hi⟩ := List.getElem?_of_mem hy
      rw [List.getElem?_dropLast] at hi
      split at hi
      · next hlti =>
        rw [zipStream_length _ _ hpl, List.length_map] at hlti
        have hq : (c :: cs)[i]? = some ((c :: cs)[i]'(by omega)) := List.getElem?_eq_getElem _
        refine ⟨(c :: cs)[i]'(by omega), List.mem_of_getElem? (i := i) ?_, (hone i y _ hi hq).1 h⟩
        rw [List.getElem?_dropLast, if_pos hlti, hq]
      · cases hi
    · rintro ⟨q, hq, h⟩
      obtain ⟨i, hi⟩ := List.getElem?_of_mem hq
      rw [List.getElem?_dropLast] at hi
      split at hi
      · next hlti =>
        have hzl : (zipStream ((c :: cs).map fun c => x.t.piece l c.1 c.2) ps).length = (c :: cs).length := by rw [zipStream_length _ _ hpl, List.length_map]
        have hy : (zipStream ((c :: cs).map fun c => x.t.piece l c.1 c.2) ps)[i]? = some ((zipStream ((c :: cs).map fun c => x.t.piece l c.1 c.2) ps)[i]'(by omega)) := List.getElem?_eq_getElem _
        refine ⟨(zipStream ((c :: cs).map fun c => x.t.piece l c.1 c.2) ps)[i]'(by omega), List.mem_of_getElem? (i := i) ?_, (hone i _ q hy hi).2 h⟩
        rw [List.getElem?_dropLast, if_pos (by omega), hy]
      · cases hi
  obtain ⟨hb1, hb2, hb3⟩ := lastStart_bounds w 0 c cs ht
  rw [hls] at hb1 hb2 hb3
  have hrowb : ∀ k r, x.md.row k = some r → 0 ≤ r.len := fun k r hr => (row_bounds hn hr).1
  unfold splitCat
  rw [hsplit, Except.bind_ok']
  cases ps with
  | nil => simp at hpl
  | cons p ps =>
    cases cs with
    | nil =>
      have hps0 : ps = [] := List.length_eq_zero_iff.1 (by simpa using hpl.symm)
      subst hps0
      have hl0 : lastPieceStart w arg = 0 := by rw [← hls]; exact ht.1
      have hsingle : catLength [p] = .ok p := rfl
      rw [hsingle] at hrt
      show (∃ y, (Except.ok (Opd.stream ⟨x.t.piece l c.1 c.2, p⟩) : Py (Opd α)) = .ok (.stream y) ∧ x.Same y) ↔ _
      constructor
      · rintro ⟨y, h1, h2⟩
        have h3 : (⟨x.t.piece l c.1 c.2, p⟩ : STen α) = y := by simpa using h1
        have h4 : p = x.md := by rw [← h2.md, ← h3]
        intro k r hr
        exact ⟨by rw [hl0]; exact hrowb k r hr, hrt.1 (by rw [h4]) k r hr⟩
      · intro h
        have h4 : p = x.md := Except.ok.inj (hrt.2 fun k r hr => (h k r hr).2)
        exact ⟨_, rfl, same_single x l w hw c ht he p h4⟩
    | cons c' cs =>
      obtain ⟨ys, hys⟩ : ∃ ys, ys = zipStream ((c' :: cs).map fun c => x.t.piece l c.1 c.2) ps := ⟨_, rfl⟩
      have hz : zipStream ((c :: c' :: cs).map fun c => x.t.piece l c.1 c.2) (p :: ps) = ⟨x.t.piece l c.1 c.2, p⟩ :: ys := by rw [hys]; rfl
      rw [hz] at hdesc hzt hzm hpad ⊢
      show (∃ y, cat (.stream ⟨x.t.piece l c.1 c.2, p⟩) (ys.map .stream) d = .ok (.stream y) ∧ x.Same y) ↔ _
      have hyne : ys ≠ [] := by
        intro h
        rw [h] at hzt
        have := congrArg List.length hzt
        simp at this
      have hst : streams (Opd.stream ⟨x.t.piece l c.1 c.2, p⟩ :: ys.map .stream) = ⟨x.t.piece l c.1 c.2, p⟩ :: ys := streams_map (_ :: ys)
      have hdx : ∀ y ∈ streams (Opd.stream ⟨x.t.piece l c.1 c.2, p⟩ :: ys.map .stream), y.Describes b l ∧ posOf y.t.ndim d = some l := by
        rw [hst]
        intro y hy
        obtain ⟨h1, h2, h3⟩ := hdesc y hy
        refine ⟨h3, ?_⟩
        have : y.t.ndim = x.t.ndim := by unfold Ten.ndim; rw [← h3.wf.1, h2]; exact hll
        rw [this]; exact hd
      have hstep := cat_length_step (.stream ⟨x.t.piece l c.1 c.2, p⟩) (ys.map .stream) (by simpa using hyne) b l d (by rw [hst]; simp) hdx
      have hdl : (Opd.stream ⟨x.t.piece l c.1 c.2, p⟩ :: ys.map Opd.stream).dropLast = ((⟨x.t.piece l c.1 c.2, p⟩ :: ys : List (STen α)).dropLast).map .stream := by
        rw [← List.map_cons, ← List.map_dropLast]
      obtain ⟨hok, herr⟩ := padChecks_eq b l (Opd.stream ⟨x.t.piece l c.1 c.2, p⟩ :: ys.map Opd.stream).dropLast (by
        rw [hdl, streams_map]
        intro y hy
        obtain ⟨h1, h2, h3⟩ := hdesc y (List.dropLast_subset _ hy)
        exact ⟨h3, by rw [h1]; exact h0⟩)
      have hpad' : (∃ o ∈ (Opd.stream ⟨x.t.piece l c.1 c.2, p⟩ :: ys.map Opd.stream).dropLast, o.Padded l) ↔ ∃ k r, x.md.row k = some r ∧ r.len < lastPieceStart w arg := by
        rw [hdl]
        constructor
        · rintro ⟨o, ho, hp⟩
          obtain ⟨y, hy, rfl⟩ := List.mem_map.1 ho
          obtain ⟨q, hq, k, r, hr, hlt2⟩ := hpad.1 ⟨y, hy, hp⟩
          have := hb1 q hq
          exact ⟨k, r, hr, by omega⟩
        · rintro ⟨k, r, hr, hlt2⟩
          obtain ⟨q, hq, h1⟩ := hb2 (by simp)
          obtain ⟨y, hy, hp⟩ := hpad.2 ⟨q, hq, k, r, hr, by omega⟩
          exact ⟨_, List.mem_map_of_mem hy, hp⟩
      obtain ⟨u, hu, h1, h2, h3⟩ := catTen_pieces x.t hx.wf d l hd w hw c (c' :: cs) ht he
      have hyt : ys.map (fun y => y.t) = (c' :: cs).map fun c => x.t.piece l c.1 c.2 := by
        have := congrArg List.tail hzt
        simpa using this
      have hcomp : (Opd.ten ∘ Opd.stream : STen α → Ten α) = (·.t) := rfl
      have hcat : (∀ o ∈ (Opd.stream ⟨x.t.piece l c.1 c.2, p⟩ :: ys.map Opd.stream).dropLast, ¬ o.Padded l) →
          cat (.stream ⟨x.t.piece l c.1 c.2, p⟩) (ys.map .stream) d = (catLength (p :: ps)).map fun m => .stream ⟨u, m⟩ := by
        intro hnp
        rw [hstep]
        unfold catLengthDim
        have hpls : ∀ zs : List (STen α), plainSizes d (zs.map Opd.stream) = .ok 0 := by
          intro zs
          induction zs with
          | nil => rfl
          | cons z zs ih => exact ih
        rw [hok hnp, Except.bind_ok', List.map_map, hcomp, hyt]
        show (catTen (x.t.piece l c.1 c.2) _ d >>= _) = _
        rw [hu, Except.bind_ok', hst, hzm]
        cases catLength (p :: ps) with
        | error e => rfl
        | ok m =>
          rw [Except.bind_ok', ← List.map_cons (f := Opd.stream), hpls, Except.bind_ok']
          simp [Except.map]
      constructor
      · rintro ⟨y, hy, hsame⟩
        have hnp : ∀ o ∈ (Opd.stream ⟨x.t.piece l c.1 c.2, p⟩ :: ys.map Opd.stream).dropLast, ¬ o.Padded l := by
          intro o ho hp
          rw [hstep] at hy
          unfold catLengthDim at hy
          rw [herr ⟨o, ho, hp⟩] at hy
          cases hy
        rw [hcat hnp] at hy
        cases hm : catLength (p :: ps) with
        | error e => rw [hm] at hy; cases hy
        | ok m =>
          rw [hm] at hy
          have h4 : (⟨u, m⟩ : STen α) = y := by
            have : (Opd.stream ⟨u, m⟩ : Opd α) = .stream y := Except.ok.inj hy
            simpa using this
          have h5 : m = x.md := by rw [← hsame.md, ← h4]
          intro k r hr
          refine ⟨?_, hrt.1 (by rw [hm, h5]) k r hr⟩
          by_contra hcon
          obtain ⟨o, ho, hp⟩ := hpad'.2 ⟨k, r, hr, by omega⟩
          exact hnp o ho hp
      · intro h
        have hnp : ∀ o ∈ (Opd.stream ⟨x.t.piece l c.1 c.2, p⟩ :: ys.map Opd.stream).dropLast, ¬ o.Padded l := by
          intro o ho hp
          obtain ⟨k, r, hr, hlt2⟩ := hpad'.1 ⟨o, ho, hp⟩
          have := (h k r hr).1
          omega
        refine ⟨⟨u, x.md⟩, ?_, h1, h2, rfl, fun ix hix => h3 ix (inside_length hix)⟩
        rw [hcat hnp, hrt.2 fun k r hr => (h k r hr).2]
        rfl

/-- A batch whose shorter sequence reaches the last piece, and one whose shorter sequence does not. -/
example : ∃ x : STen (List Nat), x.Describes 0 1 ∧ x.t.shape[1]? = some 3 ∧ x.md.Longest 3 ∧ posOf x.t.ndim (-1) = some 1 ∧ ExactSplit 3 (.size 1) ∧ lastPieceStart 3 (.size 1) = 2 ∧
    (∃ y, splitCat x (.size 2) 1 = .ok (.stream y) ∧ y.md = x.md) ∧ splitCat x (.sections [1, 1, 1]) 1 ≠ .error .notImplementedError :=
  ⟨⟨exBL, ⟨["a", "b"], [true, false], [false, false], [3, 2], none⟩⟩, ⟨by decide, rfl, rfl, by decide, rfl, 3, rfl, by decide⟩, rfl, by decide, rfl, by unfold ExactSplit; omega, by decide,
    ⟨_, rfl, rfl⟩, by intro h; cases h⟩

/-- **C210 is false** for ragged batches: the pieces of a batch split along length cannot be concatenated. -/
theorem C210_split_length_false : ∃ x : STen (List Nat), x.Describes 0 1 ∧ (∃ ys, split x (.size 1) 1 = .ok ys ∧ ys.length = 3) ∧ splitCat x (.size 1) 1 = .error .notImplementedError :=
  ⟨⟨exBL, ⟨["a", "b"], [true, false], [true, true], [3, 1], none⟩⟩, ⟨by decide, rfl, rfl, by decide, rfl, 3, rfl, by decide⟩, ⟨_, rfl, rfl⟩, rfl⟩

end DS.Tn
