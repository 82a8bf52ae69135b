import Verif.Props.CatLength
import Verif.Props.LengthIndex
/-! # C21, C22, C23: splitting along length -/

namespace DS.Meta

/-- Consecutive intervals from `a` that reach at least `n`. -/
def Tiles (n : Int) : Int → List (Int × Int) → Prop
  | a, [] => n ≤ a
  | a, (i, j) :: r => i = a ∧ i ≤ j ∧ Tiles n j r

/-- What a piece holding positions `i ≤ t < j` says about a row. -/
def pieceRow (n : Nat) (i j : Int) (r : Row) : Row :=
  { r with sos := r.sos && decide (i = 0 ∧ 0 < min j n), eos := r.eos && decide (min i n < r.len ∧ r.len ≤ min j n),
           len := min j r.len - min i r.len }

/-- `p` is the piece `[i, j)` of `m`. -/
def IsPiece (m : Meta) (n : Nat) (b : Int × Int) (p : Meta) : Prop :=
  p.ids = m.ids ∧ m.MapsRows (pieceRow n b.1 b.2) p

theorem piece_core (m : Meta) (hm : m.WF) (n : Nat) (hn : m.Longest n) (i j : Int) (h0 : 0 ≤ i) (hij : i ≤ j) :
    ∃ p, m.indexLengthSlice { start := some i, stop := some j } = .ok p ∧ m.IsPiece n (i, j) p := by
  have hlo : sliceLo n { start := some i, stop := some j } = min i n := by
    simp only [sliceLo, boundOf]; split <;> omega
  have hhi : sliceHi n { start := some i, stop := some j } = min j n := by
    simp only [sliceHi, boundOf]; split <;> omega
  obtain ⟨m', h1, hids, -, h2⟩ := init_map m hm
    (fun b => b && (decide (min i (n : Int) = 0) && decide (min j (n : Int) > 0)))
    (fun e l => (e && decide (min i (n : Int) < l)) && decide (l ≤ min j n))
    (fun l => clip 0 (min j (n : Int) - min i n) (l - min i n))
  refine ⟨m', ?_, hids, h2.congr ?_⟩
  · rw [slice_unit_eq hn _ rfl, hlo, hhi, ← h1]
    unfold indexLengthSlice.finish Numba.updateEosFromSlice
    rw [keepSos_eq]
  · intro k r hr
    obtain ⟨hr0, hrn⟩ := row_bounds hn hr
    unfold pieceRow
    simp only [Row.mk.injEq, true_and, and_true]
    refine ⟨?_, ?_, ?_⟩
    · rw [← Bool.decide_and]
      congr 1
      rw [decide_eq_decide]; omega
    · rw [Bool.and_assoc, ← Bool.decide_and]
    · unfold clip; omega

theorem pieces_spec (m : Meta) (hm : m.WF) (n : Nat) (hn : m.Longest n) (bs : List (Int × Int)) (a : Int) (ha : 0 ≤ a)
    (ht : Tiles n a bs) : ∃ ps, lengthPieces m bs = .ok ps ∧ List.Forall₂ (m.IsPiece n) bs ps := by
  induction bs generalizing a with
  | nil => exact ⟨[], rfl, .nil⟩
  | cons b bs ih =>
    obtain ⟨i, j⟩ := b
    obtain ⟨rfl, hij, ht⟩ := ht
    obtain ⟨p, e1, h1⟩ := piece_core m hm n hn i j ha hij
    obtain ⟨ps, e2, h2⟩ := ih j (by omega) ht
    refine ⟨p :: ps, ?_, .cons h1 h2⟩
    simp only [lengthPieces, e1, e2, Except.bind_ok']

theorem tiles_total {m : Meta} {n : Nat} (hn : m.Longest n) {k : Nat} {r : Row} (hr : m.row k = some r) {bs : List (Int × Int)} {ps : List Meta}
    (hf : List.Forall₂ (m.IsPiece n) bs ps) {a : Int} (ht : Tiles n a bs) :
    total (ps.map (lenAt · k)) = r.len - min a r.len := by
  have hb := row_bounds hn hr
  induction hf generalizing a with
  | nil => simp only [Tiles] at ht; simp [total]; omega
  | @cons b p bs ps hp hf ih =>
    obtain ⟨i, j⟩ := b
    obtain ⟨rfl, hij, ht⟩ := ht
    have hrow := hp.2.2.2.2 k r hr
    simp only [List.map_cons, total, ih ht]
    simp only [lenAt, hrow, pieceRow]
    simp
    omega

theorem tiles_count_sos {m : Meta} {n : Nat} (hpos : 0 < n) {k : Nat} {r : Row} (hr : m.row k = some r) {bs : List (Int × Int)} {ps : List Meta}
    (hf : List.Forall₂ (m.IsPiece n) bs ps) {a : Int} (ha : 0 ≤ a) (ht : Tiles n a bs) :
    (ps.filter fun p => (p.row k).any (·.sos)).length = if r.sos = true ∧ a = 0 then 1 else 0 := by
  induction hf generalizing a with
  | nil => simp only [Tiles] at ht; rw [if_neg (by omega)]; rfl
  | @cons b p bs ps hp hf ih =>
    obtain ⟨i, j⟩ := b
    obtain ⟨rfl, hij, ht⟩ := ht
    have hrow := hp.2.2.2.2 k r hr
    have := ih (by omega) ht
    simp only [List.filter_cons, hrow, pieceRow, Option.any_some]
    by_cases hs : r.sos = true
    · by_cases hi : i = 0
      · by_cases hj : 0 < j
        · simp [hs, hi, show 0 < min j (n : Int) by omega, this, show ¬ j = 0 by omega]
        · have hj0 : j = 0 := by omega
          simp [hs, hi, show ¬ 0 < min j (n : Int) by omega, this, hj0]
      · simp [hs, hi, this, show ¬ j = 0 by omega]
    · simp [hs, this]

theorem tiles_count_eos {m : Meta} {n : Nat} (hn : m.Longest n) {k : Nat} {r : Row} (hr : m.row k = some r) {bs : List (Int × Int)} {ps : List Meta}
    (hf : List.Forall₂ (m.IsPiece n) bs ps) {a : Int} (ha : 0 ≤ a) (ht : Tiles n a bs) :
    (ps.filter fun p => (p.row k).any (·.eos)).length = if r.eos = true ∧ a < r.len then 1 else 0 := by
  have hb := row_bounds hn hr
  induction hf generalizing a with
  | nil => simp only [Tiles] at ht; rw [if_neg (by omega)]; rfl
  | @cons b p bs ps hp hf ih =>
    obtain ⟨i, j⟩ := b
    obtain ⟨rfl, hij, ht⟩ := ht
    have hrow := hp.2.2.2.2 k r hr
    have := ih (by omega) ht
    simp only [List.filter_cons, hrow, pieceRow, Option.any_some]
    by_cases hs : r.eos = true
    · by_cases hi : i < r.len
      · by_cases hj : r.len ≤ j
        · have h1 : (decide (min i (n : Int) < r.len ∧ r.len ≤ min j n)) = true := by rw [decide_eq_true_eq]; omega
          rw [h1]; simp [hs, this, hi, show ¬ j < r.len by omega]
        · have h1 : (decide (min i (n : Int) < r.len ∧ r.len ≤ min j n)) = false := by rw [decide_eq_false_iff_not]; omega
          rw [h1]; simp [hs, this, hi, show j < r.len by omega]
      · have h1 : (decide (min i (n : Int) < r.len ∧ r.len ≤ min j n)) = false := by rw [decide_eq_false_iff_not]; omega
        rw [h1]; simp [hs, this, hi, show ¬ j < r.len by omega]
    · simp [hs, this]

theorem tiles_rows {m : Meta} {n : Nat} (hn : m.Longest n) {k : Nat} {r : Row} (hr : m.row k = some r) {bs : List (Int × Int)} {ps : List Meta}
    (hf : List.Forall₂ (m.IsPiece n) bs ps) {a : Int} (ha : 0 ≤ a) (ht : Tiles n a bs) (i : Nat) (p : Meta) (hp : ps[i]? = some p) :
    ∃ q, p.row k = some q ∧ q.id = r.id ∧ q.chunk = r.chunk ∧ 0 ≤ q.len ∧
      (0 < q.len → q.eos = (r.eos && decide (min a r.len + total ((ps.take i).map (lenAt · k)) + q.len = r.len))) ∧ (q.len = 0 → q.eos = false) ∧
      (0 < r.len → q.sos = (r.sos && decide (0 < q.len ∧ min a r.len + total ((ps.take i).map (lenAt · k)) = 0))) := by
  have hb := row_bounds hn hr
  induction hf generalizing a i with
  | nil => simp at hp
  | @cons b p0 bs ps hp0 hf ih =>
    obtain ⟨x, y⟩ := b
    obtain ⟨rfl, hij, ht⟩ := ht
    cases i with
    | zero =>
      simp at hp; subst hp
      refine ⟨_, hp0.2.2.2.2 k r hr, rfl, rfl, by simp only [pieceRow]; omega, ?_, ?_, ?_⟩
      · simp only [pieceRow, List.take_zero, List.map_nil, total]
        intro h; congr 1; rw [decide_eq_decide]; omega
      · simp only [pieceRow]
        intro h
        have : decide (min x (n : Int) < r.len ∧ r.len ≤ min y n) = false := by rw [decide_eq_false_iff_not]; omega
        rw [this, Bool.and_false]
      · simp only [pieceRow, List.take_zero, List.map_nil, total]
        intro h; congr 1; rw [decide_eq_decide]; omega
    | succ i =>
      simp at hp
      obtain ⟨q, h1, h2, h3, h4, h5, h6, h7⟩ := ih (by omega) ht i hp
      have hl : lenAt p0 k = min y r.len - min x r.len := by
        simp [lenAt, hp0.2.2.2.2 k r hr, pieceRow]
      refine ⟨q, h1, h2, h3, h4, ?_, h6, ?_⟩
      · intro hq; rw [h5 hq]; congr 1; rw [decide_eq_decide]
        simp only [List.take_succ_cons, List.map_cons, total, hl]; omega
      · intro hq; rw [h7 hq]; congr 1; rw [decide_eq_decide]
        simp only [List.take_succ_cons, List.map_cons, total, hl]; omega

theorem range_unfold (a n k : Int) (hk : 0 < k) (h : a < n) : rangePositions a n k = a :: rangePositions (a + k) n k := by
  refine List.Pairwise.eq_of_mem_iff (r := (· < ·)) (rangePositions_sorted _ _ _ hk) ?_ ?_
  · rw [List.pairwise_cons]
    refine ⟨?_, rangePositions_sorted _ _ _ hk⟩
    intro y hy
    rw [rangePositions_mem _ _ _ _ hk] at hy
    omega
  · intro x
    rw [List.mem_cons, rangePositions_mem _ _ _ _ hk, rangePositions_mem _ _ _ _ hk]
    have : (x - (a + k)) % k = (x - a) % k := by
      rw [show x - (a + k) = x - a - k by omega, Int.sub_emod_right]
    rw [this]
    constructor
    · rintro ⟨h1, h2, h3⟩
      by_cases hx : x = a
      · left; exact hx
      · right
        refine ⟨?_, h2, h3⟩
        by_contra hcon
        rw [Int.emod_eq_of_lt (by omega) (by omega)] at h3
        omega
    · rintro (rfl | ⟨h1, h2, h3⟩)
      · exact ⟨by omega, h, by simp⟩
      · exact ⟨by omega, h2, h3⟩

theorem range_empty (a n k : Int) (hk : 0 < k) (h : n ≤ a) : rangePositions a n k = [] := by
  rw [List.eq_nil_iff_forall_not_mem]
  intro x hx
  rw [rangePositions_mem _ _ _ _ hk] at hx
  omega

/-- Non-empty intervals. -/
def Strict (bs : List (Int × Int)) : Prop := ∀ b ∈ bs, b.1 < b.2

theorem sizeBounds_tiles (n k : Int) (hk : 0 < k) :
    ∀ (fuel : Nat) (a : Int), (n - a).toNat ≤ fuel →
      Tiles n (min a n) ((rangePositions a n k).map fun i => (i, min (i + k) n)) ∧
      Strict ((rangePositions a n k).map fun i => (i, min (i + k) n)) := by
  intro fuel
  induction fuel with
  | zero =>
    intro a h
    rw [range_empty a n k hk (by omega)]
    exact ⟨by simp only [List.map_nil, Tiles]; omega, by simp [Strict]⟩
  | succ f ih =>
    intro a h
    by_cases han : a < n
    · rw [range_unfold a n k hk han]
      obtain ⟨h1, h2⟩ := ih (a + k) (by omega)
      refine ⟨⟨by omega, by omega, h1⟩, ?_⟩
      intro b hb
      simp only [List.map_cons, List.mem_cons] at hb
      rcases hb with rfl | hb
      · simp only; omega
      · exact h2 b hb
    · rw [range_empty a n k hk (by omega)]
      exact ⟨by simp only [List.map_nil, Tiles]; omega, by simp [Strict]⟩

theorem isum_nonneg (ss : List Int) (hnn : ∀ s ∈ ss, 0 ≤ s) : 0 ≤ isum ss := by
  induction ss with
  | nil => simp [isum]
  | cons s ss ih =>
    have := hnn s (by simp); have := ih (fun x hx => hnn x (by simp [hx])); simp [isum]; omega

theorem sectionBounds_tiles (n : Int) (ss : List Int) (a : Int) (hnn : ∀ s ∈ ss, 0 ≤ s) (hsum : n ≤ a + isum ss) :
    Tiles n a (sectionBounds a ss) := by
  induction ss generalizing a with
  | nil => simp [isum] at hsum; exact hsum
  | cons s ss ih =>
    have := hnn s (by simp)
    simp only [isum] at hsum
    exact ⟨rfl, by omega, ih (a + s) (fun x hx => hnn x (by simp [hx])) (by omega)⟩

theorem total_isum (ss : List Int) : total ss = isum ss := by
  induction ss with
  | nil => rfl
  | cons s ss ih => simp [total, isum, ih]

/-- A legal argument of `split` along length for a batch whose longest row has `n` frames. -/
def LegalSplit (n : Nat) : SplitArg → Prop
  | .size k => 0 < k
  | .sections ss => (∀ s ∈ ss, 0 ≤ s) ∧ (n : Int) ≤ total ss

theorem split_bounds (m : Meta) (n : Nat) (hn : m.Longest n) (arg : SplitArg) (h : LegalSplit n arg) :
    ∃ bs, m.splitLength arg = lengthPieces m bs ∧ Tiles n 0 bs := by
  cases arg with
  | size k =>
    have hk : 0 < k := h
    refine ⟨sizeBounds n k, ?_, ?_⟩
    · unfold splitLength
      simp only [hn.max, Except.bind_ok']
      rw [if_neg (by omega), if_neg (by omega)]
    · have := (sizeBounds_tiles n k hk _ 0 (Nat.le_refl _)).1
      rw [show min (0 : Int) n = 0 by omega] at this
      exact this
  | sections ss =>
    obtain ⟨h1, h2⟩ := h
    rw [total_isum] at h2
    refine ⟨sectionBounds 0 ss, ?_, sectionBounds_tiles _ _ _ h1 (by omega)⟩
    unfold splitLength
    simp only [hn.max, Except.bind_ok']
    rw [if_neg (by omega)]

/-- **C21.** Splitting along length by a positive chunk size, or by non-negative sections that cover the longest row.
For every row: the pieces have the row's id and chunk index; their lengths are non-negative and add up; a piece is
ending iff the row is and the piece holds the row's last data frame (it has data and what precedes it plus its own data is the whole
row); in a row with data, a piece is starting iff the row is and it holds frame 0; exactly one piece is starting (ending) if the
row is (and has data), none otherwise. -/
theorem C21_split_length (m : Meta) (hm : m.WF) (n : Nat) (hn : m.Longest n) (hpos : 0 < n) (arg : SplitArg) (harg : LegalSplit n arg) :
    ∃ ps, m.splitLength arg = .ok ps ∧ (∀ p ∈ ps, p.WF ∧ p.ids = m.ids) ∧ ∀ k r, m.row k = some r →
      total (ps.map (lenAt · k)) = r.len ∧
      (∀ (i : Nat) (p : Meta), ps[i]? = some p → ∃ q, p.row k = some q ∧ q.id = r.id ∧ q.chunk = r.chunk ∧ 0 ≤ q.len ∧
        q.eos = (r.eos && decide (0 < q.len ∧ total ((ps.take i).map (lenAt · k)) + q.len = r.len)) ∧
        (0 < r.len → q.sos = (r.sos && decide (0 < q.len ∧ total ((ps.take i).map (lenAt · k)) = 0)))) ∧
      (ps.filter fun p => (p.row k).any (·.sos)).length = (if r.sos = true then 1 else 0) ∧
      (ps.filter fun p => (p.row k).any (·.eos)).length = (if r.eos = true ∧ 0 < r.len then 1 else 0) := by
  obtain ⟨bs, e, ht⟩ := split_bounds m n hn arg harg
  obtain ⟨ps, e2, hf⟩ := pieces_spec m hm n hn bs 0 (by omega) ht
  refine ⟨ps, by rw [e, e2], ?_, ?_⟩
  · clear * - hf
    induction hf with
    | nil => simp
    | cons h _ ih =>
      intro p hp
      rcases List.mem_cons.1 hp with rfl | hp
      · exact ⟨h.2.1, h.1⟩
      · exact ih p hp
  · intro k r hr
    have hb := row_bounds hn hr
    refine ⟨by rw [tiles_total hn hr hf ht]; omega, ?_, ?_, ?_⟩
    · intro i p hp
      obtain ⟨q, h1, h2, h3, h4, h5, h6, h7⟩ := tiles_rows hn hr hf (by omega) ht i p hp
      refine ⟨q, h1, h2, h3, h4, ?_, ?_⟩
      · by_cases hq : 0 < q.len
        · rw [h5 hq]; congr 1; rw [decide_eq_decide]; omega
        · rw [h6 (by omega)]; simp [hq]
      · intro hl; rw [h7 hl]; congr 1; rw [decide_eq_decide]; omega
    · rw [tiles_count_sos hpos hr hf (by omega) ht]; simp
    · rw [tiles_count_eos hn hr hf (by omega) ht]

example : ex3.WF ∧ ex3.Longest 4 ∧ LegalSplit 4 (.size 3) ∧ LegalSplit 4 (.sections [0, 3, 0, 5]) ∧ ex3.splitLength (.size 3) =
    .ok [⟨["a", "b", "c"], [true, false, false], [false, false, true], [3, 2, 3], some [0, 5, 7]⟩,
         ⟨["a", "b", "c"], [false, false, false], [false, false, false], [1, 0, 0], some [0, 5, 7]⟩] := by
  refine ⟨by decide, by decide, by unfold LegalSplit; omega, ⟨by decide, by decide⟩, by decide⟩

/-- The start of the last interval. -/
def lastStart : List (Int × Int) → Int
  | [] => 0
  | [b] => b.1
  | _ :: b :: r => lastStart (b :: r)

theorem forall₂_get {α β : Type} {R : α → β → Prop} {xs : List α} {ys : List β} (h : List.Forall₂ R xs ys) (i : Nat) (y : β)
    (hy : ys[i]? = some y) : ∃ x, xs[i]? = some x ∧ R x y := by
  induction h generalizing i with
  | nil => simp at hy
  | cons hr _ ih =>
    cases i with
    | zero => simp at hy; subst hy; exact ⟨_, rfl, hr⟩
    | succ i => simp at hy; simpa using ih i hy

theorem tiles_bounds {n : Int} {bs : List (Int × Int)} {a : Int} (ht : Tiles n a bs) (hs : Strict bs) (i : Nat) (b : Int × Int) (hb : bs[i]? = some b) :
    a ≤ b.1 ∧ (0 < i → a < b.1) ∧ (i = 0 → b.1 = a) ∧ (i + 1 ≠ bs.length → b.2 ≤ lastStart bs) ∧ (i + 1 = bs.length → b.1 = lastStart bs ∧ n ≤ b.2) := by
  induction bs generalizing a i with
  | nil => simp at hb
  | cons c bs ih =>
    obtain ⟨x, y⟩ := c
    obtain ⟨rfl, hij, ht⟩ := ht
    have hxy := hs (x, y) (by simp)
    simp only at hxy
    have hs' : Strict bs := fun b hb => hs b (by simp [hb])
    cases bs with
    | nil =>
      cases i with
      | zero => simp at hb; subst hb; simp only [Tiles] at ht; simp [lastStart, ht]
      | succ i => simp at hb
    | cons d bs =>
      cases i with
      | zero =>
        simp at hb; subst hb
        refine ⟨by simp, by simp, by simp, ?_, by simp⟩
        intro _
        simp only [lastStart]
        -- y is the start of d, and starts are below the last start
        have hmono : ∀ (bs : List (Int × Int)) (a : Int) (d : Int × Int), Tiles n a (d :: bs) → a ≤ lastStart (d :: bs) := by
          intro bs
          induction bs with
          | nil => intro a d h; obtain ⟨rfl, -, -⟩ := h; simp [lastStart]
          | cons e bs ih =>
            intro a d h
            obtain ⟨rfl, h1, h2⟩ := h
            have := ih _ e h2
            simp only [lastStart]; omega
        exact hmono bs y d ht
      | succ i =>
        simp at hb
        obtain ⟨h1, h2, h3, h4, h5⟩ := ih ht hs' i hb
        refine ⟨by omega, by omega, by omega, ?_, ?_⟩
        · intro h; simp only [lastStart]; exact h4 (by simp at h ⊢; omega)
        · intro h; simp only [lastStart]; exact h5 (by simp at h ⊢; omega)

/-- Round trip over non-empty intervals: concatenating the pieces gives back the original iff every ending row has its
last data frame in the last piece. -/
theorem roundtrip_iff (m : Meta) (hm : m.WF) (n : Nat) (hn : m.Longest n) (hpos : 0 < n) (bs : List (Int × Int)) (ht : Tiles n 0 bs)
    (hs : Strict bs) (ps : List Meta) (hf : List.Forall₂ (m.IsPiece n) bs ps) :
    catLength ps = .ok m ↔ ∀ k r, m.row k = some r → r.eos = true → lastStart bs < r.len := by
  have hne : 0 < ps.length := by
    cases hf with
    | nil => simp only [Tiles] at ht; omega
    | cons => simp
  have hlen := hf.length_eq
  have hw : ∀ p ∈ ps, p.WF := by
    intro p hp
    obtain ⟨i, hi⟩ := List.getElem?_of_mem hp
    obtain ⟨b, -, h⟩ := forall₂_get hf i p hi
    exact h.2.1
  have hp0 := List.getElem?_eq_getElem (l := ps) (i := 0) hne
  have hp1 := List.getElem?_eq_getElem (l := ps) (i := ps.length - 1) (by omega)
  generalize ps[0] = first at hp0
  generalize ps[ps.length - 1] = last at hp1
  obtain ⟨b0, hb0, f0⟩ := forall₂_get hf 0 first hp0
  obtain ⟨b1, hb1, f1⟩ := forall₂_get hf _ last hp1
  have t0 := tiles_bounds ht hs 0 b0 hb0
  have t1 := tiles_bounds ht hs _ b1 hb1
  have t1' := t1.2.2.2.2 (by omega)
  have hs0 := hs b0 (List.mem_of_getElem? hb0)
  have chunkEq : ∀ p ∈ ps, p.chunk.isSome = m.chunk.isSome := by
    intro p hp
    obtain ⟨i, hi⟩ := List.getElem?_of_mem hp
    obtain ⟨b, -, h⟩ := forall₂_get hf i p hi
    exact h.2.2.2.1
  have rowInv : ∀ (b : Int × Int) (p : Meta), m.IsPiece n b p → ∀ q ∈ p.rows, ∃ k r, m.row k = some r ∧ q = pieceRow n b.1 b.2 r := by
    intro b p h q hq
    obtain ⟨k, hk⟩ := List.getElem?_of_mem hq
    rw [rows_get p h.2.1] at hk
    have hkl : k < m.ids.length := by
      by_contra hcon; rw [row_none p k (by rw [h.1]; omega)] at hk; simp at hk
    obtain ⟨r, hr, -⟩ := row_some m hm k hkl
    rw [h.2.2.2.2 k r hr] at hk; simp at hk
    exact ⟨k, r, hr, hk.symm⟩
  constructor
  · intro hcat k r hr he
    have hc : Consecutive ps := by
      by_cases h2 : 2 ≤ ps.length
      · by_contra hcon
        rw [(C19_cat_length ps h2 hw first last hp0 hp1).2 hcon] at hcat
        simp at hcat
      · have h1 : ps.length = 1 := by omega
        obtain ⟨p, rfl⟩ := List.length_eq_one_iff.1 h1
        refine ⟨?_, ?_⟩
        · intro i m' hi
          match i with
          | 0 => simp at hi; subst hi; simp
          | i + 1 => simp at hi
        · cases hb : p.chunk.isSome
          · right; simpa using hb
          · left; simpa using hb
    obtain ⟨m', e, w, hi, hch, hrow⟩ := catLength_spec ps hw first last hp0 hp1 hc
    rw [hcat] at e; simp at e; subst e
    have r0 := f0.2.2.2.2 k r hr
    have r1 := f1.2.2.2.2 k r hr
    have := hrow k _ _ r0 r1
    rw [hr] at this
    have heos := congrArg (fun o => o.map Row.eos) this
    simp only [Option.map_some, joinRow, pieceRow, Option.some.injEq, he, Bool.true_and] at heos
    have := of_decide_eq_true heos.symm
    have hbd := row_bounds hn hr
    omega
  · intro hall
    have hc : Consecutive ps := by
      refine ⟨?_, ?_⟩
      · intro i p hi
        obtain ⟨b, hb, h⟩ := forall₂_get hf i p hi
        have tb := tiles_bounds ht hs i b hb
        refine ⟨?_, ?_, ?_⟩
        · intro m0 hm0; rw [hp0] at hm0; simp at hm0; subst hm0; rw [h.1, f0.1]
        · intro hi0 q hq
          obtain ⟨k, r, hr, rfl⟩ := rowInv b p h q hq
          have : ¬ b.1 = 0 := by have := tb.2.1 (by omega); omega
          simp [pieceRow, this]
        · intro hil q hq
          obtain ⟨k, r, hr, rfl⟩ := rowInv b p h q hq
          have := tb.2.2.2.1 (by rw [hlen]; exact hil)
          simp only [pieceRow, Bool.and_eq_false_iff, decide_eq_false_iff_not]
          by_cases he : r.eos = true
          · right; have := hall k r hr he; omega
          · left; simpa using he
      · cases hb : m.chunk.isSome with
        | true => left; intro p hp; rw [chunkEq p hp, hb]
        | false => right; intro p hp; rw [chunkEq p hp, hb]
    obtain ⟨m', e, w, hi, hch, hrow⟩ := catLength_spec ps hw first last hp0 hp1 hc
    rw [e]; congr 1
    apply ext_row w hm (by rw [hi, f0.1]) (by rw [hch, chunkEq first (List.mem_of_getElem? hp0)])
    intro k hk
    have hkl : k < m.ids.length := by rw [hi, f0.1] at hk; exact hk
    obtain ⟨r, hr, -⟩ := row_some m hm k hkl
    have r0 := f0.2.2.2.2 k r hr
    have r1 := f1.2.2.2.2 k r hr
    rw [hrow k _ _ r0 r1, hr]
    congr 1
    have hbd := row_bounds hn hr
    have htot := tiles_total hn hr hf ht
    simp only [joinRow, pieceRow]
    have e0 : b0.1 = 0 := t0.2.2.1 rfl
    have g1 : (r.sos && decide (b0.1 = 0 ∧ 0 < min b0.2 (n : Int))) = r.sos := by
      rw [decide_eq_true (by omega), Bool.and_true]
    have g2 : (r.eos && decide (min b1.1 (n : Int) < r.len ∧ r.len ≤ min b1.2 n)) = r.eos := by
      by_cases he : r.eos = true
      · have := hall k r hr he
        rw [decide_eq_true (by omega), Bool.and_true]
      · simp [he]
    rw [g1, g2, htot]
    cases r
    simp only [Row.mk.injEq, true_and, and_true]
    simp only at hbd
    omega

theorem sizeBounds_lastStart (n k : Int) (hk : 0 < k) (hn : 0 < n) : lastStart (sizeBounds n k) = k * ((n - 1) / k) := by
  have key : ∀ (fuel : Nat) (a : Int), (n - a).toNat ≤ fuel → a < n →
      lastStart ((rangePositions a n k).map fun i => (i, min (i + k) n)) = a + k * ((n - 1 - a) / k) := by
    intro fuel
    induction fuel with
    | zero => intro a h1 h2; omega
    | succ f ih =>
      intro a h1 h2
      rw [range_unfold a n k hk h2]
      by_cases h3 : a + k < n
      · have := ih (a + k) (by omega) h3
        rw [range_unfold (a + k) n k hk h3] at this ⊢
        simp only [List.map_cons, lastStart] at this ⊢
        rw [this]
        rw [show n - 1 - (a + k) = n - 1 - a - k by omega, Int.sub_ediv_of_dvd _ (Int.dvd_refl k), Int.ediv_self (by omega),
          Int.mul_sub]
        omega
      · rw [range_empty (a + k) n k hk (by omega), Int.ediv_eq_zero_of_lt (by omega) (by omega)]
        simp [lastStart]
  have := key _ 0 (Nat.le_refl _) hn
  rw [show n - 1 - 0 = n - 1 by omega] at this
  unfold sizeBounds
  rw [this]; omega

theorem sectionBounds_lastStart (ss : List Int) (a : Int) (hne : ss ≠ []) :
    lastStart (sectionBounds a ss) = a + isum ss - ss.getLast hne := by
  induction ss generalizing a with
  | nil => exact absurd rfl hne
  | cons s ss ih =>
    cases ss with
    | nil => simp [sectionBounds, lastStart, isum]
    | cons t ss =>
      have := ih (a + s) (by simp)
      simp only [sectionBounds, lastStart, isum] at this ⊢
      rw [this, List.getLast_cons (a := s) (show t :: ss ≠ [] by simp)]; omega

theorem sectionBounds_strict (ss : List Int) (a : Int) (h : ∀ s ∈ ss, 0 < s) : Strict (sectionBounds a ss) := by
  induction ss generalizing a with
  | nil => simp [sectionBounds, Strict]
  | cons s ss ih =>
    intro b hb
    simp only [sectionBounds, List.mem_cons] at hb
    rcases hb with rfl | hb
    · have := h s (by simp); simp only; omega
    · exact ih (a + s) (fun x hx => h x (by simp [hx])) b hb

/-- Positive chunk size, or positive sections with exactly the sum `n`. -/
def ExactSplit (n : Nat) : SplitArg → Prop
  | .size k => 0 < k
  | .sections ss => (∀ s ∈ ss, 0 < s) ∧ total ss = n

/-- First position of the last piece. -/
def lastPieceStart (n : Nat) : SplitArg → Int
  | .size k => k * (((n : Int) - 1) / k)
  | .sections ss => n - ss.getLastD 0

theorem split_bounds_exact (m : Meta) (n : Nat) (hn : m.Longest n) (hpos : 0 < n) (arg : SplitArg) (h : ExactSplit n arg) :
    ∃ bs, m.splitLength arg = lengthPieces m bs ∧ Tiles n 0 bs ∧ Strict bs ∧ lastStart bs = lastPieceStart n arg := by
  cases arg with
  | size k =>
    have hk : 0 < k := h
    have := sizeBounds_tiles n k hk _ 0 (Nat.le_refl _)
    rw [show min (0 : Int) n = 0 by omega] at this
    refine ⟨sizeBounds n k, ?_, this.1, this.2, sizeBounds_lastStart _ _ hk (by omega)⟩
    unfold splitLength
    simp only [hn.max, Except.bind_ok']
    rw [if_neg (by omega), if_neg (by omega)]
  | sections ss =>
    obtain ⟨h1, h2⟩ := h
    rw [total_isum] at h2
    refine ⟨sectionBounds 0 ss, ?_, sectionBounds_tiles _ _ _ (fun s hs => by have := h1 s hs; omega) (by omega),
      sectionBounds_strict _ _ h1, ?_⟩
    · unfold splitLength
      simp only [hn.max, Except.bind_ok']
      rw [if_neg (by omega)]
    · have hne : ss ≠ [] := by intro h; subst h; simp [isum] at h2; omega
      rw [sectionBounds_lastStart ss 0 hne, h2, lastPieceStart, List.getLastD_eq_getLast?, List.getLast?_eq_some_getLast hne]
      simp

theorem lastPieceStart_lt (n : Nat) (hpos : 0 < n) (arg : SplitArg) (h : ExactSplit n arg) : lastPieceStart n arg < n := by
  cases arg with
  | size k =>
    have hk : 0 < k := h
    have := Int.mul_ediv_self_le (x := (n : Int) - 1) (k := k) (by omega)
    simp only [lastPieceStart]; omega
  | sections ss =>
    obtain ⟨h1, h2⟩ := h
    have hne : ss ≠ [] := by intro h; subst h; simp [total] at h2; omega
    rw [lastPieceStart, List.getLastD_eq_getLast?, List.getLast?_eq_some_getLast hne]
    have := h1 _ (List.getLast_mem hne)
    simp only [Option.getD_some]; omega

/-- **C22.** When all rows have the same positive length, splitting by a positive chunk size (or positive sections with
that sum) and concatenating the pieces along length gives back the original metadata. -/
theorem C22_split_cat (m : Meta) (hm : m.WF) (n : Nat) (hpos : 0 < n) (hne : m.lengths ≠ []) (heq : ∀ l ∈ m.lengths, l = (n : Int))
    (arg : SplitArg) (harg : ExactSplit n arg) :
    (do let ps ← m.splitLength arg; catLength ps) = .ok m := by
  have hn : m.Longest n := by
    refine ⟨?_, fun l hl => by rw [heq l hl]; omega⟩
    cases h : m.lengths with
    | nil => exact absurd h hne
    | cons l ls => have := heq l (by rw [h]; simp); rw [this]; simp
  obtain ⟨bs, e, ht, hs, hls⟩ := split_bounds_exact m n hn hpos arg harg
  obtain ⟨ps, e2, hf⟩ := pieces_spec m hm n hn bs 0 (by omega) ht
  rw [e, e2, Except.bind_ok', roundtrip_iff m hm n hn hpos bs ht hs ps hf]
  intro k r hr _
  rw [hls, heq r.len (row_len_mem hr)]
  exact lastPieceStart_lt n hpos arg harg

example : (⟨["a", "b"], [true, false], [true, false], [5, 5], some [0, 3]⟩ : Meta).WF ∧ ExactSplit 5 (.sections [2, 2, 1]) ∧
    (do let ps ← (⟨["a", "b"], [true, false], [true, false], [5, 5], some [0, 3]⟩ : Meta).splitLength (.size 2); catLength ps) =
      .ok ⟨["a", "b"], [true, false], [true, false], [5, 5], some [0, 3]⟩ := by
  refine ⟨by decide, ⟨by decide, by decide⟩, by decide⟩

/-- **C23 is false of the code.** Splitting a ragged batch puts the end of its short row into an earlier piece, which
`cat_length` refuses. -/
theorem C23_ragged_false :
    ∃ (m : Meta) (n : Nat) (k : Int), m.WF ∧ m.Longest n ∧ 0 < n ∧ 0 < k ∧ (∀ l ∈ m.lengths, 0 < l) ∧
      (do let ps ← m.splitLength (.size k); catLength ps) = .error .valueError := by
  refine ⟨⟨["a", "b"], [true, true], [true, true], [1, 3], none⟩, 3, 2, by decide, by decide, by decide, by decide, by decide, by decide⟩

/-- C23, exactly when it holds: splitting and concatenating gives back the original iff every ending row reaches into the
last piece. Missing: ending rows that do not reach into the last piece (`C23_ragged_false`). -/
theorem C23_ragged_partial (m : Meta) (hm : m.WF) (n : Nat) (hn : m.Longest n) (hpos : 0 < n) (arg : SplitArg) (harg : ExactSplit n arg) :
    (do let ps ← m.splitLength arg; catLength ps) = .ok m ↔
      ∀ k r, m.row k = some r → r.eos = true → lastPieceStart n arg < r.len := by
  obtain ⟨bs, e, ht, hs, hls⟩ := split_bounds_exact m n hn hpos arg harg
  obtain ⟨ps, e2, hf⟩ := pieces_spec m hm n hn bs 0 (by omega) ht
  rw [e, e2, Except.bind_ok', roundtrip_iff m hm n hn hpos bs ht hs ps hf, hls]

example : ex3.WF ∧ ex3.Longest 4 ∧ ExactSplit 4 (.size 2) ∧ lastPieceStart 4 (.size 2) = 2 ∧
    (do let ps ← ex3.splitLength (.size 2); catLength ps) = .ok ex3 := by
  refine ⟨by decide, by decide, by unfold ExactSplit; omega, by decide, by decide⟩

end DS.Meta
