import Verif.Model.Pipeline
import Verif.Props.ConvField
import Verif.Props.ConvCollect
import Verif.Props.SplitLength
/-! C115: the streaming program of the examples, end to end. -/

namespace DS.Pipe
open Meta Conv Coll

section
variable {α : Type} [Zero α]

/-- The chunks that a sequence of sizes cuts a sequence into. -/
def cut (id : String) (first : Bool) : List Int → List α → List (Chunk α)
  | [], _ => []
  | s :: ss, xs => ⟨id, first, ss.isEmpty, none, xs.take s.toNat⟩ :: cut id false ss (xs.drop s.toNat)

theorem cut_id (id : String) : ∀ (ss : List Int) (first : Bool) (xs : List α), ∀ c ∈ cut id first ss xs, c.id = id ∧ c.index = none
  | [], _, _ => by simp [cut]
  | s :: ss, first, xs => by
    intro c hc
    rcases List.mem_cons.1 hc with rfl | hc
    · exact ⟨rfl, rfl⟩
    · exact cut_id id ss false _ c hc

theorem cut_length (id : String) : ∀ (ss : List Int) (first : Bool) (xs : List α), (cut id first ss xs).length = ss.length
  | [], _, _ => rfl
  | s :: ss, first, xs => by simp [cut, cut_length id ss false]

theorem cut_get (id : String) : ∀ (ss : List Int) (first : Bool) (xs : List α) (k : Nat) (c : Chunk α), (cut id first ss xs)[k]? = some c →
    (c.sos = (first && decide (k = 0))) ∧ (c.eos = true ↔ k + 1 = ss.length)
  | [], _, _ => by simp [cut]
  | s :: ss, first, xs => by
    intro k c hc
    cases k with
    | zero =>
      simp only [cut, List.getElem?_cons_zero, Option.some.injEq] at hc
      subst hc
      simp [List.isEmpty_iff, eq_comm (a := (0 : Nat))]
    | succ k =>
      simp only [cut, List.getElem?_cons_succ] at hc
      obtain ⟨h1, h2⟩ := cut_get id ss false _ k c hc
      refine ⟨by rw [h1]; simp, by rw [h2]; simp⟩

theorem cut_complete (id : String) (ss : List Int) (xs : List α) (hne : ss ≠ []) : Complete (cut id true ss xs) := by
  refine ⟨?_, ?_, ?_⟩
  · intro h
    have := cut_length id ss true xs
    rw [h] at this
    exact hne (List.length_eq_zero_iff.1 this.symm)
  · intro k c hc
    rw [(cut_get id ss true xs k c hc).1]
    simp
  · intro k c hc
    rw [(cut_get id ss true xs k c hc).2, cut_length]

theorem cut_frames (id : String) : ∀ (ss : List Int) (first : Bool) (xs : List α), (∀ s ∈ ss, 0 ≤ s) → isum ss = xs.length →
    allFrames (cut id first ss xs) = xs
  | [], _, xs => by
    intro _ h
    simp only [isum] at h
    have : xs = [] := List.length_eq_zero_iff.1 (by omega)
    simp [cut, allFrames, this]
  | s :: ss, first, xs => by
    intro hnn h
    simp only [isum] at h
    have h0 := hnn s (by simp)
    have hs := isum_nonneg ss (fun x hx => hnn x (by simp [hx]))
    have := cut_frames id ss false (xs.drop s.toNat) (fun x hx => hnn x (by simp [hx])) (by rw [List.length_drop]; omega)
    simp only [cut, allFrames, List.flatMap_cons] at this ⊢
    rw [this, List.take_append_drop]

theorem cut_sizes (id : String) (n : Nat) : ∀ (ss : List Int) (first : Bool) (xs : List α), (∀ s ∈ ss, (n : Int) ≤ s) → isum ss = xs.length →
    ∀ c ∈ cut id first ss xs, n ≤ c.frames.length
  | [], _, _ => by simp [cut]
  | s :: ss, first, xs => by
    intro hn h c hc
    simp only [isum] at h
    have h0 := hn s (by simp)
    have hs := isum_nonneg ss (fun x hx => by have := hn x (by simp [hx]); omega)
    rcases List.mem_cons.1 hc with rfl | hc
    · simp only [List.length_take]
      omega
    · exact cut_sizes id n ss false _ (fun x hx => hn x (by simp [hx])) (by rw [List.length_drop]; omega) c hc

theorem meta_of_row {p : Meta} (hw : p.WF) (hl : p.ids.length = 1) (hc : p.chunk.isSome = false) {r : Row} (hr : p.row 0 = some r) : p = ofRows false [r] := by
  have h1 := eq_ofRows p hw
  have h2 : p.rows = [r] := by
    have hlen := rows_length p hw
    match hp : p.rows, hlen with
    | [], hlen => simp [hl] at hlen
    | [x], hlen =>
      have := rows_get p hw 0
      rw [hp, hr] at this
      simpa using this
    | x :: y :: l, hlen => simp [hl] at hlen
  rw [h2, hc] at h1
  exact h1

/-- The pieces from position `a` on. -/
theorem split_pieces (id : String) (xs : List α) (ss : List Int) (a : Nat) (hpos : ∀ s ∈ ss, 0 < s) (hsum : (a : Int) + isum ss = xs.length) (ps : List Meta)
    (hf : List.Forall₂ ((ofRows false [⟨id, true, true, xs.length, none⟩]).IsPiece xs.length) (sectionBounds a ss) ps) :
    zipEntries (cutFrames ss (xs.drop a)) ps = (cut id (decide (a = 0)) ss (xs.drop a)).map Coll.mk := by
  induction ss generalizing a ps with
  | nil => rfl
  | cons s ss ih =>
    cases hf with
    | @cons _ p _ ps hp hf =>
      have hs := hpos s (by simp)
      simp only [isum] at hsum
      have hnn := isum_nonneg ss (fun x hx => by have := hpos x (by simp [hx]); omega)
      have he : (a : Int) + s = ((a + s.toNat : Nat) : Int) := by omega
      rw [he] at hf
      have := ih (a + s.toNat) (fun x hx => hpos x (by simp [hx])) (by omega) ps hf
      simp only [cutFrames, cut, zipEntries, List.map_cons, List.drop_drop]
      rw [this]
      congr 1
      · obtain ⟨h1, h2, h3, h4, h5⟩ := hp
        have h6 := h5 0 ⟨id, true, true, xs.length, none⟩ rfl
        rw [ofRows_isSome] at h4
        rw [meta_of_row h2 (by rw [h3]; rfl) h4 h6]
        simp only [Coll.mk, Chunk.row, Option.isSome_none, pieceRow, Entry.mk.injEq, and_true, Bool.true_and]
        congr 3
        · rw [decide_eq_decide]
          omega
        · rw [Bool.eq_iff_iff, decide_eq_true_eq, List.isEmpty_iff]
          constructor
          · intro h
            cases ss with
            | nil => rfl
            | cons t ts =>
              have h7 := hpos t (by simp)
              have h8 := isum_nonneg ts (fun x hx => by have := hpos x (by simp [hx]); omega)
              simp only [isum] at hsum
              omega
          · rintro rfl
            simp only [isum] at hsum
            omega
        · rw [List.length_take, List.length_drop]
          omega
      · rw [decide_eq_false (by omega)]

theorem split_mk (id : String) (xs : List α) (ss : List Int) (hpos : ∀ s ∈ ss, 0 < s) (hsum : isum ss = xs.length) :
    splitEntry (Coll.mk ⟨id, true, true, none, xs⟩) ss = .ok ((cut id true ss xs).map Coll.mk) := by
  have hm : (Coll.mk (⟨id, true, true, none, xs⟩ : Chunk α)).md = ofRows false [⟨id, true, true, xs.length, none⟩] := rfl
  have hlong : (ofRows false [⟨id, true, true, xs.length, none⟩]).Longest xs.length := by
    refine ⟨by simp [ofRows], ?_⟩
    intro l hl
    simp [ofRows] at hl
    omega
  obtain ⟨bs, e1, ht⟩ := split_bounds _ xs.length hlong (.sections ss) ⟨fun s hs => by have := hpos s hs; omega, by rw [total_isum, hsum]⟩
  have e1' : (ofRows false [⟨id, true, true, xs.length, none⟩]).splitLength (.sections ss) = lengthPieces (ofRows false [⟨id, true, true, xs.length, none⟩]) (sectionBounds 0 ss) := by
    unfold splitLength
    simp only [hlong.max, Except.bind_ok']
    rw [if_neg (by omega)]
  obtain ⟨ps, e2, hf⟩ := pieces_spec _ (ofRows_wf _ _) xs.length hlong (sectionBounds 0 ss) 0 (by omega)
    (sectionBounds_tiles _ ss 0 (fun s hs => by have := hpos s hs; omega) (by omega))
  unfold splitEntry
  rw [if_neg, hm, e1', e2, Except.bind_ok']
  · have := split_pieces id xs ss 0 hpos (by simpa using hsum) ps hf
    simp only [List.drop_zero, decide_true] at this
    rw [← this]
    rfl
  · rintro (⟨s, hs, h⟩ | h)
    · have := hpos s hs
      omega
    · exact h hsum

/-- Whole sequences as chunks. -/
def whole (ids : List String) (seqs : List (List α)) : List (Chunk α) := List.zipWith (fun i s => ⟨i, true, true, none, s⟩) ids seqs

theorem whole_cols (ids : List String) (seqs : List (List α)) (hl : seqs.length = ids.length) :
    (whole ids seqs).map (·.id) = ids ∧ (whole ids seqs).map (·.frames) = seqs := by
  induction ids generalizing seqs with
  | nil =>
    match seqs, hl with
    | [], _ => exact ⟨rfl, rfl⟩
  | cons i ids ih =>
    match seqs, hl with
    | s :: seqs, hl =>
      obtain ⟨h1, h2⟩ := ih seqs (by simpa using hl)
      unfold whole at *
      simp only [List.zipWith_cons_cons, List.map_cons, h1, h2, and_self]

theorem splitAll_mk (ids : List String) (seqs : List (List α)) (sizes : List (List Int)) (hl : seqs.length = ids.length)
    (h : List.Forall₂ (fun (s : List α) ss => (∀ x ∈ ss, (0 : Int) < x) ∧ isum ss = s.length) seqs sizes) :
    splitAll ((whole ids seqs).map Coll.mk) sizes = .ok ((List.zipWith (fun (c : Chunk α) ss => cut c.id true ss c.frames) (whole ids seqs) sizes).map (·.map Coll.mk)) := by
  induction h generalizing ids with
  | nil =>
    cases ids <;> rfl
  | @cons s ss seqs sizes h1 _ ih =>
    match ids, hl with
    | i :: ids, hl =>
      have := ih ids (by simpa using hl)
      simp only [whole] at this
      simp only [whole, List.zipWith_cons_cons, List.map_cons, splitAll, split_mk i s ss h1.1 h1.2, Except.bind_ok', this]

theorem unpad_packs (x : ST α) (cs : List (Chunk α)) (hne : cs ≠ []) (hp : Packs x x.width cs) (hfr : ∀ c ∈ cs, c.frames ≠ []) : unpad x = .ok (cs.map Coll.mk) := by
  have hidx := packs_index hp
  have hpk := packs_pk hp
  unfold unpad
  have hmd : x.md = ofRows x.md.chunk.isSome (cs.map Chunk.row) := congrArg ST.md hpk
  have hun := unbind_ofRows x.md.chunk.isSome (cs.map Chunk.row) (by simpa using hne)
  rw [← hmd] at hun
  rw [hun, Except.bind_ok', hp.2.2.2.2, List.map_map]
  refine (unpad_rows x.md.chunk.isSome x.width cs hp.2.2.2.1).trans ?_
  congr 1
  apply List.map_congr_left
  intro y hy
  unfold Coll.mk Chunk.row
  rw [hidx y hy]
  simp [hfr y hy]

theorem le_foldl_max (l : List Nat) : ∀ (a : Nat), a ≤ l.foldl max a ∧ (∀ x ∈ l, x ≤ l.foldl max a) ∧ (l.foldl max a = a ∨ l.foldl max a ∈ l) := by
  induction l with
  | nil => intro a; simp
  | cons y l ih =>
    intro a
    obtain ⟨h1, h2, h3⟩ := ih (max a y)
    simp only [List.foldl_cons]
    refine ⟨by omega, ?_, ?_⟩
    · intro x hx
      rcases List.mem_cons.1 hx with rfl | hx
      · omega
      · exact h2 x hx
    · rcases h3 with h3 | h3
      · rw [h3]
        by_cases h : a ≤ y
        · right; simp; omega
        · left; omega
      · right; simp [h3]

/-- The width of a padded batch: the longest chunk. -/
def maxLen (cs : List (Chunk α)) : Nat := (cs.map fun c => c.frames.length).foldl max 0

theorem maxLen_le {cs : List (Chunk α)} : ∀ c ∈ cs, c.frames.length ≤ maxLen cs :=
  fun c hc => (le_foldl_max _ 0).2.1 _ (List.mem_map_of_mem (f := fun c : Chunk α => c.frames.length) hc)

theorem maxLen_tight {cs : List (Chunk α)} (hne : cs ≠ []) : Tight (maxLen cs) cs := by
  rcases (le_foldl_max (cs.map fun c => c.frames.length) 0).2.2 with h | h
  · obtain ⟨c, hc⟩ := List.exists_mem_of_ne_nil _ hne
    have := maxLen_le c hc
    exact ⟨c, hc, by unfold maxLen at *; omega⟩
  · obtain ⟨c, hc, h⟩ := List.mem_map.1 h
    exact ⟨c, hc, h⟩

theorem padStream_mk (cs : List (Chunk α)) (hne : cs ≠ []) (hidx : ∀ c ∈ cs, c.index = none) :
    padStream ((cs.map Coll.mk).map fun e => (e.md, e.frames)) = .ok (pk false (maxLen cs) cs) := by
  unfold padStream
  simp only [List.map_map]
  obtain ⟨m, hm, -⟩ := C16_cat_batch (cs.map (((fun x : Meta × List α => x.1) ∘ fun e : Entry α => (e.md, e.frames)) ∘ Coll.mk)) (by simp [hne]) (by
    intro m hm
    obtain ⟨x, hx, rfl⟩ := List.mem_map.1 hm
    exact ofRows_wf _ _)
  obtain ⟨e1, e2, e3⟩ := catBatch_cols _ _ hm
  have hcm : cs.map (((fun x : Meta × List α => x.1) ∘ fun e : Entry α => (e.md, e.frames)) ∘ Coll.mk) =
      cs.map ((fun x : Meta × List α => x.1) ∘ (fun e : Entry α => (e.md, e.frames)) ∘ Coll.mk) := rfl
  rw [← hcm, hm, Except.bind_ok']
  have f1 : m.ids = cs.map (·.id) := by
    rw [e1]; simp [List.flatMap_map, Function.comp_def, ofRows, Chunk.row, Coll.mk]
    exact List.map_eq_flatMap.symm
  have f2 : m.sos = cs.map (·.sos) := by
    rw [e2]; simp [List.flatMap_map, Function.comp_def, ofRows, Chunk.row, Coll.mk]
    exact List.map_eq_flatMap.symm
  have f3 : m.eos = cs.map (·.eos) := by
    rw [e3]; simp [List.flatMap_map, Function.comp_def, ofRows, Chunk.row, Coll.mk]
    exact List.map_eq_flatMap.symm
  rw [f1, f2, f3, init_ok (by simp) (by simp) (by simp), Except.bind_ok']
  simp [pk, ofRows, Chunk.row, Coll.mk, maxLen, Function.comp_def, zeros]

theorem padBatches_mk (bs : List (List (Chunk α))) (hne : ∀ b ∈ bs, b ≠ []) (hidx : ∀ b ∈ bs, ∀ c ∈ b, c.index = none) :
    padBatches (bs.map (·.map Coll.mk)) = .ok (bs.map fun b => pk false (maxLen b) b) := by
  induction bs with
  | nil => rfl
  | cons b bs ih =>
    simp only [List.map_cons, padBatches, padStream_mk b (hne b (by simp)) (hidx b (by simp)), Except.bind_ok',
      ih (fun b hb => hne b (by simp [hb])) (fun b hb => hidx b (by simp [hb]))]

theorem padFull_pk (ids : List String) (seqs : List (List α)) (hl : seqs.length = ids.length) (hne : seqs ≠ []) :
    padFull ids seqs = .ok (pk false (maxLen (whole ids seqs)) (whole ids seqs)) := by
  have h1 : (whole ids seqs).map (·.id) = ids := by
    exact (whole_cols ids seqs hl).1
  have h2 : (whole ids seqs).map (·.frames) = seqs := by
    exact (whole_cols ids seqs hl).2
  have h3 : ∀ (β : Type) (f : Chunk α → β) (g : List α → β), (∀ i s, f ⟨i, true, true, none, s⟩ = g s) → (whole ids seqs).map f = seqs.map g := by
    intro β f g h
    conv_rhs => rw [← h2, List.map_map]
    apply List.map_congr_left
    intro c hc
    unfold whole at hc
    obtain ⟨k, hk⟩ := List.getElem?_of_mem hc
    rw [List.getElem?_zipWith] at hk
    cases ha : ids[k]? <;> cases hb : seqs[k]? <;> simp only [ha, hb, reduceCtorEq, Option.some.injEq] at hk
    subst hk
    exact h _ _
  unfold padFull
  rw [if_neg hne]
  simp only
  rw [init_ok (by simp [hl]) (by simp [hl]) (by simp [hl]), Except.bind_ok']
  have hw : maxLen (whole ids seqs) = (seqs.map (·.length)).foldl max 0 := by
    unfold maxLen
    rw [h3 _ _ (·.length) (by intros; rfl)]
  rw [← hw]
  unfold pk ofRows
  simp only [List.map_map, Bool.false_eq_true, if_false]
  rw [show ((fun r : Row => r.id) ∘ Chunk.row : Chunk α → String) = (·.id) from rfl, h1]
  rw [h3 _ _ (fun _ => true) (by intros; rfl), h3 _ _ (fun _ => true) (by intros; rfl), h3 _ _ (fun s => (s.length : Int)) (by intros; rfl),
    h3 _ _ (fun s => s ++ List.replicate (maxLen (whole ids seqs) - s.length) 0) (by intros; rfl)]


theorem deal_map {E F : Type} (f : E → F) : ∀ (ss : List (List E)) (fs : List Bool),
    deal (ss.map (·.map f)) fs = ((deal ss fs).1.map f, (deal ss fs).2.map (·.map f))
  | [], fs => by cases fs <;> rfl
  | [] :: ss, [] => rfl
  | (c :: cs) :: ss, [] => rfl
  | [] :: ss, b :: fs => by
    have := deal_map f ss fs
    cases b <;> simp [deal, this]
  | (c :: cs) :: ss, false :: fs => by
    have := deal_map f ss fs
    simp [deal, this]
  | (c :: cs) :: ss, true :: fs => by
    have := deal_map f ss fs
    simp [deal, this]

theorem rounds_map {E F : Type} (f : E → F) (flips : List (List Bool)) : ∀ (ss : List (List E)),
    rounds (ss.map (·.map f)) flips = ((rounds ss flips).1.map (·.map f), (rounds ss flips).2.map (·.map f)) := by
  induction flips with
  | nil => intro ss; rfl
  | cons fs flips ih =>
    intro ss
    simp only [rounds, deal_map, ih, List.map_eq_nil_iff]
    split <;> simp

/-- Streams with these ids. -/
def Named (ids : List String) (ss : List (List (Chunk α))) : Prop := List.Forall₂ (fun i s => ∀ c ∈ s, c.id = i ∧ c.index = none) ids ss

theorem deal_spec (fs : List Bool) : ∀ (ids : List String) (ss : List (List (Chunk α))), Named ids ss → ids.Nodup →
    Named ids (deal ss fs).2 ∧ ((deal ss fs).1.map (·.id)).Sublist ids ∧ (∀ c ∈ (deal ss fs).1, c.index = none ∧ ∃ s ∈ ss, c ∈ s) ∧
    ∀ (k : Nat) (i : String) (s : List (Chunk α)), ids[k]? = some i → ss[k]? = some s → ∃ s', (deal ss fs).2[k]? = some s' ∧
      ((deal ss fs).1.filter fun c => decide (c.id = i)) ++ s' = s ∧ s'.length = s.length - (if fs[k]? = some true then 1 else 0) := by
  induction fs with
  | nil =>
    intro ids ss h _
    have : deal ss ([] : List Bool) = ([], ss) := by
      rcases ss with _ | ⟨_ | ⟨_, _⟩, _⟩ <;> rfl
    rw [this]
    refine ⟨h, by simp, by simp, ?_⟩
    intro k i s _ hs
    exact ⟨s, hs, by simp, by simp⟩
  | cons b fs ih =>
    intro ids ss h hnd
    cases h with
    | nil =>
      refine ⟨?_, ?_, ?_, ?_⟩
      · cases b <;> exact .nil
      · cases b <;> simp [deal]
      · cases b <;> simp [deal]
      · intro k i s hk; simp at hk
    | @cons i0 s0 ids ss h0 h =>
      obtain ⟨hn0, hnd⟩ := List.nodup_cons.1 hnd
      obtain ⟨h1, h2, h3, h4⟩ := ih ids ss h hnd
      have hnone : ((deal ss fs).1.filter fun c => decide (c.id = i0)) = [] := by
        rw [List.filter_eq_nil_iff]
        intro c hc
        have := h2.subset (List.mem_map_of_mem (f := fun c : Chunk α => c.id) hc)
        simp only [decide_eq_true_eq]
        rintro rfl
        exact hn0 this
      have hskip : ∀ d : List (Chunk α) × List (List (Chunk α)), d = ((deal ss fs).1, s0 :: (deal ss fs).2) → (b = true → s0 = []) →
          Named (i0 :: ids) d.2 ∧ (d.1.map (·.id)).Sublist (i0 :: ids) ∧ (∀ c ∈ d.1, c.index = none ∧ ∃ s ∈ s0 :: ss, c ∈ s) ∧
          ∀ (k : Nat) (i : String) (s : List (Chunk α)), (i0 :: ids)[k]? = some i → (s0 :: ss)[k]? = some s → ∃ s', d.2[k]? = some s' ∧
            (d.1.filter fun c => decide (c.id = i)) ++ s' = s ∧ s'.length = s.length - (if (b :: fs)[k]? = some true then 1 else 0) := by
        rintro d rfl hb
        refine ⟨.cons h0 h1, h2.trans (List.sublist_cons_self _ _), ?_, ?_⟩
        · intro c hc
          obtain ⟨e1, s, e2, e3⟩ := h3 c hc
          exact ⟨e1, s, by simp [e2], e3⟩
        · intro k i s hk hs
          cases k with
          | zero =>
            simp only [List.getElem?_cons_zero, Option.some.injEq] at hk hs
            subst hk hs
            refine ⟨s0, rfl, by rw [hnone]; rfl, ?_⟩
            cases b with
            | false => simp
            | true => simp [hb rfl]
          | succ k =>
            simp only [List.getElem?_cons_succ] at hk hs ⊢
            exact h4 k i s hk hs
      cases b with
      | false =>
        refine hskip _ ?_ (by simp)
        cases s0 <;> rfl
      | true =>
        cases s0 with
        | nil => exact hskip _ rfl (by simp)
        | cons c cs =>
          have hc0 := h0 c (by simp)
          refine ⟨.cons (fun x hx => h0 x (by simp [hx])) h1, ?_, ?_, ?_⟩
          · show List.Sublist (c.id :: (deal ss fs).1.map (·.id)) _
            rw [hc0.1]
            exact List.Sublist.cons₂ _ h2
          · intro x hx
            rcases List.mem_cons.1 hx with rfl | hx
            · exact ⟨hc0.2, x :: cs, by simp, by simp⟩
            · obtain ⟨e1, s, e2, e3⟩ := h3 x hx
              exact ⟨e1, s, by simp [e2], e3⟩
          · intro k i s hk hs
            cases k with
            | zero =>
              simp only [List.getElem?_cons_zero, Option.some.injEq] at hk hs
              subst hk hs
              refine ⟨cs, rfl, ?_, by simp⟩
              simp only [deal, List.filter_cons, hc0.1, decide_true, if_true, hnone]
              rfl
            | succ k =>
              simp only [List.getElem?_cons_succ] at hk hs ⊢
              obtain ⟨s', e1, e2, e3⟩ := h4 k i s hk hs
              refine ⟨s', e1, ?_, e3⟩
              have hne : c.id ≠ i := by
                rw [hc0.1]
                rintro rfl
                exact hn0 (List.mem_of_getElem? hk)
              simp only [deal, List.filter_cons, decide_eq_true_eq, hne, if_false]
              exact e2

theorem rounds_spec (flips : List (List Bool)) : ∀ (ids : List String) (ss : List (List (Chunk α))), Named ids ss → ids.Nodup →
    (∀ b ∈ (rounds ss flips).1, b ≠ [] ∧ (b.map (·.id)).Sublist ids ∧ ∀ c ∈ b, c.index = none ∧ ∃ s ∈ ss, c ∈ s) ∧
    ∀ (k : Nat) (i : String) (s : List (Chunk α)), ids[k]? = some i → ss[k]? = some s → ∃ s', (rounds ss flips).2[k]? = some s' ∧
      chunksOf i (rounds ss flips).1 ++ s' = s ∧ s'.length = s.length - (flips.filter fun fs => decide (fs[k]? = some true)).length := by
  induction flips with
  | nil =>
    intro ids ss h _
    refine ⟨by simp [rounds], ?_⟩
    intro k i s _ hs
    exact ⟨s, hs, by simp [rounds, chunksOf], by simp⟩
  | cons fs flips ih =>
    intro ids ss h hnd
    obtain ⟨h1, h2, h3, h4⟩ := deal_spec fs ids ss h hnd
    obtain ⟨h5, h6⟩ := ih ids _ h1 hnd
    have hsub : ∀ s ∈ (deal ss fs).2, ∀ c ∈ s, ∃ t ∈ ss, c ∈ t := by
      intro s hs c hc
      obtain ⟨k, hk⟩ := List.getElem?_of_mem hs
      have hl1 := h1.length_eq
      have hl := h.length_eq
      have hkl : k < (deal ss fs).2.length := (List.getElem?_eq_some_iff.1 hk).1
      obtain ⟨s', e1, e2, -⟩ := h4 k ids[k] ss[k] (List.getElem?_eq_getElem (by omega)) (List.getElem?_eq_getElem (by omega))
      rw [hk, Option.some.injEq] at e1
      subst e1
      exact ⟨ss[k], List.getElem_mem _, by rw [← e2]; simp [hc]⟩
    refine ⟨?_, ?_⟩
    · intro b hb
      have hb' : b ∈ (rounds (deal ss fs).2 flips).1 ∨ ((deal ss fs).1 ≠ [] ∧ b = (deal ss fs).1) := by
        simp only [rounds] at hb
        split at hb
        · exact .inl hb
        · rcases List.mem_cons.1 hb with rfl | hb
          · exact .inr ⟨by assumption, rfl⟩
          · exact .inl hb
      rcases hb' with hb' | ⟨hb1, rfl⟩
      · obtain ⟨e1, e2, e3⟩ := h5 b hb'
        refine ⟨e1, e2, fun c hc => ⟨(e3 c hc).1, ?_⟩⟩
        obtain ⟨s, hs, hcs⟩ := (e3 c hc).2
        exact hsub s hs c hcs
      · exact ⟨hb1, h2, h3⟩
    · intro k i s hk hs
      obtain ⟨s1, e1, e2, e3⟩ := h4 k i s hk hs
      obtain ⟨s2, f1, f2, f3⟩ := h6 k i s1 hk e1
      refine ⟨s2, f1, ?_, ?_⟩
      · have hc : chunksOf i (rounds ss (fs :: flips)).1 = ((deal ss fs).1.filter fun c => decide (c.id = i)) ++ chunksOf i (rounds (deal ss fs).2 flips).1 := by
          simp only [rounds]
          split
          · rename_i h0
            rw [h0]
            rfl
          · simp [chunksOf, List.filter_append]
        rw [hc, List.append_assoc, f2, e2]
      · rw [f3, e3, List.filter_cons]
        by_cases hf : fs[k]? = some true
        · simp [hf]
          omega
        · simp [hf]


/-- The sizes cut the sequence into pieces with frames in them. -/
def Cuts (seq : List α) (sizes : List Int) : Prop := (∀ s ∈ sizes, 0 < s) ∧ total sizes = seq.length

/-- In enough rounds the coin of stream `k` was lucky. -/
def Enough (flips : List (List Bool)) (k : Nat) (sizes : List Int) : Prop :=
  sizes.length ≤ (flips.filter fun fs => decide (fs[k]? = some true)).length

theorem forall₂_getElem {A B : Type} {R : A → B → Prop} {xs : List A} {ys : List B} (h : List.Forall₂ R xs ys) {k : Nat} {x : A} (hx : xs[k]? = some x) :
    ∃ y, ys[k]? = some y ∧ R x y := by
  induction h generalizing k with
  | nil => simp at hx
  | cons hr _ ih =>
    cases k with
    | zero => simp at hx; subst hx; exact ⟨_, rfl, hr⟩
    | succ k => simp at hx; simpa using ih hx

theorem named_cut (ids : List String) (seqs : List (List α)) (sizes : List (List Int)) (hl : seqs.length = ids.length) (hl2 : sizes.length = seqs.length) :
    Named ids (List.zipWith (fun (c : Chunk α) ss => cut c.id true ss c.frames) (whole ids seqs) sizes) := by
  induction ids generalizing seqs sizes with
  | nil =>
    match seqs, hl with
    | [], _ => exact .nil
  | cons i ids ih =>
    match seqs, sizes, hl, hl2 with
    | s :: seqs, ss :: sizes, hl, hl2 =>
      exact .cons (cut_id i ss true s) (ih seqs sizes (by simpa using hl) (by simpa using hl2))

theorem cut_at (ids : List String) (seqs : List (List α)) (sizes : List (List Int)) (k : Nat) (i : String) (s : List α) (ss : List Int)
    (h1 : ids[k]? = some i) (h2 : seqs[k]? = some s) (h3 : sizes[k]? = some ss) :
    (List.zipWith (fun (c : Chunk α) ss => cut c.id true ss c.frames) (whole ids seqs) sizes)[k]? = some (cut i true ss s) := by
  unfold whole
  simp [List.getElem?_zipWith, h1, h2, h3]

/-- Everything about the batches. -/
theorem batches_spec (ids : List String) (seqs : List (List α)) (sizes : List (List Int)) (flips : List (List Bool))
    (hnd : ids.Nodup) (hl : seqs.length = ids.length) (hne : seqs ≠ []) (hfr : ∀ s ∈ seqs, s ≠ []) (hcut : List.Forall₂ Cuts seqs sizes) :
    ∃ (bs : List (List (Chunk α))) (left : List (List (Chunk α))),
      batches ids seqs sizes flips = .ok (bs.map fun b => pk false (maxLen b) b, left.map (·.map Coll.mk)) ∧
      (∀ b ∈ bs, b ≠ [] ∧ (b.map (·.id)).Sublist ids ∧ ∀ c ∈ b, c.index = none ∧
        ∃ (k : Nat) (i : String) (s : List α) (ss : List Int), ids[k]? = some i ∧ seqs[k]? = some s ∧ sizes[k]? = some ss ∧ c ∈ cut i true ss s) ∧
      ∀ (k : Nat) (i : String) (s : List α) (ss : List Int), ids[k]? = some i → seqs[k]? = some s → sizes[k]? = some ss →
        ∃ l, left[k]? = some l ∧ chunksOf i bs ++ l = cut i true ss s ∧ (Enough flips k ss → l = []) := by
  have hl2 := hcut.length_eq
  have hcut' : List.Forall₂ (fun (s : List α) ss => (∀ x ∈ ss, (0 : Int) < x) ∧ isum ss = s.length) seqs sizes :=
    hcut.imp fun s ss h => ⟨h.1, by rw [← total_isum]; exact h.2⟩
  have hwne : whole ids seqs ≠ [] := by
    intro h
    have := (whole_cols ids seqs hl).2
    rw [h] at this
    exact hne this.symm
  have hunpad : unpad (pk false (maxLen (whole ids seqs)) (whole ids seqs)) = .ok ((whole ids seqs).map Coll.mk) := by
    refine unpad_packs _ _ hwne (pk_packs ?_ (fun c hc => maxLen_le c hc)) ?_
    · intro c hc
      unfold whole at hc
      obtain ⟨k, hk⟩ := List.getElem?_of_mem hc
      rw [List.getElem?_zipWith] at hk
      cases ha : ids[k]? <;> cases hb : seqs[k]? <;> simp only [ha, hb, reduceCtorEq, Option.some.injEq] at hk
      subst hk
      rfl
    · intro c hc
      have := (whole_cols ids seqs hl).2
      exact hfr _ (by rw [← this]; exact List.mem_map_of_mem hc)
  obtain ⟨h1, h2⟩ := rounds_spec flips ids _ (named_cut ids seqs sizes hl hl2.symm) hnd
  let ts := List.zipWith (fun (c : Chunk α) ss => cut c.id true ss c.frames) (whole ids seqs) sizes
  refine ⟨(rounds ts flips).1, (rounds ts flips).2, ?_, ?_, ?_⟩
  rotate_left
  · intro b hb
    obtain ⟨e1, e2, e3⟩ := h1 b hb
    refine ⟨e1, e2, fun c hc => ⟨(e3 c hc).1, ?_⟩⟩
    obtain ⟨t, ht, hct⟩ := (e3 c hc).2
    obtain ⟨k, hk⟩ := List.getElem?_of_mem ht
    have hkl := (List.getElem?_eq_some_iff.1 hk).1
    rw [← (named_cut ids seqs sizes hl hl2.symm).length_eq] at hkl
    have g1 : ids[k]? = some ids[k] := List.getElem?_eq_getElem (by omega)
    have g2 : seqs[k]? = some seqs[k] := List.getElem?_eq_getElem (by omega)
    have g3 : sizes[k]? = some sizes[k] := List.getElem?_eq_getElem (by omega)
    rw [cut_at ids seqs sizes k _ _ _ g1 g2 g3, Option.some.injEq] at hk
    exact ⟨k, _, _, _, g1, g2, g3, by rw [hk]; exact hct⟩
  · intro k i s ss g1 g2 g3
    obtain ⟨l, e1, e2, e3⟩ := h2 k i _ g1 (cut_at ids seqs sizes k i s ss g1 g2 g3)
    refine ⟨l, e1, e2, ?_⟩
    intro he
    rw [cut_length] at e3
    unfold Enough at he
    exact List.length_eq_zero_iff.1 (by omega)
  · unfold batches
    rw [padFull_pk ids seqs hl hne, Except.bind_ok', hunpad, Except.bind_ok', splitAll_mk ids seqs sizes hl hcut', Except.bind_ok']
    simp only [rounds_map]
    rw [padBatches_mk _ (fun b hb => (h1 b hb).1) (fun b hb c hc => ((h1 b hb).2.2 c hc).1), Except.bind_ok']

/-- **C115.** Cutting whole sequences (with distinct ids) into non-empty pieces and dealing the pieces into batches, each batch taking the next piece of any of the sequences, succeeds and gives a
stream schedule: zero-padded batches of non-empty chunks with distinct ids, each no wider than its longest chunk. For every sequence, the frames in the batches followed by those of the pieces not
yet dealt are the sequence; once it was chosen often enough, nothing is left of it and its chunks are one complete sequence (one start, one end). -/
theorem C115_batches (ids : List String) (seqs : List (List α)) (sizes : List (List Int)) (flips : List (List Bool))
    (hnd : ids.Nodup) (hl : seqs.length = ids.length) (hne : seqs ≠ []) (hfr : ∀ s ∈ seqs, s ≠ []) (hcut : List.Forall₂ Cuts seqs sizes) :
    ∃ xs left, batches ids seqs sizes flips = .ok (xs, left) ∧
      (∀ x ∈ xs, WellPacked x ∧ BatchOK (unpack x) ∧ Tight x.width (unpack x) ∧ x.md.chunk = none ∧ ∀ c ∈ unpack x, c.frames ≠ [] ∧ c.id ∈ ids) ∧
      ∀ (k : Nat) (i : String) (s : List α) (ss : List Int), ids[k]? = some i → seqs[k]? = some s → sizes[k]? = some ss →
        ∃ l, left[k]? = some l ∧ collected i xs ++ l.flatMap (·.frames) = s ∧
          (Enough flips k ss → l = [] ∧ Complete (chunksOf i (xs.map unpack)) ∧ collected i xs = s) := by
  obtain ⟨bs, left, e1, h1, h2⟩ := batches_spec ids seqs sizes flips hnd hl hne hfr hcut
  have hidx : ∀ b ∈ bs, ∀ c ∈ b, c.index.isSome = false := fun b hb c hc => by rw [((h1 b hb).2.2 c hc).1]; rfl
  have hu : ∀ b ∈ bs, unpack (pk false (maxLen b) b) = b := fun b hb => unpack_pk _ _ _ (hidx b hb)
  have hmap : (bs.map fun b => pk false (maxLen b) b).map unpack = bs := by
    rw [List.map_map]
    conv_rhs => rw [← List.map_id bs]
    exact List.map_congr_left fun b hb => hu b hb
  have hcs : ∀ (k : Nat) (s : List α) (ss : List Int), seqs[k]? = some s → sizes[k]? = some ss → Cuts s ss := by
    intro k s ss g2 g3
    obtain ⟨ss', g4, h⟩ := forall₂_getElem hcut g2
    rw [g3, Option.some.injEq] at g4
    exact g4 ▸ h
  refine ⟨_, _, e1, ?_, ?_⟩
  · intro x hx
    obtain ⟨b, hb, rfl⟩ := List.mem_map.1 hx
    obtain ⟨f1, f2, f3⟩ := h1 b hb
    have hfrm : ∀ c ∈ b, 1 ≤ c.frames.length := by
      intro c hc
      obtain ⟨-, k, i, s, ss, g1, g2, g3, hcc⟩ := f3 c hc
      obtain ⟨k1, k2⟩ := hcs k s ss g2 g3
      rw [total_isum] at k2
      exact cut_sizes i 1 ss true s (fun x hx => by have := k1 x hx; omega) k2 c hcc
    rw [WellPacked, hu b hb]
    refine ⟨pk_packs (hidx b hb) (fun c hc => maxLen_le c hc), batchOK_of f1 (f2.nodup hnd) hfrm, maxLen_tight f1, rfl, ?_⟩
    intro c hc
    refine ⟨?_, f2.subset (List.mem_map_of_mem (f := fun c : Chunk α => c.id) hc)⟩
    intro h0
    have := hfrm c hc
    rw [h0] at this
    simp at this
  · intro k i s ss g1 g2 g3
    obtain ⟨l, k1, k2, k3⟩ := h2 k i s ss g1 g2 g3
    obtain ⟨c1, c2⟩ := hcs k s ss g2 g3
    have hfr' := cut_frames i ss true s (fun x hx => by have := c1 x hx; omega) (by rw [← total_isum]; exact c2)
    refine ⟨l.map Coll.mk, by simp [k1], ?_, ?_⟩
    · unfold collected
      rw [hmap]
      conv_rhs => rw [← hfr', ← k2]
      simp only [allFrames, List.flatMap_append, List.flatMap_map]
      rfl
    · intro he
      have hl0 := k3 he
      subst hl0
      rw [List.append_nil] at k2
      unfold collected
      rw [hmap, k2, hfr']
      refine ⟨rfl, cut_complete i ss s ?_, rfl⟩
      rintro rfl
      simp only [total] at c2
      exact hfr s (List.mem_of_getElem? g2) (List.length_eq_zero_iff.1 (by omega))

/-- **C115**, the sizes: `random_chunks` gives positive sizes that add up to the length, all but the last one at least the minimum, if it is given enough draws. -/
theorem C115_random_chunks (seq : List α) (draws : List Int) (lo : Int) (hlo : 0 < lo) (hd : ∀ d ∈ draws, lo ≤ d) (hsum : (seq.length : Int) ≤ total draws) :
    (randomChunks seq.length draws).2 = 0 ∧ Cuts seq (randomChunks seq.length draws).1 ∧ ∀ s ∈ (randomChunks seq.length draws).1.dropLast, lo ≤ s := by
  have key : ∀ (ds : List Int) (n : Int), 0 ≤ n → (∀ d ∈ ds, lo ≤ d) → n ≤ total ds → (randomChunks n ds).2 = 0 ∧ (∀ s ∈ (randomChunks n ds).1, 0 < s) ∧
      total (randomChunks n ds).1 = n ∧ (∀ s ∈ (randomChunks n ds).1.dropLast, lo ≤ s) ∧ (0 < n → (randomChunks n ds).1 ≠ []) := by
    intro ds
    induction ds with
    | nil =>
      intro n h0 _ h
      simp only [total] at h
      simp only [randomChunks, total]
      refine ⟨by omega, by simp, by omega, by simp, by omega⟩
    | cons d ds ih =>
      intro n h0 hds h
      have hdl := hds d (by simp)
      simp only [total] at h
      by_cases hn : n > 0
      · obtain ⟨a1, a2, a3, a4, a5⟩ := ih (n - min d n) (by omega) (fun x hx => hds x (by simp [hx])) (by
          have hdn : 0 ≤ total ds := by
            rw [total_isum]
            exact isum_nonneg ds fun x hx => by have := hds x (by simp [hx]); omega
          omega)
        simp only [randomChunks, if_pos hn, total]
        refine ⟨a1, ?_, by omega, ?_, by simp⟩
        · intro s hs
          rcases List.mem_cons.1 hs with rfl | hs
          · omega
          · exact a2 s hs
        · intro s hs
          by_cases hr : n - min d n > 0
          · rw [List.dropLast_cons_of_ne_nil (a5 hr)] at hs
            rcases List.mem_cons.1 hs with rfl | hs
            · omega
            · exact a4 s hs
          · have : (randomChunks (n - min d n) ds).1 = [] := by
              cases ds with
              | nil => rfl
              | cons => simp only [randomChunks, if_neg hr]
            rw [this] at hs
            simp at hs
      · simp only [randomChunks, if_neg hn, total]
        refine ⟨by omega, by simp, by omega, by simp, by omega⟩
  obtain ⟨h1, h2, h3, h4, -⟩ := key draws seq.length (by omega) hd hsum
  exact ⟨h1, ⟨h2, h3⟩, h4⟩

/-- Two sequences in pieces of 3, 1 and 3 frames, dealt in three rounds. -/
example : ["a", "b"].Nodup ∧ Cuts [(1 : Int), 2, 3, 4] [3, 1] ∧ Cuts [(5 : Int), 6, 7] [3] ∧ Enough [[true, false], [false, false], [true, true]] 0 [3, 1] ∧ Enough [[true, false], [false, false], [true, true]] 1 [3] ∧
    (batches ["a", "b"] [[(1 : Int), 2, 3, 4], [5, 6, 7]] [[3, 1], [3]] [[true, false], [false, false], [true, true]]).map (·.1) =
      .ok [{ md := ⟨["a"], [true], [false], [3], none⟩, width := 3, rows := [[1, 2, 3]] },
        { md := ⟨["a", "b"], [false, true], [true, true], [1, 3], none⟩, width := 3, rows := [[4, 0, 0], [5, 6, 7]] }] := by
  refine ⟨by decide, ⟨by decide, by decide⟩, ⟨by decide, by decide⟩, by unfold Enough; decide, by unfold Enough; decide, by decide⟩

example : randomChunks 10 [4, 5, 6, 4] = ([4, 5, 1], 0) := by decide

end
end DS.Pipe
