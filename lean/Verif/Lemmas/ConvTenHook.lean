import Verif.Lemmas.ConvTen
import Verif.Props.TensorSplit
import Verif.Props.ConvSession
/-! The hooks of `Conv1d` on named tensors refine the hooks on frames. -/

namespace DS.ConvT
open DS.Tn DS.Conv

section
variable {α : Type} [AddCommMonoid α] [Mul α]

theorem asFrames_length (ch : Nat) (t : Ten α) : (asFrames ch t).length = t.shape.getD 1 0 := by simp [asFrames]

/-- A row of the batch as a StreamTensor with axes (channels, L). -/
structure IsRow (ch : Nat) (f : Option String) (y : STen α) (z : Meta × List (Nat → α)) : Prop where
  md : y.md = z.1
  shape : y.t.shape = [ch, z.2.length]
  names : y.t.names = [f, LENGTH]
  data : z.2 = asFrames ch y.t

theorem okNames2 {f : Option String} (hl : f ≠ LENGTH) (he : f ≠ some "") : ([f, LENGTH].filterMap id).Nodup ∧ some "" ∉ [f, LENGTH] := by
  constructor
  · cases f with
    | none => decide
    | some s =>
      have h2 : s ≠ "L" := fun h => hl (by rw [h]; rfl)
      simp [LENGTH, h2]
  · simp [LENGTH, he.symm]

theorem unify_none (f : Option String) : unifyName none f = .ok f := by cases f <;> rfl

theorem namesOK_of {ns : List (Option String)} (h : (ns.filterMap id).Nodup ∧ some "" ∉ ns) : namesOK ns = true := (namesOK_iff ns).2 h

/-- Concatenation of a buffer and a row. -/
theorem prepend_row {ch : Nat} {f : Option String} (hl : f ≠ LENGTH) (he : f ≠ some "") {y : STen α} {z : Meta × List (Nat → α)} (hy : IsRow ch f y z)
    {b : Option (Ten α)} {b' : Option (List (Nat → α))} (hb : ∀ t, b = some t → ∃ w, t.shape = [ch, w] ∧ t.names = [none, none]) (hbb : b' = b.map (asFrames ch)) :
    ∃ y', prependT y b = .ok y' ∧ IsRow ch f y' (prepend b' z) := by
  cases b with
  | none => subst hbb; exact ⟨y, rfl, hy⟩
  | some t =>
    obtain ⟨w, h1, h2⟩ := hb t rfl
    subst hbb
    have hz := hy.shape
    have hpy : pyGet y.t.names (-1) = .ok LENGTH := by rw [hy.names]; rfl
    have hcat : catTen t [y.t] (-1) = .ok { shape := [ch, w + z.2.length], names := [f, LENGTH], val := catVal 1 t [y.t] } := by
      have hu : unifyNames [none, none] [f, LENGTH] = .ok [f, LENGTH] := by
        simp only [unifyNames, unify_none, Except.bind_ok']
      have hn : normDim 2 (-1) = .ok 1 := rfl
      unfold catTen
      simp only [Ten.ndim, h1, h2, hz, hy.names, List.length_cons, List.length_nil, Nat.zero_add, Nat.reduceAdd, hn, Except.bind_ok', unifyAll, hu]
      rw [if_pos (by simp [hz]), if_pos (namesOK_of (okNames2 hl he))]
      simp [hz, h1]
    have hlen : (asFrames ch t).length = w := by rw [asFrames_length, h1]; rfl
    refine ⟨⟨{ shape := [ch, w + z.2.length], names := [f, LENGTH], val := catVal 1 t [y.t] }, { y.md with lengths := y.md.lengths.map (· + ((w : Int) + 0)) }⟩, ?_, ?_⟩
    · have hps : plainSizes (-1) [Opd.plain t, .stream y] = .ok ((w : Int) + 0) := by
        simp [plainSizes, sizeAt, Ten.ndim, h1, show normDim 2 (-1) = .ok 1 from rfl, Except.bind_ok']
      have hc : cat (.plain t) [.stream y] (-1) = .ok (.stream ⟨{ shape := [ch, w + z.2.length], names := [f, LENGTH], val := catVal 1 t [y.t] },
          { y.md with lengths := y.md.lengths.map (· + ((w : Int) + 0)) }⟩) := by
        unfold cat
        simp only [streams, dimIs, hpy, Except.bind_ok']
        rw [if_neg (by decide), if_pos (by decide)]
        unfold catLengthDim
        simp only [List.dropLast_cons₂, List.dropLast_singleton, padChecks, padCheck, Except.bind_ok', Opd.ten, List.map_cons, List.map_nil, streams]
        rw [hcat, Except.bind_ok']
        show (Except.ok y.md >>= _) = _
        rw [Except.bind_ok', hps, Except.bind_ok']
      simp only [prependT, hc, Except.bind_ok']
    · have hcv : ∀ c j : Nat, catVal 1 t [y.t] [c, j] = if j < w then t.val [c, j] else y.t.val [c, j - w] := by
        intro c j
        simp [catVal, h1]
      refine ⟨?_, ?_, rfl, ?_⟩
      · simp only [prepend, Option.map_some, hlen, hy.md, Int.add_zero]
      · simp [prepend, hlen]
      · simp only [prepend, Option.map_some]
        rw [hy.data]
        simp only [asFrames, h1, hz, List.getD_cons_succ, List.getD_cons_zero, asFrames_length]
        refine List.ext_getElem (by simp) fun j h3 h4 => ?_
        rw [List.getElem_append]
        simp only [List.getElem_map, List.getElem_range, List.length_map, List.length_range, hcv]
        split <;> rfl

/-- Concatenation of the stacked buffers and the batch. -/
theorem prepend_batch {ch ref : Nat} {x : STen α} (hx : BCL ch x) {s : Ten α} (h1 : s.shape = [x.md.ids.length, ch, ref]) (h2 : s.names = [none, none, none]) :
    ∃ y, prependT x (some s) = .ok y ∧ BCL ch y ∧ y.t.names = x.t.names ∧
      asBatch ch y = { md := { x.md with lengths := x.md.lengths.map (· + (ref : Int)) }, width := ref + (asBatch ch x).width,
                       rows := List.zipWith (· ++ ·) (rowsOf x.md.ids.length ch ref s) (asBatch ch x).rows } := by
  obtain ⟨f, hnames, hfb, hfl, hfe⟩ := hx.names
  obtain ⟨w, hz⟩ := hx.shape
  have hpy : pyGet x.t.names (-1) = .ok LENGTH := by rw [hnames]; rfl
  have hcat : catTen s [x.t] (-1) = .ok { shape := [x.md.ids.length, ch, ref + w], names := [BATCH, f, LENGTH], val := catVal 2 s [x.t] } := by
    have hu : unifyNames [none, none, none] [BATCH, f, LENGTH] = .ok [BATCH, f, LENGTH] := by
      simp only [unifyNames, unify_none, Except.bind_ok']
    have hn : normDim 3 (-1) = .ok 2 := rfl
    unfold catTen
    simp only [Ten.ndim, h1, h2, hnames, List.length_cons, List.length_nil, Nat.zero_add, Nat.reduceAdd, hn, Except.bind_ok', unifyAll, hu]
    rw [if_pos (by simp [hz]), if_pos (namesOK_of (okNames3 hfb hfl hfe))]
    simp [hz, h1]
  have hps : plainSizes (-1) [Opd.plain s, .stream x] = .ok ((ref : Int) + 0) := by
    simp [plainSizes, sizeAt, Ten.ndim, h1, show normDim 3 (-1) = .ok 2 from rfl, Except.bind_ok']
  have hc : cat (.plain s) [.stream x] (-1) = .ok (.stream ⟨{ shape := [x.md.ids.length, ch, ref + w], names := [BATCH, f, LENGTH], val := catVal 2 s [x.t] },
      { x.md with lengths := x.md.lengths.map (· + ((ref : Int) + 0)) }⟩) := by
    unfold cat
    simp only [streams, dimIs, hpy, Except.bind_ok']
    rw [if_neg (by decide), if_pos (by decide)]
    unfold catLengthDim
    simp only [List.dropLast_cons₂, List.dropLast_singleton, padChecks, padCheck, Except.bind_ok', Opd.ten, List.map_cons, List.map_nil, streams]
    rw [hcat, Except.bind_ok']
    show (Except.ok x.md >>= _) = _
    rw [Except.bind_ok', hps, Except.bind_ok']
  have hcv : ∀ b c j : Nat, catVal 2 s [x.t] [b, c, j] = if j < ref then s.val [b, c, j] else x.t.val [b, c, j - ref] := by
    intro b c j
    simp [catVal, h1]
  refine ⟨⟨{ shape := [x.md.ids.length, ch, ref + w], names := [BATCH, f, LENGTH], val := catVal 2 s [x.t] }, { x.md with lengths := x.md.lengths.map (· + ((ref : Int) + 0)) }⟩,
    by simp only [prependT, hc, Except.bind_ok'], ⟨⟨f, rfl, hfb, hfl, hfe⟩, ⟨ref + w, rfl⟩, ?_⟩, hnames.symm, ?_⟩
  · exact ⟨hx.mdwf.1, hx.mdwf.2.1, by simpa using hx.mdwf.2.2.1, hx.mdwf.2.2.2⟩
  · simp only [asBatch, hz, List.getD_cons_succ, List.getD_cons_zero, Int.add_zero, ST.mk.injEq, true_and]
    refine List.ext_getElem (by simp [rowsOf]) fun b h3 h4 => ?_
    simp only [List.getElem_zipWith, rowsOf, List.getElem_map, List.getElem_range, rowOf]
    refine List.ext_getElem (by simp) fun j h5 h6 => ?_
    rw [List.getElem_append]
    simp only [List.getElem_map, List.getElem_range, List.length_map, List.length_range, hcv]
    split <;> rfl

theorem mapM_id_map {β : Type} (ts : List β) : (ts.map some).mapM id = some ts := by
  induction ts with
  | nil => rfl
  | cons t ts ih => rw [List.map_cons, List.mapM_cons, ih]; rfl

theorem mapM_id_none {β : Type} {bs : List (Option β)} (h : none ∈ bs) : bs.mapM id = none := by
  induction bs with
  | nil => simp at h
  | cons b bs ih =>
    rw [List.mapM_cons]
    cases b with
    | none => rfl
    | some b =>
      have : none ∈ bs := by simpa using h
      rw [ih this]
      rfl

theorem some_or_none {β : Type} (bs : List (Option β)) : none ∈ bs ∨ ∃ ts : List β, bs = ts.map some := by
  induction bs with
  | nil => exact .inr ⟨[], rfl⟩
  | cons b bs ih =>
    cases b with
    | none => exact .inl (by simp)
    | some b =>
      rcases ih with h | ⟨ts, rfl⟩
      · exact .inl (by simp [h])
      · exact .inr ⟨b :: ts, rfl⟩

/-- `torch.stack` of the buffers. -/
theorem stack_agree {ch : Nat} {bs : List (Option (Ten α))} (hne : bs ≠ []) (hb : ∀ t, some t ∈ bs → ∃ w, t.shape = [ch, w] ∧ t.names = [none, none])
    (hlen : bs.all (fun b => bufLenT b == bufLenT (bs.head?.getD none)) = true) :
    (stackT bs = .error .typeError ∧ (bs.map fun b => b.map (asFrames ch)).mapM id = none) ∨
    ∃ s, stackT bs = .ok s ∧ s.shape = [bs.length, ch, bufLenT (bs.head?.getD none)] ∧ s.names = [none, none, none] ∧
      (bs.map fun b => b.map (asFrames ch)).mapM id = some (rowsOf bs.length ch (bufLenT (bs.head?.getD none)) s) := by
  rcases some_or_none bs with h | ⟨ts, rfl⟩
  · left
    refine ⟨by rw [stackT, mapM_id_none h], mapM_id_none (List.mem_map.2 ⟨none, h, rfl⟩)⟩
  · right
    rw [List.map_map, show ((fun b : Option (Ten α) => b.map (asFrames ch)) ∘ some) = some ∘ asFrames ch from rfl, ← List.map_map, mapM_id_map]
    cases ts with
    | nil => simp at hne
    | cons t ts =>
      have hshape : ∀ u ∈ t :: ts, u.shape = [ch, lastSize t] ∧ u.names = [none, none] := by
        intro u hu
        obtain ⟨w, h1, h2⟩ := hb u (by simpa using hu)
        have h3 := List.all_eq_true.1 hlen (some u) (by simpa using hu)
        simp only [List.map_cons, List.head?_cons, Option.getD_some, bufLenT, Option.map_some, beq_iff_eq] at h3
        rw [← h3, lastSize, Ten.ndim, h1]
        exact ⟨rfl, h2⟩
      have hl : bufLenT (((t :: ts).map some).head?.getD none) = lastSize t := rfl
      rw [hl]
      have ht := hshape t (by simp)
      refine ⟨_, by rw [stackT, mapM_id_map]; dsimp only; rw [if_pos fun u hu => (hshape u (by simp [hu])).1.trans ht.1.symm], ?_, ?_, ?_⟩
      · simp [ht.1]
      · simp [ht.1]
      · congr 1
        refine List.ext_getElem (by simp [rowsOf]) fun b h3 h4 => ?_
        have hbl : b < (t :: ts).length := by simpa using h3
        simp only [List.getElem_map, rowsOf, List.getElem_range, rowOf, asFrames]
        rw [(hshape _ (List.getElem_mem hbl)).1]
        refine List.map_congr_left fun j _ => ?_
        funext c
        show _ = if c < ch then (((t :: ts)[b]?).map fun u => u.val [c, j]).getD 0 else 0
        rw [List.getElem?_eq_getElem hbl]
        rfl

theorem Agree.mapM {β γ δ ε : Type} {R : β → γ → Prop} {S : δ → ε → Prop} {f : β → Py δ} {g : γ → Py ε} {xs : List β} {ys : List γ} (h : List.Forall₂ R xs ys)
    (hf : ∀ x y, R x y → Agree S (f x) (g y)) : Agree (List.Forall₂ S) (xs.mapM f) (ys.mapM g) := by
  induction h with
  | nil => exact .ok .nil
  | cons h hs ih =>
    rw [List.mapM_cons, List.mapM_cons]
    exact (hf _ _ h).bind fun a b hab => ih.bind fun as bs habs => .ok (.cons hab habs)

theorem ragged_eq {β : Type} [Zero β] (w : Nat) : ∀ (ms : List Meta) (rs : List (List β)) (bs : List (Option (List β))), rs.length = ms.length → bs.length = ms.length →
    raggedRows w ms rs bs = ((ms.zip rs).mapM fun p => narrowRow p.1 w p.2).map fun xs => List.zipWith prepend bs xs := by
  intro ms
  induction ms with
  | nil => intro rs bs _ _; cases rs <;> cases bs <;> simp_all [raggedRows] <;> rfl
  | cons m ms ih =>
    intro rs bs h1 h2
    obtain ⟨r, rs, rfl⟩ : ∃ a l, rs = a :: l := by cases rs with | nil => simp at h1 | cons a b => exact ⟨a, b, rfl⟩
    obtain ⟨b, bs, rfl⟩ : ∃ a l, bs = a :: l := by cases bs with | nil => simp at h2 | cons a b => exact ⟨a, b, rfl⟩
    simp only [raggedRows, List.zip_cons_cons, List.mapM_cons]
    cases narrowRow m w r with
    | error e => rfl
    | ok x =>
      rw [Except.bind_ok', Except.bind_ok', ih rs bs (by simpa using h1) (by simpa using h2)]
      cases (ms.zip rs).mapM fun p => narrowRow p.1 w p.2 with
      | error e => rfl
      | ok xs => rfl

/-- One row. -/
theorem unpadRow_agree {n ch w : Nat} {f : Option String} {t : Ten α} (h1 : t.shape = [n, ch, w]) (h2 : t.names = [BATCH, f, LENGTH]) (i : Nat) (m : Meta) (l : Int)
    (hm : m.lengths = [l]) : Agree (IsRow ch f) (unpadSequence.unpadRow 0 1 ⟨t.pickAt 0 i, m⟩) (narrowRow m w (rowOf ch w t i)) := by
  unfold unpadSequence.unpadRow narrowRow
  simp only [hm]
  rw [show pyGet [l] 0 = .ok l from rfl, Except.bind_ok']
  unfold narrow Ten.narrow
  have hs : (t.pickAt 0 i).shape = [ch, w] := by simp [Ten.pickAt, h1]
  have hn : (t.pickAt 0 i).names = [f, LENGTH] := by simp [Ten.pickAt, h2]
  simp only [hs, hn, Ten.ndim, List.length_cons, List.length_nil, Nat.zero_add, Nat.reduceAdd]
  rw [show normDim 2 ((1 : Nat) : Int) = .ok 1 from rfl, Except.bind_ok']
  simp only [List.getD_cons_succ, List.getD_cons_zero]
  by_cases h3 : l < 0
  · rw [if_pos h3, if_pos (Or.inl h3)]
    exact .error _
  · rw [if_neg h3, if_neg (show ¬ ((0 : Int) < -(w : Int) ∨ (w : Int) < 0) by omega), if_neg (show ¬ ((0 : Int) < 0) by omega)]
    by_cases h4 : (w : Int) < l
    · rw [if_pos (show (w : Int) < 0 + l by omega), if_pos (Or.inr h4)]
      exact .error _
    · rw [if_neg (show ¬ ((w : Int) < 0 + l) by omega), if_neg (show ¬ (l < 0 ∨ l > (w : Int)) by omega), Except.bind_ok', show pyGet [f, LENGTH] ((1 : Nat) : Int) = .ok LENGTH from rfl, Except.bind_ok',
        if_neg (by decide), if_pos rfl, Int.zero_add]
      cases m.index2 0 (.slice {}) (.slice { start := some 0, stop := some l }) with
      | error e => exact .error _
      | ok m' =>
        refine .ok ⟨rfl, ?_, rfl, ?_⟩
        · simp [rowOf]
          omega
        · simp only [asFrames, List.set_cons_succ, List.set_cons_zero, List.getD_cons_succ, List.getD_cons_zero, rowOf]
          refine List.ext_getElem (by simp; omega) fun j h5 h6 => ?_
          simp only [List.getElem_take, List.getElem_map, List.getElem_range]
          rfl

/-- `unpad_sequence` of the batch. -/
theorem unpad_agree {ch : Nat} {x : STen α} (hx : BCL ch x) (hne : x.md.ids ≠ []) :
    ∃ f, x.t.names = [BATCH, f, LENGTH] ∧ Agree (List.Forall₂ (IsRow ch f)) (unpadSequence 0 x)
      (x.md.unbindBatch >>= fun ms => (ms.zip (asBatch ch x).rows).mapM fun p => narrowRow p.1 (asBatch ch x).width p.2) := by
  obtain ⟨f, hnames, hfb, hfl, hfe⟩ := hx.names
  obtain ⟨w, hw⟩ := hx.shape
  refine ⟨f, hnames, ?_⟩
  have hrl : x.md.rows.length = x.md.ids.length := Meta.rows_length x.md hx.mdwf
  have hu : x.md.unbindBatch = .ok (x.md.rows.map fun r => Meta.ofRows x.md.chunk.isSome [r]) := by
    conv_lhs => rw [Meta.eq_ofRows x.md hx.mdwf]
    refine Meta.unbind_ofRows _ _ ?_
    intro h
    rw [h] at hrl
    exact hne (List.length_eq_zero_iff.1 hrl.symm)
  have hnd := (okNames3 hfb hfl hfe).1
  have hb : nameIndex x.t.names BATCH = .ok 0 := by rw [hnames]; exact nameIndex_of hnd rfl
  have hl : nameIndex x.t.names LENGTH = .ok 2 := by rw [hnames]; exact nameIndex_of (b := 2) hnd rfl
  have hub : unbind x ((0 : Nat) : Int) = .ok (zipStream (x.t.unbind 0) (x.md.rows.map fun r => Meta.ofRows x.md.chunk.isSome [r])) := by
    unfold unbind
    rw [hnames, show pyGet [BATCH, f, LENGTH] ((0 : Nat) : Int) = .ok BATCH from rfl, Except.bind_ok', if_neg (by decide), Ten.ndim, hw,
      show normDim [x.md.ids.length, ch, w].length ((0 : Nat) : Int) = .ok 0 from rfl, Except.bind_ok', if_pos rfl, hu, Except.bind_ok', if_neg]
    simp [Ten.unbind, hw, hrl]
  unfold unpadSequence
  rw [hb, Except.bind_ok', hl, Except.bind_ok', hub, Except.bind_ok', hu, Except.bind_ok']
  have hwid : (asBatch ch x).width = w := by simp [asBatch, hw]
  have hrows : (asBatch ch x).rows = rowsOf x.md.ids.length ch w x.t := by simp [asBatch, hw]
  rw [hwid, hrows]
  refine Agree.mapM (R := fun y p => ∃ i r, y = ⟨x.t.pickAt 0 i, Meta.ofRows x.md.chunk.isSome [r]⟩ ∧ p = (Meta.ofRows x.md.chunk.isSome [r], rowOf ch w x.t i)) ?_ ?_
  · have hul : (x.t.unbind 0).length = x.md.ids.length := by simp [Ten.unbind, hw]
    have hzl : (zipStream (x.t.unbind 0) (x.md.rows.map fun r => Meta.ofRows x.md.chunk.isSome [r])).length = x.md.ids.length := by
      rw [zipStream_length _ _ (by simp [hul, hrl]), hul]
    refine List.forall₂_iff_get.2 ⟨by rw [hzl]; simp [rowsOf, hrl], fun i h3 h4 => ?_⟩
    have hi : i < x.md.ids.length := by omega
    have hget := (zipStream_get (x.t.unbind 0) (x.md.rows.map fun r => Meta.ofRows x.md.chunk.isSome [r]) i ⟨x.t.pickAt 0 i, Meta.ofRows x.md.chunk.isSome [x.md.rows[i]'(by omega)]⟩).2
      ⟨by simp [Ten.unbind, hw, hi], by simp [List.getElem?_eq_getElem (show i < x.md.rows.length by omega)]⟩
    obtain ⟨h5, h6⟩ := List.getElem?_eq_some_iff.1 hget
    refine ⟨i, x.md.rows[i]'(by omega), h6, ?_⟩
    simp [rowsOf]
  · rintro y p ⟨i, r, rfl, rfl⟩
    exact unpadRow_agree hw hnames i _ r.len rfl

theorem prependAll_agree {ch : Nat} {f : Option String} (hl : f ≠ LENGTH) (he : f ≠ some "") {ys : List (STen α)} {zs : List (Meta × List (Nat → α))}
    (h : List.Forall₂ (IsRow ch f) ys zs) : ∀ (bs : List (Option (Ten α))), (∀ t, some t ∈ bs → ∃ w, t.shape = [ch, w] ∧ t.names = [none, none]) →
      ∃ ys', prependAll ys bs = .ok ys' ∧ List.Forall₂ (IsRow ch f) ys' (List.zipWith prepend (bs.map fun b => b.map (asFrames ch)) zs) := by
  induction h with
  | nil =>
    intro bs _
    exact ⟨[], by simp [prependAll], by simp⟩
  | @cons y z ys zs h hs ih =>
    intro bs hb
    cases bs with
    | nil => exact ⟨[], by simp [prependAll], by simp⟩
    | cons b bs =>
      obtain ⟨y', h1, h2⟩ := prepend_row hl he h (b := b) (fun t ht => hb t (by simp [ht])) rfl
      obtain ⟨ys', h3, h4⟩ := ih bs fun t ht => hb t (by simp [ht])
      refine ⟨y' :: ys', by simp only [prependAll, h1, h3, Except.bind_ok'], ?_⟩
      simp only [List.map_cons, List.zipWith_cons_cons]
      exact .cons h2 h4

/-- A row with the time axis first. -/
def flipT (t : Ten α) : Ten α := { shape := [t.shape.getD 1 0, t.shape.getD 0 0], names := [none, none], val := fun ix => t.val [ix.getD 1 0, ix.getD 0 0] }

theorem permute_flip {ch w : Nat} {t : Ten α} (h : t.shape = [ch, w]) : t.unnamed.permute (lengthFirst 2 1) = .ok (flipT t) := by
  have hd : (lengthFirst 2 1).mapM (normDim 2) = .ok [1, 0] := rfl
  unfold Ten.permute
  have hn : t.unnamed.ndim = 2 := by simp [Ten.ndim, Ten.unnamed, h]
  rw [hn, hd, Except.bind_ok', if_pos (by decide)]
  rfl

theorem foldl_max_eq (ws : List Nat) : ws.foldl max 0 = ws.foldr max 0 := by
  have : ∀ (ws : List Nat) (a : Nat), ws.foldl max a = max a (ws.foldr max 0) := by
    intro ws
    induction ws with
    | nil => intro a; simp
    | cons w ws ih => intro a; simp only [List.foldl_cons, List.foldr_cons, ih]; omega
  rw [this]; omega

theorem le_foldl_max {ws : List Nat} {w : Nat} (h : w ∈ ws) : w ≤ ws.foldl max 0 := by
  rw [foldl_max_eq]
  induction ws with
  | nil => simp at h
  | cons v ws ih =>
    simp only [List.foldr_cons]
    rcases List.mem_cons.1 h with rfl | h
    · omega
    · have := ih h; omega

theorem mapM_ok_map {β γ : Type} {f : β → Py γ} {g : β → γ} {xs : List β} (h : ∀ x ∈ xs, f x = .ok (g x)) : xs.mapM f = .ok (xs.map g) := by
  induction xs with
  | nil => rfl
  | cons x xs ih =>
    rw [List.mapM_cons, h x (by simp), Except.bind_ok', ih fun y hy => h y (by simp [hy])]
    rfl

theorem forall₂_map_eq {β γ δ : Type} {R : β → γ → Prop} {f : β → δ} {g : γ → δ} {xs : List β} {ys : List γ} (h : List.Forall₂ R xs ys) (hfg : ∀ x y, R x y → f x = g y) :
    xs.map f = ys.map g := by
  induction h with
  | nil => rfl
  | cons h _ ih => rw [List.map_cons, List.map_cons, hfg _ _ h, ih]

theorem Agree.bindLeft {β γ δ : Type} {R : β → γ → Prop} {S : δ → γ → Prop} {a : Py β} {b : Py γ} {f : β → Py δ} (h : Agree R a b)
    (hf : ∀ x y, R x y → Agree S (f x) (.ok y)) : Agree S (a >>= f) b := by
  cases h with
  | ok h => exact hf _ _ h
  | error e => exact .error e

/-- The data of a row: axes (channels, L), and its frames. -/
def IsData (ch : Nat) (t : Ten α) (fr : List (Nat → α)) : Prop := t.shape = [ch, fr.length] ∧ fr = asFrames ch t

/-- A padded batch with axes (L, B, channels). -/
structure TimeFirst (ch : Nat) (f : Option String) (y : STen α) (z : ST (Nat → α)) : Prop where
  md : z.md = y.md
  wf : y.md.WF
  shape : y.t.shape = [z.width, y.md.ids.length, ch]
  names : y.t.names = [LENGTH, BATCH, f]
  rows : z.rows = (List.range y.md.ids.length).map fun i => (List.range z.width).map fun j c => if c < ch then y.t.val [j, i, c] else 0

/-- The same batch with axes (B, channels, L). -/
def batchFirst (y : STen α) (f : Option String) : STen α :=
  ⟨{ shape := [y.t.shape.getD 1 0, y.t.shape.getD 2 0, y.t.shape.getD 0 0], names := [BATCH, f, LENGTH], val := fun ix => y.t.val [ix.getD 2 0, ix.getD 0 0, ix.getD 1 0] }, y.md⟩

theorem TimeFirst.batch {ch : Nat} {f : Option String} (hb : f ≠ BATCH) (hl : f ≠ LENGTH) (he : f ≠ some "") {y : STen α} {z : ST (Nat → α)} (h : TimeFirst ch f y z) :
    z = asBatch ch (batchFirst y f) ∧ BCL ch (batchFirst y f) := by
  refine ⟨?_, ⟨⟨f, rfl, hb, hl, he⟩, ⟨z.width, by simp [batchFirst, h.shape]⟩, h.wf⟩⟩
  obtain ⟨md, w, rows⟩ := z
  have h1 := h.md
  have h2 := h.shape
  have h3 := h.rows
  dsimp only at h1 h2 h3
  subst h1 h3
  simp only [asBatch, batchFirst, h2, List.getD_cons_zero, List.getD_cons_succ, rowsOf]
  rfl

theorem padChunks_agree {ch : Nat} {f : Option String} (hb : f ≠ BATCH) (hl : f ≠ LENGTH) (he : f ≠ some "") {ys : List (Ten α)} {zs : List (List (Nat → α))}
    (h : List.Forall₂ (IsData ch) ys zs) (hne : ys ≠ []) (ids : List String) (sos eos : List Bool) :
    Agree (TimeFirst ch f) (padChunks 0 (ys.map (·.unnamed)) [f, LENGTH] ids sos eos false)
      (Meta.init ids sos eos (zs.map fun z => (z.length : Int)) none >>= fun md =>
        .ok { md, width := (zs.map (·.length)).foldl max 0, rows := zs.map fun z => z ++ List.replicate ((zs.map (·.length)).foldl max 0 - z.length) 0 }) := by
  have hlen := h.length_eq
  obtain ⟨y0, ys0, rfl⟩ : ∃ a l, ys = a :: l := by cases ys with | nil => exact absurd rfl hne | cons a b => exact ⟨a, b, rfl⟩
  generalize hys : y0 :: ys0 = ys at *
  have hsh : ∀ y ∈ ys, ∃ w, y.shape = [ch, w] := by
    intro y hy
    obtain ⟨i, hi, rfl⟩ := List.getElem_of_mem hy
    exact ⟨_, ((List.forall₂_iff_get.1 h).2 i hi (by omega)).1⟩
  have hperm : (ys.map (·.unnamed)).mapM (fun t => t.permute (lengthFirst 2 1)) = .ok (ys.map flipT) := by
    rw [List.mapM_map]
    exact mapM_ok_map fun y hy => by obtain ⟨w, hw⟩ := hsh y hy; exact permute_flip hw
  have hidx : nameIndex [f, LENGTH] LENGTH = .ok 1 := nameIndex_of (b := 1) (okNames2 hl he).1 rfl
  have hls : (ys.map flipT).mapM size0 = .ok (ys.map fun y => y.shape.getD 1 0) := by
    rw [List.mapM_map]
    exact mapM_ok_map fun y hy => rfl
  have hlens : (ys.map fun y => y.shape.getD 1 0) = zs.map fun z => z.length := forall₂_map_eq h fun _ _ h => by rw [h.1]; rfl
  have hwd : (ys.map fun y => (flipT y).shape.headD 0) = zs.map fun z => z.length := forall₂_map_eq h fun _ _ h => by simp [flipT, h.1]
  generalize hW : (zs.map fun z => z.length).foldl max 0 = W
  have hpt : ∃ t, padTen 0 false (ys.map flipT) = .ok t ∧ t.shape = [W, ys.length, ch] ∧
      ∀ j i c : Nat, t.val [j, i, c] = padTen.entry 0 i j [c] (ys.map flipT) := by
    rw [← hys, List.map_cons, padTen]
    rw [if_pos]
    · refine ⟨_, rfl, ?_, fun j i c => rfl⟩
      have h1 : (flipT y0).shape.tail = [ch] := by
        obtain ⟨w, hw⟩ := hsh y0 (by simp [← hys])
        simp [flipT, hw]
      have h2 : ((flipT y0 :: ys0.map flipT).map fun u => u.shape.headD 0).foldr max 0 = W := by
        rw [← List.map_cons (f := (flipT : Ten α → Ten α)), hys, List.map_map]
        rw [show ((fun u : Ten α => u.shape.headD 0) ∘ flipT) = fun y => (flipT y).shape.headD 0 from rfl, hwd, ← foldl_max_eq, hW]
      simp only [h1, h2]
      simp
    · intro u hu
      obtain ⟨y, hy, rfl⟩ := List.mem_map.1 hu
      obtain ⟨w, hw⟩ := hsh y (by simp [← hys, hy])
      obtain ⟨w', hw'⟩ := hsh y0 (by simp [← hys])
      simp [flipT, hw, hw', Ten.ndim]
  obtain ⟨t, ht, hts, htv⟩ := hpt
  unfold padChunks
  rw [if_neg (by simp [hb.symm]; decide), hidx, Except.bind_ok', if_pos (by decide)]
  rw [show [f, LENGTH].length = 2 from rfl, hperm, Except.bind_ok']
  dsimp only
  rw [hls, Except.bind_ok', ht, Except.bind_ok']
  have hfilter : ([LENGTH, BATCH] ++ [f, LENGTH].filter fun n => decide (n ≠ LENGTH)) = [LENGTH, BATCH, f] := by simp [hl]
  have hok3 := okNames3 hb hl he
  have hokp : ([LENGTH, BATCH, f].filterMap id).Nodup ∧ some "" ∉ [LENGTH, BATCH, f] := by
    refine okNames_perm ?_ hok3
    exact (List.perm_append_comm (l₁ := [LENGTH]) (l₂ := [BATCH, f]))
  rw [if_neg (by decide), hfilter, rename_ok t _ (by simp [Ten.ndim, hts]) hokp, Except.bind_ok', hlens, List.map_map]
  show Agree _ (Meta.init ids sos eos (zs.map fun z => (z.length : Int)) none >>= _) _
  cases hinit : Meta.init ids sos eos (zs.map fun z => (z.length : Int)) none with
  | error e => exact .error _
  | ok md =>
    rw [Except.bind_ok', Except.bind_ok']
    obtain ⟨hwf, hids⟩ : md.WF ∧ md.ids.length = zs.length := by
      unfold Meta.init at hinit
      split at hinit
      · rename_i hc
        simp only [Except.ok.injEq] at hinit
        subst hinit
        simp only [List.length_map] at hc
        refine ⟨⟨?_, ?_, ?_, by simp⟩, ?_⟩ <;> simp only [List.length_map] <;> omega
      · simp at hinit
    refine .ok ⟨rfl, hwf, ?_, rfl, ?_⟩
    · show t.shape = [W, md.ids.length, ch]
      rw [hts, hids, hlen]
    · dsimp only
      refine List.ext_getElem (by simp [hids]) fun i h3 h4 => ?_
      have hiz : i < zs.length := by simpa using h3
      have hR := (List.forall₂_iff_get.1 h).2 i (by omega) hiz
      simp only [List.get_eq_getElem] at hR
      have hle : zs[i].length ≤ W := by
        rw [← hW]
        exact le_foldl_max (List.mem_map.2 ⟨zs[i], List.getElem_mem _, rfl⟩)
      simp only [List.getElem_map, List.getElem_range]
      refine List.ext_getElem (by simp; omega) fun j h5 h6 => ?_
      simp only [List.getElem_map, List.getElem_range]
      funext c
      rw [htv, padTen.entry, List.getElem?_map, List.getElem?_eq_getElem (by omega)]
      simp only [Option.map_some]
      have hhd : (flipT ys[i]).shape.headD 0 = zs[i].length := by simp [flipT, hR.1]
      rw [hhd, List.getElem_append]
      by_cases hj : j < zs[i].length
      · rw [dif_pos hj, if_pos hj]
        have h7 : zs[i][j] = fun c => if c < ch then ys[i].val [c, j] else 0 := by
          rw [List.getElem_of_eq hR.2 hj]
          simp [asFrames]
        rw [h7]
        rfl
      · rw [dif_neg hj, if_neg hj, List.getElem_replicate, ite_self]
        rfl

theorem padStream_time {ch : Nat} {f : Option String} (hb : f ≠ BATCH) (hl : f ≠ LENGTH) (he : f ≠ some "") {ys : List (STen α)} {zs : List (Meta × List (Nat → α))}
    (h : List.Forall₂ (IsRow ch f) ys zs) (hne : ys ≠ []) : Agree (TimeFirst ch f) (Tn.padStream 0 ys false) (Conv.padStream zs) := by
  have hmd : ys.map (·.md) = zs.map (·.1) := forall₂_map_eq h fun _ _ h => h.md
  unfold Tn.padStream Conv.padStream
  rw [hmd]
  cases Meta.catBatch (zs.map (·.1)) with
  | error e => exact .error _
  | ok m =>
    rw [Except.bind_ok', Except.bind_ok']
    obtain ⟨y0, ys0, rfl⟩ : ∃ a l, ys = a :: l := by cases ys with | nil => exact absurd rfl hne | cons a b => exact ⟨a, b, rfl⟩
    have hnm : y0.t.names = [f, LENGTH] := by cases h with | cons h _ => exact h.names
    have hd : List.Forall₂ (IsData ch) ((y0 :: ys0).map (·.t)) (zs.map (·.2)) := by
      rw [List.forall₂_map_left_iff, List.forall₂_map_right_iff]
      exact h.imp fun _ _ h => ⟨h.shape, h.data⟩
    have := padChunks_agree hb hl he hd (by simp) m.ids m.sos m.eos
    dsimp only
    rw [hnm]
    simpa only [List.map_map, Function.comp_def] using this

theorem padStream_agree {ch : Nat} {f : Option String} (hb : f ≠ BATCH) (hl : f ≠ LENGTH) (he : f ≠ some "") {ys : List (STen α)} {zs : List (Meta × List (Nat → α))}
    (h : List.Forall₂ (IsRow ch f) ys zs) (hne : ys ≠ []) :
    Agree (fun y z => z = asBatch ch y ∧ BCL ch y ∧ y.t.names = [BATCH, f, LENGTH]) (Tn.padStream 0 ys false >>= fun y => permute y [1, 2, 0]) (Conv.padStream zs) := by
  refine (padStream_time hb hl he h hne).bindLeft fun y z hyz => ?_
  have hp : permute y [1, 2, 0] = .ok (batchFirst y f) := by
    unfold permute Ten.permute
    have hn : y.t.unnamed.ndim = 3 := by simp [Ten.ndim, Ten.unnamed, hyz.shape]
    rw [hn, show ([1, 2, 0] : List Int).mapM (normDim 3) = .ok [1, 2, 0] from rfl, Except.bind_ok', if_pos (by decide), Except.bind_ok', hyz.names,
      show ([1, 2, 0] : List Int).mapM (pyGet [LENGTH, BATCH, f]) = .ok [BATCH, f, LENGTH] from rfl, Except.bind_ok', rename_ok _ _ (by simp [Ten.ndim]) (okNames3 hb hl he), Except.bind_ok']
    rfl
  rw [hp]
  obtain ⟨h1, h2⟩ := hyz.batch hb hl he
  exact .ok ⟨h1, h2, rfl⟩

theorem bufLen_eq {ch : Nat} {b : Option (Ten α)} (hb : ∀ t, b = some t → ∃ w, t.shape = [ch, w] ∧ t.names = [none, none]) :
    bufLen (b.map (asFrames ch)) = bufLenT b := by
  cases b with
  | none => rfl
  | some t =>
    obtain ⟨w, h, -⟩ := hb t rfl
    simp [bufLen, bufLenT, asFrames_length, lastSize, Ten.ndim, h]

/-- The pre-hook. -/
theorem preHook_agree {ch : Nat} (c : Cfg) {x : STen α} (hx : BCL ch x) {b : BufT α} {buf : Buf (Nat → α)} (hbuf : Shows ch b buf) :
    Agree (fun y (z : ST (Nat → α) × Bool) => z.1 = asBatch ch y ∧ BCL ch y ∧ y.t.names = x.t.names) (preHookT c b x) (preHook c buf (asBatch ch x)) := by
  unfold preHookT preHook
  show Agree _ _ (if c.kw > 1 ∧ x.md.allStarting = false then _ else _)
  by_cases hc : c.kw > 1 ∧ x.md.allStarting = false
  · rw [if_pos hc, if_pos hc]
    dsimp only
    have hne : x.md.ids ≠ [] := by
      intro h
      have h1 : x.md.sos = [] := List.length_eq_zero_iff.1 (by rw [hx.mdwf.1, h]; rfl)
      have h2 := hc.2
      unfold Meta.allStarting at h2
      rw [h1] at h2
      simp at h2
    have hbs : (asBatch ch x).md.ids.map buf = (x.md.ids.map b).map fun o => o.map (asFrames ch) := by
      rw [List.map_map]
      exact List.map_congr_left fun i _ => hbuf.2 i
    have hsh : ∀ t, some t ∈ x.md.ids.map b → ∃ w, t.shape = [ch, w] ∧ t.names = [none, none] := by
      intro t ht
      obtain ⟨i, -, hi⟩ := List.mem_map.1 ht
      exact hbuf.1 i t hi
    rw [hbs]
    generalize hB : x.md.ids.map b = bs at *
    have hbl : bs.length = x.md.ids.length := by rw [← hB, List.length_map]
    have hbne : bs ≠ [] := by intro h; rw [h] at hbl; exact hne (List.length_eq_zero_iff.1 hbl.symm)
    have hhead : bufLen ((bs.map fun o => o.map (asFrames ch)).head?.getD none) = bufLenT (bs.head?.getD none) := by
      cases bs with
      | nil => exact absurd rfl hbne
      | cons o bs => exact bufLen_eq fun t ht => hsh t (by simp [ht])
    have hsame : sameLengths (bs.map fun o => o.map (asFrames ch)) = bs.all fun o => bufLenT o == bufLenT (bs.head?.getD none) := by
      unfold sameLengths
      rw [hhead, List.all_map, Bool.eq_iff_iff, List.all_eq_true, List.all_eq_true]
      refine forall₂_congr fun o ho => ?_
      rw [Function.comp, bufLen_eq fun t ht => hsh t (by rw [← ht]; exact ho)]
    rw [hsame, hhead]
    by_cases heq : (bs.all fun o => bufLenT o == bufLenT (bs.head?.getD none)) = true
    · rw [if_pos heq, if_pos heq]
      unfold catEqual
      rcases stack_agree hbne hsh heq with ⟨h1, h2⟩ | ⟨s, h1, h2, h3, h4⟩
      · rw [h1, h2]
        exact .error _
      · rw [h1, h4, Except.bind_ok']
        dsimp only
        obtain ⟨y, h5, h6, h7, h8⟩ := prepend_batch hx (ref := bufLenT (bs.head?.getD none)) (s := s) (by rw [h2, hbl]) h3
        rw [h5]
        refine .ok ⟨?_, h6, h7⟩
        rw [h8, hbl]
        rfl
    · rw [if_neg heq, if_neg heq]
      unfold catRagged
      obtain ⟨f, hnames, hfb, hfl, hfe⟩ := hx.names
      obtain ⟨f', hnames', hag⟩ := unpad_agree hx hne
      obtain rfl : f' = f := by
        rw [hnames] at hnames'
        simpa using hnames'.symm
      show Agree _ _ ((x.md.unbindBatch >>= _).map _)
      obtain ⟨ms, hms, hml, -⟩ := unbindBatch_spec x.md hx.mdwf
      rw [hms, Except.bind_ok'] at hag ⊢
      have hrl : (asBatch ch x).rows.length = ms.length := by simp [asBatch, rowsOf, hml]
      rw [ragged_eq _ _ _ _ hrl (by simp [hbl, hml])]
      have hlen2 : ∀ zs, ((ms.zip (asBatch ch x).rows).mapM fun p => narrowRow p.1 (asBatch ch x).width p.2) = .ok zs → zs.length = x.md.ids.length := by
        intro zs hzs
        have : ∀ (ps : List (Meta × List (Nat → α))) (zs : List (Meta × List (Nat → α))), (ps.mapM fun p => narrowRow p.1 (asBatch ch x).width p.2) = .ok zs → zs.length = ps.length := by
          intro ps
          induction ps with
          | nil => intro zs h; cases h; rfl
          | cons p ps ih =>
            intro zs h
            rw [List.mapM_cons] at h
            obtain ⟨a, -, h⟩ := ok_of_bind h
            obtain ⟨as, h2, h⟩ := ok_of_bind h
            cases h
            simp [ih as h2]
        rw [this _ _ hzs, List.length_zip, hrl, Nat.min_self, hml]
      cases hM : (ms.zip (asBatch ch x).rows).mapM fun p => narrowRow p.1 (asBatch ch x).width p.2 with
      | error e =>
        rw [hM] at hag
        cases hU : unpadSequence 0 x with
        | error e' => rw [hU] at hag; cases hag; exact .error _
        | ok r => rw [hU] at hag; cases hag
      | ok zs =>
        rw [hM] at hag
        cases hU : unpadSequence 0 x with
        | error e' => rw [hU] at hag; cases hag
        | ok r =>
          rw [hU] at hag
          cases hag with
          | ok hag =>
            obtain ⟨ys', h1, h2⟩ := prependAll_agree hfl hfe hag bs hsh
            rw [Except.bind_ok', h1, Except.bind_ok', map_ok', Except.bind_ok']
            have hpa := padStream_agree hfb hfl hfe h2 (by
              intro h
              rw [h] at h2
              have h3 := h2.length_eq
              rw [List.length_zipWith, List.length_map, hlen2 zs hM, hbl] at h3
              simp only [List.length_nil, Nat.min_self] at h3
              exact hne (List.length_eq_zero_iff.1 h3.symm))
            have := hpa.map (f := id) (g := fun y => (y, false)) (S := fun y (z : ST (Nat → α) × Bool) => z.1 = asBatch ch y ∧ BCL ch y ∧ y.t.names = x.t.names)
              fun y z hyz => ⟨hyz.1, hyz.2.1, by rw [hnames]; exact hyz.2.2⟩
            have hid : ∀ p : Py (STen α), p.map id = p := by intro p; cases p <;> rfl
            rwa [hid] at this
  · rw [if_neg hc, if_neg hc]
    exact .ok ⟨rfl, hx, rfl⟩

theorem shows_update {ch : Nat} {b : BufT α} {buf : Buf (Nat → α)} {items : List (String × Ten α)} {items' : List (String × List (Nat → α))}
    (hi : List.Forall₂ (fun a b => a.1 = b.1 ∧ IsFrames ch a.2 b.2) items items') : Shows ch b buf →
    Shows ch (items.foldl (fun b kv => fun i => if i = kv.1 then some kv.2 else b i) b) (update buf items') := by
  unfold Conv.update
  induction hi generalizing b buf with
  | nil => exact id
  | @cons p q ps qs h _ ih =>
    intro hb
    simp only [List.foldl_cons]
    refine ih ⟨?_, ?_⟩
    · intro i t ht
      by_cases he : i = p.1
      · simp only [he, ↓reduceIte, Option.some.injEq] at ht
        subst ht
        exact ⟨_, h.2.1, h.2.2.1⟩
      · simp only [he, ↓reduceIte] at ht
        exact hb.1 i t ht
    · intro i
      by_cases he : i = p.1
      · simp only [← h.1, he, ↓reduceIte, Option.map_some]
        rw [h.2.2.2]
      · simp only [← h.1, he, ↓reduceIte]
        exact hb.2 i

theorem shows_drop {ch : Nat} (ps : List (String × Bool)) {b : BufT α} {buf : Buf (Nat → α)} : Shows ch b buf →
    Shows ch (ps.foldl (fun b ie => if ie.2 then fun i => if i = ie.1 then none else b i else b) b)
      (ps.foldl (fun b ie => if ie.2 then fun i => if i = ie.1 then none else b i else b) buf) := by
  induction ps generalizing b buf with
  | nil => exact id
  | cons p ps ih =>
    intro hb
    simp only [List.foldl_cons]
    refine ih ?_
    cases p.2 with
    | false => exact hb
    | true =>
      refine ⟨?_, ?_⟩
      · intro i t ht
        by_cases he : i = p.1
        · simp [he] at ht
        · simp only [he, ↓reduceIte] at ht
          exact hb.1 i t ht
      · intro i
        by_cases he : i = p.1
        · simp [he]
        · simp only [he, ↓reduceIte]
          exact hb.2 i

theorem shows_post {ch : Nat} {b : BufT α} {buf : Buf (Nat → α)} (hb : Shows ch b buf) (m : Meta) {items : List (String × Ten α)} {items' : List (String × List (Nat → α))}
    (hi : List.Forall₂ (fun a b => a.1 = b.1 ∧ IsFrames ch a.2 b.2) items items') : Shows ch (postHookT b m items) (postHook buf m items') := by
  have h1 := shows_update hi hb
  unfold postHookT postHook
  dsimp only
  split
  · exact shows_drop _ h1
  · exact h1

/-- One call of the module. -/
theorem forward_agree {k : Kern α} {ch : Nat} (c : Cfg) {x : STen α} (hk : k.Fits ch) (hx : BCL ch x) {b : BufT α} {buf : Buf (Nat → α)} (hb : Shows ch b buf) :
    Agree (fun (y : STen α × BufT α) (z : Out (Nat → α) (Nat → α)) => z.y = asBatch k.outs y.1 ∧ BCL k.outs y.1 ∧ y.1.t.names = x.t.names ∧ Shows ch y.2 z.buf)
      (forwardT k c b x) (forward c k.frames buf (asBatch ch x)) := by
  unfold forwardT forward
  refine (preHook_agree c hx hb).bind ?_
  rintro y ⟨z, sh⟩ ⟨h1, h2, h3⟩
  dsimp only at h1 ⊢
  subst h1
  refine (conv1d_agree c hk h2).bind ?_
  rintro ⟨u, items⟩ ⟨v, items'⟩ ⟨h4, h5, h6, h7⟩
  dsimp only at h4 h5 h6 h7 ⊢
  subst h4
  exact .ok ⟨rfl, h5, h6.trans h3, shows_post hb _ h7⟩

/-- A sequence of calls. -/
theorem run_agree {k : Kern α} {ch : Nat} (c : Cfg) (hk : k.Fits ch) : ∀ (xs : List (STen α)), (∀ x ∈ xs, BCL ch x) → ∀ {b : BufT α} {buf : Buf (Nat → α)}, Shows ch b buf →
    Agree (fun (y : List (STen α) × BufT α) (z : List (ST (Nat → α)) × Buf (Nat → α)) => z.1 = y.1.map (asBatch k.outs) ∧
        List.Forall₂ (fun u x => BCL k.outs u ∧ u.t.names = x.t.names) y.1 xs ∧ Shows ch y.2 z.2)
      (runT k c b xs) (run c k.frames buf (xs.map (asBatch ch))) := by
  intro xs
  induction xs with
  | nil => intro _ b buf hb; exact .ok ⟨rfl, .nil, hb⟩
  | cons x xs ih =>
    intro hx b buf hb
    simp only [runT, List.map_cons, run]
    refine (forward_agree c hk (hx x (by simp)) hb).bind ?_
    rintro ⟨y, b'⟩ o ⟨h1, h2, h3, h4⟩
    dsimp only at h1 h2 h3 h4 ⊢
    refine (ih (fun z hz => hx z (by simp [hz])) h4).bind ?_
    rintro ⟨ys, b''⟩ ⟨zs, buf''⟩ ⟨h5, h6, h7⟩
    dsimp only at h5 h6 h7 ⊢
    exact .ok ⟨by rw [h1, h5]; rfl, .cons ⟨h2, h3⟩ h6, h7⟩

end
end DS.ConvT
