import Verif.Model.PipelineTen
import Verif.Lemmas.ConvStack
/-! The streaming program on named tensors refines the streaming program on frames. -/

namespace DS.PipeT
open DS.Tn DS.Conv DS.ConvT DS.Coll

section
variable {α : Type} [AddCommMonoid α] [Mul α]

/-- A StreamTensor with axes (channels, L) and the entry that it shows. -/
def IsEntry (ch : Nat) (f : Option String) (y : STen α) (e : Entry (Nat → α)) : Prop := IsRow ch f y (e.md, e.frames)

theorem alignTo_time {ch : Nat} {y : STen α} {z : ST (Nat → α)} (h : TimeFirst ch (some "F") y z) : alignTo y ["B", "F", "L"] = .ok (batchFirst y (some "F")) := by
  unfold alignTo Ten.alignTo
  rw [h.names, if_pos (by decide)]
  rfl

theorem unpadRows_eq {β : Type} (w : Nat) : ∀ (ms : List Meta) (rs : List (List β)),
    unpadRows w ms rs = ((ms.zip rs).mapM fun p => narrowRow p.1 w p.2).map fun xs => xs.map fun x => (⟨x.1, x.2⟩ : Entry β)
  | [], rs => by cases rs <;> rfl
  | m :: ms, [] => rfl
  | m :: ms, r :: rs => by
    simp only [unpadRows, List.zip_cons_cons, List.mapM_cons, unpadRows_eq w ms rs]
    cases narrowRow m w r with
    | error e => rfl
    | ok x =>
      simp only [Except.bind_ok']
      cases (ms.zip rs).mapM fun p => narrowRow p.1 w p.2 with
      | error e => rfl
      | ok xs => rfl

theorem unpad_entry {ch : Nat} {f : Option String} {x : STen α} (hx : BCL ch x) (hn : x.t.names = [BATCH, f, LENGTH]) :
    Agree (List.Forall₂ (IsEntry ch f)) (unpadSequence 0 x) (unpad (asBatch ch x)) := by
  by_cases hne : x.md.ids = []
  · obtain ⟨f', hnames, hfb, hfl, hfe⟩ := hx.names
    obtain ⟨w, hw⟩ := hx.shape
    have hnd := (okNames3 hfb hfl hfe).1
    have hb : nameIndex x.t.names BATCH = .ok 0 := by rw [hnames]; exact nameIndex_of hnd rfl
    have hl : nameIndex x.t.names LENGTH = .ok 2 := by rw [hnames]; exact nameIndex_of (b := 2) hnd rfl
    have hu : x.md.unbindBatch = .ok [] := by
      unfold Meta.unbindBatch Meta.splitBatch
      rw [hne]
      rfl
    have hub : unbind x ((0 : Nat) : Int) = .ok [] := by
      unfold unbind
      rw [hnames, show pyGet [BATCH, f', LENGTH] ((0 : Nat) : Int) = .ok BATCH from rfl, Except.bind_ok', if_neg (by decide), Ten.ndim, hw,
        show normDim [x.md.ids.length, ch, w].length ((0 : Nat) : Int) = .ok 0 from rfl, Except.bind_ok', if_pos rfl, hu, Except.bind_ok', if_neg]
      · simp [Ten.unbind, hw, hne, zipStream]
      · simp [Ten.unbind, hw, hne]
    unfold unpadSequence unpad
    rw [hb, Except.bind_ok', hl, Except.bind_ok', hub, Except.bind_ok']
    show Agree _ _ (x.md.unbindBatch >>= _)
    rw [hu, Except.bind_ok']
    exact .ok .nil
  · obtain ⟨f', h1, h2⟩ := unpad_agree hx hne
    rw [h1] at hn
    simp only [List.cons.injEq, true_and, and_true] at hn
    subst hn
    have : unpad (asBatch ch x) = (x.md.unbindBatch >>= fun ms => (ms.zip (asBatch ch x).rows).mapM fun p => narrowRow p.1 (asBatch ch x).width p.2).map
        fun xs => xs.map fun x => (⟨x.1, x.2⟩ : Entry (Nat → α)) := by
      unfold unpad
      show (x.md.unbindBatch >>= _) = _
      cases x.md.unbindBatch with
      | error e => rfl
      | ok ms =>
        rw [Except.bind_ok', Except.bind_ok', unpadRows_eq]
    rw [this]
    refine h2.mapRight fun ys zs h => ?_
    rw [List.forall₂_map_right_iff]
    exact h

theorem pieces_agree {ch : Nat} {f : Option String} {t : Ten α} {fr : List (Nat → α)} (h1 : t.shape = [ch, fr.length]) (h2 : t.names = [f, LENGTH]) (h3 : fr = asFrames ch t) :
    ∀ (ss : List Int) (acc : Int) (ms : List Meta), (∀ s ∈ ss, 0 ≤ s) → 0 ≤ acc → acc + isum ss ≤ fr.length →
    List.Forall₂ (IsEntry ch f) (zipStream ((Meta.sectionBounds acc ss).map fun b => t.piece 1 b.1 b.2) ms) (Pipe.zipEntries (Pipe.cutFrames ss (fr.drop acc.toNat)) ms)
  | [], acc, ms => by intro _ _ _; simp [Meta.sectionBounds, zipStream, Pipe.cutFrames, Pipe.zipEntries]
  | s :: ss, acc, [] => by intro _ _ _; simp [Meta.sectionBounds, zipStream, Pipe.cutFrames, Pipe.zipEntries]
  | s :: ss, acc, m :: ms => by
    intro hs ha hsum
    simp only [isum] at hsum
    have h0 := hs s (by simp)
    have hrest := Meta.isum_nonneg ss fun t ht => hs t (by simp [ht])
    simp only [Meta.sectionBounds, List.map_cons, zipStream, Pipe.cutFrames, Pipe.zipEntries]
    refine .cons ⟨rfl, ?_, h2, ?_⟩ ?_
    · simp only [Ten.piece, h1, List.set_cons_succ, List.set_cons_zero, List.length_take, List.length_drop]
      congr 2
      omega
    · simp only [asFrames, Ten.piece, h1, List.set_cons_succ, List.set_cons_zero, List.getD_cons_succ, List.getD_cons_zero]
      refine List.ext_getElem (by simp; omega) fun j h5 h6 => ?_
      simp only [List.getElem_take, List.getElem_drop, List.getElem_map, List.getElem_range]
      rw [List.getElem_of_eq h3]
      simp only [asFrames, List.getElem_map, List.getElem_range]
      funext c
      show _ = if c < ch then t.val [c, j + acc.toNat] else 0
      rw [Nat.add_comm]
    · have := pieces_agree h1 h2 h3 ss (acc + s) ms (fun t ht => hs t (by simp [ht])) (by omega) (by omega)
      rw [List.drop_drop]
      rwa [show acc.toNat + s.toNat = (acc + s).toNat by omega]

theorem split_agree {ch : Nat} {f : Option String} {y : STen α} {e : Entry (Nat → α)} (h : IsEntry ch f y e) (ss : List Int) :
    Agree (List.Forall₂ (IsEntry ch f)) (Tn.split y (.sections ss) 1) (Pipe.splitEntry e ss) := by
  obtain ⟨h1, h2, h3, h4⟩ := h
  dsimp only at h1 h2 h3 h4
  unfold Tn.split Pipe.splitEntry Ten.split
  rw [h3, show pyGet [f, LENGTH] 1 = .ok LENGTH from rfl, Except.bind_ok', Ten.ndim, h2, show normDim [ch, e.frames.length].length 1 = .ok 1 from rfl, Except.bind_ok']
  simp only [List.getD_cons_succ, List.getD_cons_zero]
  by_cases hc : (∃ s ∈ ss, s < 0) ∨ isum ss ≠ e.frames.length
  · rw [if_pos hc, if_pos (by simpa using hc)]
    exact .error _
  · rw [if_neg hc, if_neg (by simpa using hc), Except.bind_ok', if_pos trivial, h1]
    push_neg at hc
    cases e.md.splitLength (.sections ss) with
    | error e => exact .error _
    | ok ms =>
      exact .ok (pieces_agree h2 h3 h4 ss 0 ms hc.1 (by omega) (by omega))

theorem splitAll_agree {ch : Nat} {f : Option String} : ∀ {ys : List (STen α)} {es : List (Entry (Nat → α))}, List.Forall₂ (IsEntry ch f) ys es → ∀ (sizes : List (List Int)),
    Agree (List.Forall₂ (List.Forall₂ (IsEntry ch f))) (splitAllT ys sizes) (Pipe.splitAll es sizes)
  | [], [], _ => fun sizes => .ok .nil
  | y :: ys, e :: es, .cons h hs => fun sizes => by
    cases sizes with
    | nil => exact .ok .nil
    | cons ss sizes =>
      exact (split_agree h ss).bind fun p p' hp => (splitAll_agree hs sizes).bind fun ps ps' hps => .ok (.cons hp hps)

theorem deal_agree {β γ : Type} {R : β → γ → Prop} : ∀ {ss : List (List β)} {ss' : List (List γ)}, List.Forall₂ (List.Forall₂ R) ss ss' → ∀ (fs : List Bool),
    List.Forall₂ R (Pipe.deal ss fs).1 (Pipe.deal ss' fs).1 ∧ List.Forall₂ (List.Forall₂ R) (Pipe.deal ss fs).2 (Pipe.deal ss' fs).2
  | [], [], _ => fun fs => by cases fs <;> exact ⟨.nil, .nil⟩
  | s :: ss, s' :: ss', .cons h hs => fun fs => by
    cases fs with
    | nil => simp only [Pipe.deal]; exact ⟨.nil, .cons h hs⟩
    | cons b fs =>
      obtain ⟨h1, h2⟩ := deal_agree hs fs
      cases h with
      | nil => cases b <;> exact ⟨h1, .cons .nil h2⟩
      | cons h hr =>
        cases b with
        | true => exact ⟨.cons h h1, .cons hr h2⟩
        | false => exact ⟨h1, .cons (.cons h hr) h2⟩

theorem rounds_agree {β γ : Type} {R : β → γ → Prop} : ∀ (flips : List (List Bool)) {ss : List (List β)} {ss' : List (List γ)}, List.Forall₂ (List.Forall₂ R) ss ss' →
    List.Forall₂ (fun b b' => List.Forall₂ R b b' ∧ b ≠ []) (Pipe.rounds ss flips).1 (Pipe.rounds ss' flips).1
  | [], _, _, _ => .nil
  | fs :: flips, ss, ss', h => by
    obtain ⟨h1, h2⟩ := deal_agree h fs
    have ih := rounds_agree flips h2
    simp only [Pipe.rounds]
    by_cases hd : (Pipe.deal ss fs).1 = []
    · have hd' : (Pipe.deal ss' fs).1 = [] := by rw [hd] at h1; exact List.forall₂_nil_left_iff.1 h1
      rw [if_pos hd, if_pos hd']
      exact ih
    · have hd' : (Pipe.deal ss' fs).1 ≠ [] := fun hd' => by rw [hd'] at h1; exact hd (List.forall₂_nil_right_iff.1 h1)
      rw [if_neg hd, if_neg hd']
      exact .cons ⟨h1, hd⟩ ih

/-- A batch as the example makes it. -/
def IsBatch (ch : Nat) (x : STen α) (z : ST (Nat → α)) : Prop := z = asBatch ch x ∧ BCL ch x ∧ x.t.names = [BATCH, some "F", LENGTH]

theorem padBatches_agree {ch : Nat} : ∀ {bs : List (List (STen α))} {bs' : List (List (Entry (Nat → α)))},
    List.Forall₂ (fun b b' => List.Forall₂ (IsEntry ch (some "F")) b b' ∧ b ≠ []) bs bs' → Agree (List.Forall₂ (IsBatch ch)) (padBatchesT bs) (Pipe.padBatches bs')
  | [], [], _ => .ok .nil
  | b :: bs, b' :: bs', .cons h hs => by
    have hr : List.Forall₂ (IsRow ch (some "F")) b (b'.map fun e => (e.md, e.frames)) := by
      rw [List.forall₂_map_right_iff]
      exact h.1
    refine (padStream_time (by decide) (by decide) (by decide) hr h.2).bind fun y z hyz => ?_
    rw [alignTo_time hyz, Except.bind_ok']
    obtain ⟨h1, h2⟩ := hyz.batch (by decide) (by decide) (by decide)
    exact (padBatches_agree hs).bind fun xs zs hx => .ok (.cons ⟨h1, h2, rfl⟩ hx)

theorem padFull_agree {ch : Nat} {seqs : List (Ten α)} {seqs' : List (List (Nat → α))} (h : List.Forall₂ (IsData ch) seqs seqs') (hu : ∀ t ∈ seqs, t.unnamed = t) (ids : List String) :
    Agree (TimeFirst ch (some "F")) (Tn.padFull 0 seqs [some "F", LENGTH] ids false) (Pipe.padFull ids seqs') := by
  have hu' : seqs.map (·.unnamed) = seqs := by
    conv_rhs => rw [← List.map_id seqs]
    exact List.map_congr_left hu
  unfold Tn.padFull Pipe.padFull
  by_cases hne : seqs = []
  · subst hne
    rw [List.forall₂_nil_left_iff.1 h]
    exact .error _
  · have hne' : seqs' ≠ [] := fun h' => by rw [h'] at h; exact hne (List.forall₂_nil_right_iff.1 h)
    rw [if_neg hne']
    have := padChunks_agree (f := some "F") (by decide) (by decide) (by decide) h hne ids (seqs.map fun _ => true) (seqs.map fun _ => true)
    rw [hu'] at this
    have hm : (seqs.map fun _ => true) = seqs'.map fun _ => true := forall₂_map_eq h fun _ _ _ => rfl
    rw [hm] at this ⊢
    exact this

/-- The entries of the two collectors correspond, and the same ids are closed. -/
def SameColl (ch : Nat) (f : Option String) (s : CollT α) (s' : Coll (Nat → α)) : Prop :=
  (∀ i, Option.Rel (IsEntry ch f) (s.entries i) (s'.entries i)) ∧ s.closed = s'.closed

theorem SameColl.put {ch : Nat} {f : Option String} {s : CollT α} {s' : Coll (Nat → α)} (h : SameColl ch f s s') (i : String) {x : STen α} {e : Entry (Nat → α)} (hx : IsEntry ch f x e) :
    SameColl ch f (s.put i x) (s'.put i e) := by
  refine ⟨fun j => ?_, h.2⟩
  show Option.Rel _ (if j = i then some x else s.entries j) (if j = i then some e else s'.entries j)
  by_cases hj : j = i
  · rw [if_pos hj, if_pos hj]; exact .some hx
  · rw [if_neg hj, if_neg hj]; exact h.1 j

theorem SameColl.close {ch : Nat} {f : Option String} {s : CollT α} {s' : Coll (Nat → α)} (h : SameColl ch f s s') (i : String) : SameColl ch f (s.close i) (s'.close i) := by
  refine ⟨h.1, ?_⟩
  show (fun j => if j = i then true else s.closed j) = fun j => if j = i then true else s'.closed j
  rw [h.2]

theorem unify_refl (f : Option String) : unifyName f f = .ok f := by
  cases f with
  | none => rfl
  | some n => simp [unifyName]

theorem cat_agree {ch : Nat} {f : Option String} (hl : f ≠ LENGTH) (he : f ≠ some "") (hb : f ≠ BATCH) {a x : STen α} {e e' : Entry (Nat → α)} (ha : IsEntry ch f a e) (hx : IsEntry ch f x e') :
    Agree (IsEntry ch f) (catT a x) (catEntry e e') := by
  obtain ⟨a1, a2, a3, a4⟩ := ha
  obtain ⟨x1, x2, x3, x4⟩ := hx
  dsimp only at a1 a2 a3 a4 x1 x2 x3 x4
  have hnd := (okNames2 hl he).1
  have hidx : nameIndex [f, LENGTH] LENGTH = .ok 1 := nameIndex_of (b := 1) hnd rfl
  have hcat : catTen a.t [x.t] ((1 : Nat) : Int) = .ok { shape := [ch, e.frames.length + e'.frames.length], names := [f, LENGTH], val := catVal 1 a.t [x.t] } := by
    have hu : unifyNames [f, LENGTH] [f, LENGTH] = .ok [f, LENGTH] := by
      simp only [unifyNames, unify_refl, Except.bind_ok']
    have hn : normDim 2 ((1 : Nat) : Int) = .ok 1 := rfl
    unfold catTen
    simp only [Ten.ndim, a2, a3, x2, x3, List.length_cons, List.length_nil, Nat.zero_add, Nat.reduceAdd, hn, Except.bind_ok', unifyAll, hu]
    rw [if_pos (by simp [x2]), if_pos (namesOK_of (okNames2 hl he))]
    simp [x2, a2]
  unfold catT catEntry
  rw [x3, hidx, Except.bind_ok']
  unfold Tn.cat
  simp only [streams, dimIs, a3, x3, show pyGet [f, LENGTH] ((1 : Nat) : Int) = .ok LENGTH from rfl, Except.bind_ok']
  rw [if_neg (by decide), if_pos (by decide)]
  unfold catLengthDim
  simp only [List.dropLast_cons₂, List.dropLast_singleton, padChecks, padCheck, Opd.ten, List.map_cons, List.map_nil, streams, a3, hidx, a2, a1, x1, Except.bind_ok', List.getD_cons_succ, List.getD_cons_zero]
  show Agree _ ((((torchMin e.md.lengths >>= _) >>= _) >>= _) >>= _) (torchMin e.md.lengths >>= _)
  cases torchMin e.md.lengths with
  | error er => exact .error _
  | ok ml =>
    simp only [Except.bind_ok']
    by_cases hml : ml < (e.frames.length : Int)
    · rw [if_pos hml, if_pos hml]
      exact .error _
    · rw [if_neg hml, if_neg hml, Except.bind_ok', Except.bind_ok', hcat, Except.bind_ok']
      cases Meta.catLength [e.md, e'.md] with
      | error er => exact .error _
      | ok m =>
        refine .ok ⟨?_, ?_, rfl, ?_⟩
        · show ({ m with lengths := m.lengths.map (· + (0 : Int)) } : Meta) = m
          simp
        · simp
        · have hcv : ∀ c j : Nat, catVal 1 a.t [x.t] [c, j] = if j < e.frames.length then a.t.val [c, j] else x.t.val [c, j - e.frames.length] := by
            intro c j
            simp [catVal, a2]
          dsimp only
          conv_lhs => rw [a4, x4]
          simp only [asFrames, a2, x2, List.getD_cons_succ, List.getD_cons_zero]
          refine List.ext_getElem (by simp) fun j h3 h4 => ?_
          rw [List.getElem_append]
          simp only [List.getElem_map, List.getElem_range, List.length_map, List.length_range, hcv]
          split <;> rfl

/-- Two updates end in corresponding collectors, with the same exception if any. -/
def SameUpdate (ch : Nat) (f : Option String) (r : CollT α × Option PyErr) (r' : Coll (Nat → α) × Option PyErr) : Prop := SameColl ch f r.1 r'.1 ∧ r.2 = r'.2

theorem store_agree {ch : Nat} {f : Option String} (hl : f ≠ LENGTH) (he : f ≠ some "") (hb : f ≠ BATCH) {s : CollT α} {s' : Coll (Nat → α)} (h : SameColl ch f s s') (i : String) (sos : Bool)
    {x : STen α} {e : Entry (Nat → α)} (hx : IsEntry ch f x e) : SameUpdate ch f (storeT s i sos x) (store s' i sos e) := by
  unfold storeT store
  have hi := h.1 i
  cases h1 : s.entries i with
  | none =>
    cases h2 : s'.entries i with
    | some e2 => rw [h1, h2] at hi; cases hi
    | none =>
      cases sos with
      | true => exact ⟨h.put i hx, rfl⟩
      | false => exact ⟨h, rfl⟩
  | some a =>
    cases h2 : s'.entries i with
    | none => rw [h1, h2] at hi; cases hi
    | some e2 =>
      rw [h1, h2] at hi
      cases hi with
      | some hi =>
        cases sos with
        | true => exact ⟨h, rfl⟩
        | false =>
          have := cat_agree hl he hb hi hx
          dsimp only
          rw [if_neg (by decide), if_neg (by decide)]
          cases h3 : catT a x with
          | ok y =>
            cases h4 : catEntry e2 e with
            | ok e3 => rw [h3, h4] at this; cases this with | ok hy => exact ⟨h.put i hy, rfl⟩
            | error er => rw [h3, h4] at this; cases this
          | error er =>
            cases h4 : catEntry e2 e with
            | ok e3 => rw [h3, h4] at this; cases this
            | error er => rw [h3, h4] at this; cases this; exact ⟨h, rfl⟩

theorem unary_agree {ch : Nat} {f : Option String} (hl : f ≠ LENGTH) (he : f ≠ some "") (hb : f ≠ BATCH) {s : CollT α} {s' : Coll (Nat → α)} (h : SameColl ch f s s')
    {x : STen α} {e : Entry (Nat → α)} (hx : IsEntry ch f x e) : SameUpdate ch f (updateUnaryT s x) (updateUnary s' e) := by
  unfold updateUnaryT updateUnary
  rw [show x.md = e.md from hx.md, h.2]
  cases pyGet e.md.ids 0 with
  | error er => exact ⟨h, rfl⟩
  | ok i =>
    dsimp only
    by_cases hc : s'.closed i = true
    · rw [if_pos hc, if_pos hc]; exact ⟨h, rfl⟩
    · rw [if_neg hc, if_neg hc]
      cases item e.md.eos with
      | error er => exact ⟨h, rfl⟩
      | ok eos =>
        cases item e.md.sos with
        | error er => exact ⟨h, rfl⟩
        | ok sos =>
          refine store_agree hl he hb ?_ i sos hx
          cases eos with
          | true => exact h.close i
          | false => exact h

theorem rows_agree {ch : Nat} {f : Option String} (hl : f ≠ LENGTH) (he : f ≠ some "") (hb : f ≠ BATCH) : ∀ {xs : List (STen α)} {es : List (Entry (Nat → α))}, List.Forall₂ (IsEntry ch f) xs es →
    ∀ {s : CollT α} {s' : Coll (Nat → α)}, SameColl ch f s s' → SameUpdate ch f (updateRowsT s xs) (updateRows s' es)
  | [], [], _, s, s', h => ⟨h, rfl⟩
  | x :: xs, e :: es, .cons hx hxs, s, s', h => by
    unfold updateRowsT updateRows
    rw [show x.md = e.md from hx.md]
    cases e.md.maxLength with
    | error er => exact ⟨h, rfl⟩
    | ok ml =>
      dsimp only
      by_cases hm : ml > 0
      · rw [if_pos hm, if_pos hm]
        obtain ⟨h1, h2⟩ := unary_agree hl he hb h hx
        rcases hu : updateUnaryT s x with ⟨s1, o1⟩
        rcases hu' : updateUnary s' e with ⟨s2, o2⟩
        rw [hu, hu'] at h1 h2
        dsimp only at h1 h2
        subst h2
        cases o1 with
        | none => exact rows_agree hl he hb hxs h1
        | some er => exact ⟨h1, rfl⟩
      · rw [if_neg hm, if_neg hm]
        exact rows_agree hl he hb hxs h

theorem update_agree {ch : Nat} {f : Option String} {x : STen α} (hx : BCL ch x) (hn : x.t.names = [BATCH, f, LENGTH]) {s : CollT α} {s' : Coll (Nat → α)} (h : SameColl ch f s s') :
    SameUpdate ch f (updateT s x) (updateItem s' (.batch (asBatch ch x))) := by
  obtain ⟨f', hnames, hfb, hfl, hfe⟩ := hx.names
  obtain rfl : f' = f := by rw [hnames] at hn; simpa using hn
  have hu := unpad_entry hx hn
  unfold updateT
  rw [if_pos (by rw [hn]; simp)]
  simp only [updateItem]
  cases h1 : unpadSequence 0 x with
  | ok ys =>
    cases h2 : unpad (asBatch ch x) with
    | ok es => rw [h1, h2] at hu; cases hu with | ok hu => exact rows_agree hfl hfe hfb hu h
    | error er => rw [h1, h2] at hu; cases hu
  | error er =>
    cases h2 : unpad (asBatch ch x) with
    | ok es => rw [h1, h2] at hu; cases hu
    | error er => rw [h1, h2] at hu; cases hu; exact ⟨h, rfl⟩

theorem stream_agree {ch : Nat} {f : Option String} (ls : List (LayerT α)) (hf : FitsAll ch ls) : ∀ {xs : List (STen α)} {zs : List (ST (Nat → α))},
    List.Forall₂ (fun x z => z = asBatch ch x ∧ BCL ch x ∧ x.t.names = [BATCH, f, LENGTH]) xs zs →
    ∀ {st : List (LayerT α × BufT α)} {st' : List (Layer (Nat → α) × Buf (Nat → α))}, st.map (·.1) = ls → ShowsAll ch st st' →
    ∀ {s : CollT α} {s' : Coll (Nat → α)}, SameColl (outsAll ch ls) f s s' → Agree (SameColl (outsAll ch ls) f) (streamT st s xs) (Pipe.stream st' s' zs)
  | [], [], _, st, st', _, _, s, s', h => .ok h
  | x :: xs, z :: zs, .cons hx hxs, st, st', hls, hst, s, s', h => by
    obtain ⟨rfl, hbcl, hn⟩ := hx
    unfold streamT Pipe.stream
    refine (chainStep_agree st st' ch (by rw [hls]; exact hf) hst x hbcl).bind ?_
    rintro ⟨y, st1⟩ ⟨z, st2⟩ ⟨h1, h2, h3, h4, h5⟩
    dsimp only at h1 h2 h3 h4 h5 ⊢
    rw [hls] at h1 h2 h4
    subst h1
    obtain ⟨h6, h7⟩ := update_agree h2 (h3.trans hn) h
    rcases hu : updateT s y with ⟨s1, o1⟩
    rcases hu' : updateItem s' (.batch (asBatch (outsAll ch ls) y)) with ⟨s2, o2⟩
    rw [hu, hu'] at h6 h7
    dsimp only at h6 h7
    subst h7
    cases o1 with
    | none => exact stream_agree ls hf hxs h4 h5 h6
    | some er => exact .error _

theorem batches_agree {ch : Nat} {seqs : List (Ten α)} {seqs' : List (List (Nat → α))} (h : List.Forall₂ (IsData ch) seqs seqs') (hu : ∀ t ∈ seqs, t.unnamed = t) (ids : List String)
    (sizes : List (List Int)) (flips : List (List Bool)) :
    Agree (fun xs b => List.Forall₂ (IsBatch ch) xs b.1) (batchesT ids seqs sizes flips) (Pipe.batches ids seqs' sizes flips) := by
  unfold batchesT Pipe.batches
  refine (padFull_agree h hu ids).bind fun y z hyz => ?_
  rw [alignTo_time hyz, Except.bind_ok']
  obtain ⟨h1, h2⟩ := hyz.batch (by decide) (by decide) (by decide)
  rw [h1]
  refine (unpad_entry h2 rfl).bind fun es es' he => ?_
  refine (splitAll_agree he sizes).bind fun ss ss' hs => ?_
  have := padBatches_agree (rounds_agree flips hs)
  rw [show (padBatchesT (Pipe.rounds ss flips).1) = (padBatchesT (Pipe.rounds ss flips).1 >>= Except.ok) by cases padBatchesT (Pipe.rounds ss flips).1 <;> rfl]
  exact this.bind fun xs zs hx => .ok hx

theorem program_agree {ch : Nat} (ls : List (LayerT α)) (hf : FitsAll ch ls) {seqs : List (Ten α)} {seqs' : List (List (Nat → α))} (h : List.Forall₂ (IsData ch) seqs seqs')
    (hu : ∀ t ∈ seqs, t.unnamed = t) (ids : List String) (sizes : List (List Int)) (flips : List (List Bool)) :
    Agree (SameColl (outsAll ch ls) (some "F")) (programT ls ids seqs sizes flips) (Pipe.program (framesAll ch ls) ids seqs' sizes flips) := by
  unfold programT Pipe.program
  refine (batches_agree h hu ids sizes flips).bind fun xs b hx => ?_
  refine stream_agree ls hf hx (by simp [freshT, Function.comp_def]) ?_ ?_
  · exact showsAll_fresh ls ch
  · exact ⟨fun i => .none, rfl⟩

end
end DS.PipeT
