import Verif.Model.Conv
/-! # Mapping the frames commutes with online convolution

Supporting lemmas for C198: no branch of the hooks or of `conv1d` looks at the values of frames. -/

namespace DS.Conv
section
variable {α β γ δ : Type} [Zero α] [Zero β] [Zero γ] [Zero δ]

/-- Every frame of a batch mapped. -/
def ST.map (f : α → γ) (x : ST α) : ST γ := { md := x.md, width := x.width, rows := x.rows.map (List.map f) }

/-- Every frame of a buffer mapped. -/
def Buf.map (f : α → γ) (b : Buf α) : Buf γ := fun i => (b i).map (List.map f)

theorem ok_bind' {ε γ δ : Type} (a : γ) (f : γ → Except ε δ) : ((Except.ok a : Except ε γ) >>= f) = f a := rfl

theorem getD_map0 {f : α → γ} (hf : f 0 = 0) (l : List α) (k : Nat) : (l.map f).getD k 0 = f (l.getD k 0) := by
  rw [List.getD_eq_getElem?_getD, List.getD_eq_getElem?_getD, List.getElem?_map]
  cases l[k]? <;> simp [hf]

theorem taps_map {f : α → γ} (hf : f 0 = 0) (c : Cfg) (x : List α) (o : Nat) : taps c (x.map f) o = (taps c x o).map f := by
  unfold taps
  rw [List.map_map]
  apply List.map_congr_left
  intro i _
  exact getD_map0 hf x _

theorem fpad_map {f : α → γ} (hf : f 0 = 0) (a b : Nat) (r : List α) : fpad a b (r.map f) = (fpad a b r).map f := by
  unfold fpad
  simp [hf]

theorem roll_map (f : α → γ) (k : Nat) (r : List α) : roll k (r.map f) = (roll k r).map f := by
  unfold roll
  simp [List.map_drop, List.map_take]

theorem torchConv1d_map {f : α → γ} (hf : f 0 = 0) {h : β → δ} {g : List α → β} {g' : List γ → δ} (hg : ∀ ws, g' (ws.map f) = h (g ws)) (c : Cfg) (p w : Nat) (rows : List (List α)) :
    torchConv1d c g' p w (rows.map (List.map f)) = (torchConv1d c g p w rows).map fun r => (r.1, r.2.map (List.map h)) := by
  unfold torchConv1d
  split
  · rfl
  · simp only [Except.map, List.map_map]
    congr 2
    apply List.map_congr_left
    intro r _
    simp only [Function.comp_apply, List.map_map]
    apply List.map_congr_left
    intro o _
    simp only [Function.comp_apply]
    rw [fpad_map hf, taps_map hf, hg]

theorem widen_map {f : α → γ} (hf : f 0 = 0) (p : Nat) (m : Meta) (w : Nat) (rows : List (List α)) (ml : Int) :
    widen p m w (rows.map (List.map f)) ml = (widen p m w rows ml).map fun r => (r.1, r.2.map (List.map f)) := by
  unfold widen
  have e : ∀ a b : Nat, (rows.map (List.map f)).map (fpad a b) = (rows.map (fpad a b)).map (List.map f) := by
    intro a b
    rw [List.map_map, List.map_map]
    apply List.map_congr_left
    intro r _
    exact fpad_map hf a b r
  dsimp only
  split
  · split
    · split
      · simp only [Except.map]
        rw [e]
      · rfl
    · simp only [Except.map]
      rw [e]
  · rfl

theorem shiftStarting_map (f : α → γ) (p : Nat) (m : Meta) (rows : List (List α)) :
    shiftStarting p m (rows.map (List.map f)) = (shiftStarting p m rows).map (List.map f) := by
  unfold shiftStarting
  split
  · rw [List.map_zipWith, List.zipWith_map_left]
    congr 1
    funext r s
    cases s
    · rfl
    · exact roll_map f p r
  · rfl

theorem applyPadding_map {f : α → γ} (hf : f 0 = 0) (c : Cfg) (x : ST α) :
    applyPadding c (x.map f) = (applyPadding c x).map fun r => (r.1, r.2.1, r.2.2.1, r.2.2.2.map (List.map f)) := by
  obtain ⟨md, w, rows⟩ := x
  show applyPadding c ⟨md, w, rows.map (List.map f)⟩ = _
  unfold applyPadding
  dsimp only
  by_cases h1 : c.padding > 0
  · rw [if_pos h1, if_pos h1]
    by_cases h2 : (Meta.allStarting { md with lengths := padLengths c.padding md } && Meta.allEnding { md with lengths := padLengths c.padding md }) = true
    · rw [if_pos h2, if_pos h2]
      rfl
    · rw [if_neg h2, if_neg h2]
      cases hm : Meta.maxLength { md with lengths := padLengths c.padding md } with
      | error e => rfl
      | ok ml =>
        simp only [ok_bind']
        rw [widen_map hf]
        cases hw : widen c.padding { md with lengths := padLengths c.padding md } w rows ml with
        | error e => rfl
        | ok r =>
          simp only [Except.map, ok_bind']
          rw [shiftStarting_map]
  · rw [if_neg h1, if_neg h1]
    rfl

theorem bufItems_frames (f : α → γ) (c : Cfg) (ids : List String) (es : List Bool) (ls : List Int) (rows : List (List α)) :
    bufItems c ids es ls (rows.map (List.map f)) = (bufItems c ids es ls rows).map fun kv => (kv.1, kv.2.map f) := by
  induction ids generalizing es ls rows with
  | nil => rfl
  | cons i ids ih =>
    cases es with
    | nil => rfl
    | cons e es =>
      cases ls with
      | nil => rfl
      | cons l ls =>
        cases rows with
        | nil => rfl
        | cons r rows =>
          simp only [List.map_cons, bufItems, ih, List.map_append]
          congr 1
          unfold bufItem
          cases e
          · simp [List.map_drop, List.map_take]
          · rfl

theorem maskRow_map {h : β → δ} (hh : h 0 = 0) (l : Int) (r : List β) : maskRow l (r.map h) = (maskRow l r).map h := by
  unfold maskRow
  apply List.ext_getElem?
  intro j
  rw [List.getElem?_mapIdx, List.getElem?_map, List.getElem?_map, List.getElem?_mapIdx]
  cases r[j]? with
  | none => rfl
  | some y =>
    simp only [Option.map_some]
    split
    · rfl
    · rw [hh]

theorem conv1d_map {f : α → γ} (hf : f 0 = 0) {h : β → δ} (hh : h 0 = 0) {g : List α → β} {g' : List γ → δ} (hg : ∀ ws, g' (ws.map f) = h (g ws)) (c : Cfg) (x : ST α) :
    conv1d c g' (x.map f) = (conv1d c g x).map fun r => (r.1.map h, r.2.map fun kv => (kv.1, kv.2.map f)) := by
  unfold conv1d
  rw [applyPadding_map hf]
  cases ha : applyPadding c x with
  | error e => rfl
  | ok r =>
    obtain ⟨m, p, w, rows⟩ := r
    simp only [Except.map, ok_bind']
    rw [torchConv1d_map hf hg]
    cases ht : torchConv1d c g p w rows with
    | error e => rfl
    | ok q =>
      obtain ⟨n, ys⟩ := q
      simp only [Except.map, ok_bind', ST.map, Except.ok.injEq, Prod.mk.injEq]
      refine ⟨?_, ?_⟩
      · congr 1
        rw [List.map_zipWith, List.zipWith_map_right]
        congr 1
        funext l r
        exact maskRow_map hh l r
      · unfold tempBuffer
        split
        · exact bufItems_frames f c _ _ _ _
        · rfl

theorem narrowRow_map (f : α → γ) (m : Meta) (w : Nat) (r : List α) : narrowRow m w (r.map f) = (narrowRow m w r).map fun q => (q.1, q.2.map f) := by
  unfold narrowRow
  cases pyGet m.lengths 0 with
  | error e => rfl
  | ok l =>
    simp only [ok_bind']
    split
    · rfl
    · cases m.index2 0 (.slice {}) (.slice { start := some 0, stop := some l }) with
      | error e => rfl
      | ok m' => simp [Except.map, ok_bind', List.map_take]

theorem prepend_map (f : α → γ) (b : Option (List α)) (x : Meta × List α) :
    prepend (b.map (List.map f)) (x.1, x.2.map f) = ((prepend b x).1, (prepend b x).2.map f) := by
  cases b with
  | none => rfl
  | some b => simp [prepend]

theorem raggedRows_map (f : α → γ) (w : Nat) (ms : List Meta) (rows : List (List α)) (bs : List (Option (List α))) :
    raggedRows w ms (rows.map (List.map f)) (bs.map (Option.map (List.map f))) = (raggedRows w ms rows bs).map (List.map fun q => (q.1, q.2.map f)) := by
  induction ms generalizing rows bs with
  | nil => rfl
  | cons m ms ih =>
    cases rows with
    | nil => rfl
    | cons r rows =>
      cases bs with
      | nil => rfl
      | cons b bs =>
        simp only [List.map_cons, raggedRows]
        rw [narrowRow_map, ih]
        cases narrowRow m w r with
        | error e => rfl
        | ok q =>
          simp only [Except.map, ok_bind']
          cases raggedRows w ms rows bs with
          | error e => rfl
          | ok qs =>
            simp only [ok_bind', List.map_cons]
            rw [prepend_map]

theorem padStream_map {f : α → γ} (hf : f 0 = 0) (xs : List (Meta × List α)) :
    padStream (xs.map fun q => (q.1, q.2.map f)) = (padStream xs).map (ST.map f) := by
  unfold padStream
  have e1 : (xs.map fun q => (q.1, q.2.map f)).map (·.1) = xs.map (·.1) := by simp
  have e2 : ((xs.map fun q => (q.1, q.2.map f)).map fun x => (x.2.length : Int)) = xs.map fun x => (x.2.length : Int) := by simp
  have e3 : (xs.map fun q => (q.1, q.2.map f)).map (·.2.length) = xs.map (·.2.length) := by simp
  rw [e1]
  cases Meta.catBatch (xs.map (·.1)) with
  | error e => rfl
  | ok m =>
    simp only [ok_bind']
    rw [e2, e3]
    cases Meta.init m.ids m.sos m.eos (xs.map fun x => (x.2.length : Int)) none with
    | error e => rfl
    | ok md =>
      simp only [ok_bind', Except.map, ST.map, Except.ok.injEq]
      congr 1
      rw [List.map_map, List.map_map]
      apply List.map_congr_left
      intro q _
      simp [hf]

theorem bufLen_map (f : α → γ) (b : Option (List α)) : bufLen (b.map (List.map f)) = bufLen b := by
  cases b <;> simp [bufLen]

theorem head_map {γ δ : Type} (f : γ → δ) (bs : List (Option γ)) : ((bs.map (Option.map f)).head?.getD none) = (bs.head?.getD none).map f := by
  cases bs <;> rfl

theorem mapM_map (f : α → γ) (bs : List (Option (List α))) : (bs.map (Option.map (List.map f))).mapM id = (bs.mapM id).map (List.map (List.map f)) := by
  induction bs with
  | nil => rfl
  | cons b bs ih =>
    rw [List.map_cons, List.mapM_cons, List.mapM_cons, ih]
    cases b with
    | none => rfl
    | some b =>
      simp only [id, Option.map_some]
      cases bs.mapM id <;> rfl

theorem preHook_map {f : α → γ} (hf : f 0 = 0) (c : Cfg) (buf : Buf α) (x : ST α) :
    preHook c (buf.map f) (x.map f) = (preHook c buf x).map fun r => (r.1.map f, r.2) := by
  obtain ⟨md, w, rows⟩ := x
  show preHook c (buf.map f) ⟨md, w, rows.map (List.map f)⟩ = _
  unfold preHook
  have e : md.ids.map (buf.map f) = (md.ids.map buf).map (Option.map (List.map f)) := by
    simp [Buf.map, Function.comp_def]
  dsimp only
  rw [e]
  by_cases hp : c.kw > 1 ∧ md.allStarting = false
  · rw [if_pos hp, if_pos hp]
    have hs : sameLengths ((md.ids.map buf).map (Option.map (List.map f))) = sameLengths (md.ids.map buf) := by
      unfold sameLengths
      rw [head_map, bufLen_map, List.all_map]
      congr 1
      funext b
      simp only [Function.comp_apply, bufLen_map]
    rw [hs, head_map, bufLen_map]
    by_cases hq : sameLengths (md.ids.map buf) = true
    · rw [if_pos hq, if_pos hq]
      unfold catEqual
      rw [mapM_map]
      cases (md.ids.map buf).mapM id with
      | none => rfl
      | some data =>
        simp only [Option.map_some, Except.map, Except.ok.injEq, Prod.mk.injEq, and_true]
        congr 1
        rw [List.map_zipWith, List.zipWith_map]
        congr 1
        funext a b
        simp
    · rw [if_neg hq, if_neg hq]
      unfold catRagged
      cases md.unbindBatch with
      | error e => rfl
      | ok ms =>
        simp only [ok_bind']
        rw [raggedRows_map]
        cases raggedRows w ms rows (md.ids.map buf) with
        | error e => rfl
        | ok qs =>
          simp only [Except.map, ok_bind']
          rw [padStream_map hf]
          cases padStream qs <;> rfl
  · rw [if_neg hp, if_neg hp]
    rfl

theorem postHook_map (f : α → γ) (buf : Buf α) (m : Meta) (items : List (String × List α)) :
    postHook (buf.map f) m (items.map fun kv => (kv.1, kv.2.map f)) = (postHook buf m items).map f := by
  have hu : ∀ (items : List (String × List α)) (buf : Buf α), update (buf.map f) (items.map fun kv => (kv.1, kv.2.map f)) = (update buf items).map f := by
    intro items
    induction items with
    | nil => intro _; rfl
    | cons kv items ih =>
      intro buf
      unfold update at ih ⊢
      rw [List.map_cons, List.foldl_cons, List.foldl_cons, ← ih]
      congr 1
      funext i
      simp only [Buf.map]
      split <;> rfl
  have hd : ∀ (ps : List (String × Bool)) (buf : Buf α), ps.foldl (fun (b : Buf γ) ie => if ie.2 then fun i => if i = ie.1 then none else b i else b) (buf.map f) =
      Buf.map f (ps.foldl (fun b ie => if ie.2 then fun i => if i = ie.1 then none else b i else b) buf) := by
    intro ps
    induction ps with
    | nil => intro _; rfl
    | cons p ps ih =>
      intro buf
      rw [List.foldl_cons, List.foldl_cons, ← ih]
      congr 1
      split
      · funext i
        simp only [Buf.map]
        split <;> rfl
      · rfl
  unfold postHook
  simp only [hu]
  split
  · exact hd _ _
  · rfl

/-- One call on mapped frames. -/
theorem forward_map {f : α → γ} (hf : f 0 = 0) {h : β → δ} (hh : h 0 = 0) {g : List α → β} {g' : List γ → δ} (hg : ∀ ws, g' (ws.map f) = h (g ws)) (c : Cfg) (buf : Buf α) (x : ST α) :
    forward c g' (buf.map f) (x.map f) = (forward c g buf x).map fun o => { y := o.y.map h, buf := o.buf.map f, caller := o.caller } := by
  unfold forward
  rw [preHook_map hf]
  cases preHook c buf x with
  | error e => rfl
  | ok r =>
    simp only [Except.map, ok_bind']
    rw [conv1d_map hf hh hg]
    cases conv1d c g r.1 with
    | error e => rfl
    | ok q =>
      simp only [Except.map, ok_bind']
      rw [← postHook_map]
      rfl

/-- A sequence of calls on mapped frames. -/
theorem run_map {f : α → γ} (hf : f 0 = 0) {h : β → δ} (hh : h 0 = 0) {g : List α → β} {g' : List γ → δ} (hg : ∀ ws, g' (ws.map f) = h (g ws)) (c : Cfg) (buf : Buf α) (xs : List (ST α)) :
    run c g' (buf.map f) (xs.map (ST.map f)) = (run c g buf xs).map fun r => (r.1.map (ST.map h), r.2.map f) := by
  induction xs generalizing buf with
  | nil => rfl
  | cons x xs ih =>
    rw [List.map_cons]
    unfold run
    rw [forward_map hf hh hg]
    cases forward c g buf x with
    | error e => rfl
    | ok o =>
      simp only [Except.map, ok_bind']
      rw [ih]
      cases run c g o.buf xs with
      | error e => rfl
      | ok r => rfl

end
end DS.Conv
