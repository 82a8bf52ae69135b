import Verif.Spec.ConvTen
import Verif.Lemmas.Tensor
import Verif.Lemmas.ConvRun
/-! Convolution on named tensors refines convolution on frames. -/

namespace DS.ConvT
open DS.Tn DS.Conv

/-- Two computations raise the same exception, or give related results. -/
inductive Agree {β γ : Type} (R : β → γ → Prop) : Py β → Py γ → Prop where
  | ok {x : β} {y : γ} : R x y → Agree R (.ok x) (.ok y)
  | error (e : PyErr) : Agree R (.error e) (.error e)

theorem Agree.bind {β γ δ ε : Type} {R : β → γ → Prop} {S : δ → ε → Prop} {a : Py β} {b : Py γ} {f : β → Py δ} {g : γ → Py ε} (h : Agree R a b)
    (hf : ∀ x y, R x y → Agree S (f x) (g y)) : Agree S (a >>= f) (b >>= g) := by
  cases h with
  | ok h => exact hf _ _ h
  | error e => exact .error e

theorem Agree.left {β γ δ : Type} {S : δ → γ → Prop} {a : Py β} {x : β} {f : β → Py δ} {b : Py γ} (ha : a = .ok x) (h : Agree S (f x) b) : Agree S (a >>= f) b := by
  rw [ha]; exact h

theorem Agree.refl {β : Type} (a : Py β) : Agree (fun x y => x = y) a a := by
  cases a with
  | ok x => exact .ok rfl
  | error e => exact .error e

theorem Agree.mono {β γ : Type} {R S : β → γ → Prop} {a : Py β} {b : Py γ} (h : Agree R a b) (hs : ∀ x y, R x y → S x y) : Agree S a b := by
  cases h with
  | ok h => exact .ok (hs _ _ h)
  | error e => exact .error e

theorem Agree.map {β γ δ ε : Type} {R : β → γ → Prop} {S : δ → ε → Prop} {a : Py β} {b : Py γ} {f : β → δ} {g : γ → ε} (h : Agree R a b)
    (hf : ∀ x y, R x y → S (f x) (g y)) : Agree S (a.map f) (b.map g) := by
  cases h with
  | ok h => exact .ok (hf _ _ h)
  | error e => exact .error e

section
variable {α : Type} [AddCommMonoid α] [Mul α]

/-- A tensor with axes batch, channels, time and its rows. -/
def IsRows (n ch : Nat) (t : Ten α) (w : Nat) (rows : List (List (Nat → α))) : Prop :=
  t.shape = [n, ch, w] ∧ t.names = [none, none, none] ∧ rows = rowsOf n ch w t

theorem padLast_val {n ch w a b : Nat} {t : Ten α} (h1 : t.shape = [n, ch, w]) (r c j : Nat) :
    (padLast a b t).val [r, c, j] = if a ≤ j ∧ j < a + w then t.val [r, c, j - a] else 0 := by
  have h2 : t.ndim = 3 := by simp [Ten.ndim, h1]
  have h3 : lastSize t = w := by simp [lastSize, h2, h1]
  show (if _ then _ else _) = _
  simp only [h2, h3]
  rfl

theorem rowOf_fpad {ch w a b : Nat} {t u : Ten α} {r : Nat} (h : ∀ c j, u.val [r, c, j] = if a ≤ j ∧ j < a + w then t.val [r, c, j - a] else 0) :
    rowOf ch (a + w + b) u r = fpad a b (rowOf ch w t r) := by
  rw [rowOf, rowOf, fpad]
  refine List.ext_getElem (by simp; try omega) fun j h2 h3 => ?_
  have hj : j < a + w + b := by simpa using h2
  simp only [List.getElem_map, List.getElem_range, List.getElem_append, List.length_append, List.length_replicate, List.length_map, List.length_range, List.getElem_replicate, h]
  by_cases ha : j < a
  · simp [ha, show j < a + w by omega, show ¬ a ≤ j by omega]
    rfl
  · by_cases hb : j < a + w
    · simp [ha, hb, show a ≤ j by omega]
    · simp [hb]
      rfl

theorem isRows_pad {n ch w a b : Nat} {t : Ten α} {rows : List (List (Nat → α))} (h : IsRows n ch t w rows) :
    IsRows n ch (padLast a b t) (a + w + b) (rows.map (fpad a b)) := by
  obtain ⟨h1, hnm, rfl⟩ := h
  refine ⟨by simp [padLast, Ten.ndim, h1, lastSize], hnm, ?_⟩
  rw [rowsOf, rowsOf, List.map_map]
  exact List.map_congr_left fun r _ => (rowOf_fpad fun c j => padLast_val h1 r c j).symm

theorem rowOf_roll {ch w p : Nat} {t u : Ten α} {r : Nat} (h : ∀ c j, u.val [r, c, j] = t.val [r, c, (j + (w - p % w)) % w]) : rowOf ch w u r = roll p (rowOf ch w t r) := by
  rw [rowOf, rowOf, roll]
  refine List.ext_getElem (by simp; try omega) fun j h4 h5 => ?_
  have hj : j < w := by simpa using h4
  have hw : 0 < w := by omega
  have hm := Nat.mod_lt p hw
  simp only [List.length_map, List.length_range, List.getElem_append, List.getElem_map, List.getElem_range, List.length_drop, List.getElem_drop, List.getElem_take, h]
  by_cases hjp : j < p % w
  · rw [dif_pos (by omega), Nat.mod_eq_of_lt (a := j + (w - p % w)) (by omega), Nat.add_comm j]
  · rw [dif_neg (by omega), show j + (w - p % w) = j - p % w + w by omega, Nat.add_mod_right, Nat.mod_eq_of_lt (a := j - p % w) (by omega), show w - (w - p % w) = p % w by omega]

theorem isRows_roll {n ch w p : Nat} {t : Ten α} {rows : List (List (Nat → α))} (h : IsRows n ch t w rows) {sos : List Bool} (hs : sos.length = n) :
    ∃ t', rollStarting p sos t = .ok t' ∧ IsRows n ch t' w (List.zipWith (fun r s => if s then roll p r else r) rows sos) := by
  obtain ⟨h1, hnm, rfl⟩ := h
  have h2 : t.ndim = 3 := by simp [Ten.ndim, h1]
  have h3 : lastSize t = w := by simp [lastSize, h2, h1]
  refine ⟨_, by rw [rollStarting, if_neg (by simp [h1, hs])], ?_, ?_, ?_⟩
  · exact h1
  · exact hnm
  refine List.ext_getElem (by simp [rowsOf, hs]) fun b h4 h5 => ?_
  have hb : b < n := by simpa [rowsOf] using h5
  have hbs : b < sos.length := by omega
  simp only [List.getElem_zipWith, rowsOf, List.getElem_map, List.getElem_range]
  have hg : ∀ c j : Nat, sos.getD ([b, c, j].headD 0) false = sos[b] := by
    intro c j
    simp [List.getD, List.getElem?_eq_getElem hbs]
  cases hsb : sos[b] with
  | false =>
    simp only [Bool.false_eq_true, ↓reduceIte]
    refine List.map_congr_left fun j _ => ?_
    funext c
    have hv : (if sos.getD ([b, c, j].headD 0) false = true then t.val ([b, c, j].modify (t.ndim - 1) fun j => (j + (lastSize t - p % lastSize t)) % lastSize t) else t.val [b, c, j]) = t.val [b, c, j] := by
      rw [if_neg (by rw [hg, hsb]; simp)]
    dsimp only
    rw [hv]
  | true =>
    simp only [↓reduceIte]
    refine (rowOf_roll fun c j => ?_).symm
    show (if _ then _ else _) = _
    rw [if_pos (by rw [hg, hsb]), h2, h3]
    rfl

/-- The padding block. -/
theorem applyPadding_agree (c : Cfg) (m : Meta) {n ch w : Nat} {t : Ten α} {rows : List (List (Nat → α))} (hm : m.WF) (hn : m.ids.length = n) (h : IsRows n ch t w rows) :
    Agree (fun (x : Meta × Nat × Ten α) (y : Meta × Nat × Nat × List (List (Nat → α))) =>
        x.1 = y.1 ∧ x.2.1 = y.2.1 ∧ IsRows n ch x.2.2 y.2.2.1 y.2.2.2 ∧ x.1.WF ∧ x.1.ids = m.ids)
      (applyPaddingT c m t) (applyPadding c ⟨m, w, rows⟩) := by
  have hw : lastSize t = w := by simp [lastSize, Ten.ndim, h.1]
  unfold applyPaddingT applyPadding
  split
  · have hwf : ({ m with lengths := padLengths c.padding m } : Meta).WF := by
      refine ⟨hm.1, hm.2.1, ?_, hm.2.2.2⟩
      show (padLengths c.padding m).length = m.ids.length
      unfold padLengths addWhere
      split
      · simpa using hm.2.2.1
      · split
        · simp [hm.1, hm.2.1, hm.2.2.1]
        · exact hm.2.2.1
    dsimp only
    split
    · exact .ok ⟨rfl, rfl, h, hwf, rfl⟩
    · refine Agree.bind (Agree.refl _) fun ml ml' hml => ?_
      subst hml
      have hwiden : Agree (fun t' (y : Nat × List (List (Nat → α))) => IsRows n ch t' y.1 y.2) (widenT c.padding { m with lengths := padLengths c.padding m } t ml)
          (widen c.padding { m with lengths := padLengths c.padding m } w rows ml) := by
        unfold widenT widen
        dsimp only
        rw [hw]
        split
        · split
          · split
            · have := isRows_pad (a := c.padding) (b := (ml - (w : Int) - c.padding).toNat) h
              refine .ok ?_
              rwa [show c.padding + w + (ml - (w : Int) - c.padding).toNat = w + (ml - (w : Int)).toNat by omega] at this
            · exact .error _
          · have := isRows_pad (a := 0) (b := (ml - (w : Int)).toNat) h
            refine .ok ?_
            rwa [Nat.zero_add] at this
        · exact .ok h
      refine Agree.bind hwiden fun t' y hy => ?_
      obtain ⟨w', rows'⟩ := y
      unfold shiftStarting
      split
      · obtain ⟨t'', h1, h2⟩ := isRows_roll (p := c.padding) hy (sos := m.sos) (by rw [hm.1, hn])
        rw [h1]
        exact .ok ⟨rfl, rfl, h2, hwf, rfl⟩
      · exact .ok ⟨rfl, rfl, hy, hwf, rfl⟩
  · exact .ok ⟨rfl, rfl, h, hm, rfl⟩

/-- An entry of the buffer. -/
def IsFrames (ch : Nat) (t : Ten α) (fr : List (Nat → α)) : Prop := t.shape = [ch, fr.length] ∧ t.names = [none, none] ∧ fr = asFrames ch t

theorem rowSlice_frames {n ch w : Nat} {t : Ten α} (h1 : t.shape = [n, ch, w]) (h2 : t.names = [none, none, none]) {i : Nat} (hi : i < n) (s e : Nat) :
    ∃ t', rowSlice t i s e = .ok t' ∧ IsFrames ch t' (((rowOf ch w t i).take e).drop s) := by
  have h3 : t.ndim = 3 := by simp [Ten.ndim, h1]
  have h4 : lastSize t = w := by simp [lastSize, h3, h1]
  refine ⟨_, by rw [rowSlice, if_pos (by simpa [h1] using hi)], ?_, ?_, ?_⟩
  · simp [h1, h3, h4, rowOf]
  · simp [h2]
  · rw [asFrames, rowOf]
    simp only [h1, h3, h4, List.tail_cons, List.set_cons_succ, List.set_cons_zero, Nat.reduceSub, List.getD_cons_succ, List.getD_cons_zero]
    refine List.ext_getElem (by simp) fun j h5 h6 => ?_
    simp only [List.getElem_drop, List.getElem_take, List.getElem_map, List.getElem_range]
    funext c
    show _ = if c < ch then t.val [i, c, j + s] else 0
    rw [Nat.add_comm]

theorem bufItems_agree (c : Cfg) {n ch w : Nat} {t : Ten α} (h1 : t.shape = [n, ch, w]) (h2 : t.names = [none, none, none]) :
    ∀ (ids : List String) (es : List Bool) (ls : List Int) (i : Nat), i + ids.length = n → es.length = ids.length → ls.length = ids.length →
      ∃ items, bufItemsT c t i ids es ls = .ok items ∧
        List.Forall₂ (fun a b => a.1 = b.1 ∧ IsFrames ch a.2 b.2) items (bufItems c ids es ls ((rowsOf n ch w t).drop i)) := by
  intro ids
  induction ids with
  | nil =>
    intro es ls i _ he hl
    exact ⟨[], by simp [bufItemsT], by simp [bufItems]⟩
  | cons id ids ih =>
    intro es ls i hi he hl
    obtain ⟨e, es, rfl⟩ : ∃ e es', es = e :: es' := by cases es with | nil => simp at he | cons a b => exact ⟨a, b, rfl⟩
    obtain ⟨l, ls, rfl⟩ : ∃ e es', ls = e :: es' := by cases ls with | nil => simp at hl | cons a b => exact ⟨a, b, rfl⟩
    simp only [List.length_cons] at hi he hl
    obtain ⟨items, h3, h4⟩ := ih es ls (i + 1) (by omega) (by omega) (by omega)
    have hin : i < n := by omega
    have hd : (rowsOf n ch w t).drop i = rowOf ch w t i :: (rowsOf n ch w t).drop (i + 1) := by
      rw [List.drop_eq_getElem_cons (by simpa [rowsOf] using hin)]
      simp [rowsOf]
    rw [hd]
    simp only [bufItemsT, bufItems, h3]
    cases e with
    | true => exact ⟨items, by simp [Except.bind_ok'], by simpa [bufItem] using h4⟩
    | false =>
      obtain ⟨t', h5, h6⟩ := rowSlice_frames h1 h2 hin (outLen c l * c.stride).toNat l.toNat
      refine ⟨(id, t') :: items, by simp [h5, Except.bind_ok', map_ok'], ?_⟩
      simp only [bufItem, Bool.false_eq_true, ↓reduceIte, Option.toList_some, List.singleton_append]
      exact .cons ⟨rfl, h6⟩ h4

theorem tempBuffer_agree (c : Cfg) {n ch w : Nat} {t : Ten α} (h1 : t.shape = [n, ch, w]) (h2 : t.names = [none, none, none]) {m : Meta} (hm : m.WF) (hn : m.ids.length = n) :
    ∃ items, tempBufferT c m t = .ok items ∧ List.Forall₂ (fun a b => a.1 = b.1 ∧ IsFrames ch a.2 b.2) items (tempBuffer c m (rowsOf n ch w t)) := by
  unfold tempBufferT tempBuffer
  split
  · simpa using bufItems_agree c h1 h2 m.ids m.eos m.lengths 0 (by omega) hm.2.1 hm.2.2.1
  · exact ⟨[], rfl, .nil⟩

theorem dot_congr (k : Kern α) (ks : Nat) (x y : Nat → Nat → α) (o : Nat) (h : ∀ c < k.ins, ∀ i < ks, x (k.chan o c) i = y (k.chan o c) i) : k.dot ks x o = k.dot ks y o := by
  unfold Kern.dot
  congr 2
  refine List.map_congr_left fun c hc => ?_
  congr 1
  refine List.map_congr_left fun i hi => ?_
  rw [h c (List.mem_range.1 hc) i (List.mem_range.1 hi)]

theorem chan_lt {k : Kern α} {ch o c : Nat} (hk : k.Fits ch) (ho : o < k.outs) (hc : c < k.ins) : k.chan o c < ch := by
  obtain ⟨h1, h2, h3⟩ := hk
  have h4 : k.outs / k.groups * k.groups = k.outs := Nat.div_mul_cancel (Nat.dvd_of_mod_eq_zero h3)
  have hpos : 0 < k.outs / k.groups := by
    rcases Nat.eq_zero_or_pos (k.outs / k.groups) with h | h
    · rw [h] at h4; omega
    · exact h
  have h5 : o / (k.outs / k.groups) < k.groups := by
    rw [Nat.div_lt_iff_lt_mul hpos, Nat.mul_comm, h4]
    exact ho
  unfold Kern.chan
  rw [h1]
  calc o / (k.outs / k.groups) * k.ins + c < o / (k.outs / k.groups) * k.ins + k.ins := by omega
    _ = (o / (k.outs / k.groups) + 1) * k.ins := (Nat.succ_mul _ _).symm
    _ ≤ k.groups * k.ins := Nat.mul_le_mul_right _ h5
    _ = k.ins * k.groups := Nat.mul_comm _ _

theorem getD_rowOf {ch w : Nat} (t : Ten α) (b j : Nat) {c : Nat} (hc : c < ch) : (rowOf ch w t b).getD j 0 c = if j < w then t.val [b, c, j] else 0 := by
  rw [List.getD_eq_getElem?_getD, rowOf, List.getElem?_map]
  by_cases h : j < w
  · rw [List.getElem?_eq_getElem (by simpa using h), if_pos h]
    simp [hc]
  · rw [List.getElem?_eq_none (by simpa using h), if_neg h]
    rfl

theorem getD_fpad {n ch w p : Nat} {t : Ten α} (h1 : t.shape = [n, ch, w]) (b j : Nat) {c : Nat} (hc : c < ch) :
    (fpad p p (rowOf ch w t b)).getD j 0 c = padded p w (fun j => t.val [b, c, j]) j := by
  rw [← rowOf_fpad (b := p) (u := padLast p p t) (fun c j => padLast_val h1 b c j), getD_rowOf _ _ _ hc, padLast_val h1, padded]
  by_cases h : p ≤ j ∧ j < p + w
  · rw [if_pos h, if_pos (by omega)]
  · rw [if_neg h]
    split <;> rfl

/-- The kernel. -/
theorem dot_frames {k : Kern α} {ch : Nat} (hk : k.Fits ch) {ks : Nat} (x : Nat → Nat → α) (ws : List (Nat → α)) (hws : ws.length = ks)
    (h : ∀ c i : Nat, c < ch → i < ks → ws.getD i 0 c = x c i) {o : Nat} (ho : o < k.outs) : k.dot ks x o = k.frames ws o := by
  unfold Kern.dot Kern.frames
  rw [hws, if_pos ho]
  congr 2
  refine List.map_congr_left fun c hc => ?_
  congr 1
  refine List.map_congr_left fun i hi => ?_
  have hlt := chan_lt hk ho (List.mem_range.1 hc)
  have hlt' : o / (k.outs / k.groups) * k.ins + c < ch := hlt
  rw [h _ i hlt' (List.mem_range.1 hi)]
  rfl

/-- `torch.conv1d`. -/
theorem torchConv_agree {k : Kern α} {n ch w p : Nat} (c : Cfg) {t : Ten α} {rows : List (List (Nat → α))} (hk : k.Fits ch) (h : IsRows n ch t w rows) :
    Agree (fun (y : Ten α) (z : Nat × List (List (Nat → α))) => IsRows n k.outs y z.1 z.2) (torchConv k c p t) (torchConv1d c k.frames p w rows) := by
  obtain ⟨h1, hnm, rfl⟩ := h
  unfold torchConv torchConv1d
  rw [h1]
  dsimp only
  by_cases hw : w + 2 * p < c.kw
  · rw [if_pos (Or.inr (Or.inr hw)), if_pos hw]
    exact .error _
  · rw [if_neg (by simp [hk.1, hk.2.2, hw]), if_neg hw]
    refine .ok ⟨rfl, rfl, ?_⟩
    rw [rowsOf, rowsOf, List.map_map]
    refine List.map_congr_left fun b _ => ?_
    show List.map _ _ = List.map _ _
    refine List.map_congr_left fun j _ => ?_
    funext o
    by_cases ho : o < k.outs
    swap
    · simp [Kern.frames, ho]
    rw [if_pos ho]
    refine (dot_frames hk (ks := c.ks) (fun ch i => padded p w (fun j => t.val [b, ch, j]) (j * c.stride + i * c.dil)) (taps c (fpad p p (rowOf ch w t b)) (j * c.stride)) (by simp [taps]) ?_ ho).symm
    intro c' i hc' hi
    rw [taps, List.getD_eq_getElem?_getD, List.getElem?_map, List.getElem?_eq_getElem (by simpa using hi)]
    simp only [List.getElem_range, Option.map_some, Option.getD_some]
    exact getD_fpad h1 _ _ hc'

/-- The mask. -/
theorem maskT_agree {n ch w : Nat} {t : Ten α} (h1 : t.shape = [n, ch, w]) {outs : List Int} (ho : outs.length = n) :
    ∃ t', maskT outs t = .ok t' ∧ t'.shape = [n, ch, w] ∧ t'.names = t.names ∧ List.zipWith maskRow outs (rowsOf n ch w t) = rowsOf n ch w t' := by
  refine ⟨_, by rw [maskT, h1]; dsimp only; rw [if_pos (Or.inl ho)], ?_, ?_, ?_⟩
  · rfl
  · rfl
  refine List.ext_getElem (by simp [rowsOf, ho]) fun b h2 h3 => ?_
  have hb : b < n := by simpa [rowsOf] using h3
  simp only [List.getElem_zipWith, rowsOf, List.getElem_map, List.getElem_range, rowOf, maskRow]
  refine List.ext_getElem (by simp) fun j h4 h5 => ?_
  simp only [List.getElem_mapIdx, List.getElem_map, List.getElem_range]
  funext c
  have hbc : bcoord outs.length b = b := by
    unfold bcoord
    split
    · omega
    · rfl
  have hg : outs.getD (bcoord outs.length b) 0 = outs[b]'(by omega) := by
    rw [hbc, List.getD_eq_getElem?_getD, List.getElem?_eq_getElem (by omega)]
    rfl
  show _ = if c < ch then (if (j : Int) < outs.getD (bcoord outs.length b) 0 then t.val [b, c, j] else 0) else 0
  rw [hg]
  by_cases hj : (j : Int) < outs[b]'(by omega)
  · simp [hj]
  · simp [hj]

theorem okNames3 {f : Option String} (hb : f ≠ BATCH) (hl : f ≠ LENGTH) (he : f ≠ some "") : ([BATCH, f, LENGTH].filterMap id).Nodup ∧ some "" ∉ [BATCH, f, LENGTH] := by
  constructor
  · cases f with
    | none => decide
    | some s =>
      have h1 : s ≠ "B" := fun h => hb (by rw [h]; rfl)
      have h2 : s ≠ "L" := fun h => hl (by rw [h]; rfl)
      simp [BATCH, LENGTH, h1.symm, h2]
  · simp [BATCH, LENGTH, he.symm]

/-- One call of `overrides.conv1d`. -/
theorem conv1d_agree {k : Kern α} {ch : Nat} (c : Cfg) {x : STen α} (hk : k.Fits ch) (hx : BCL ch x) :
    Agree (fun (y : STen α × List (String × Ten α)) (z : ST (Nat → α) × List (String × List (Nat → α))) =>
        z.1 = asBatch k.outs y.1 ∧ BCL k.outs y.1 ∧ y.1.t.names = x.t.names ∧ List.Forall₂ (fun a b => a.1 = b.1 ∧ IsFrames ch a.2 b.2) y.2 z.2)
      (conv1dT k c x) (conv1d c k.frames (asBatch ch x)) := by
  obtain ⟨f, hnames, hfb, hfl, hfe⟩ := hx.names
  obtain ⟨w, hw⟩ := hx.shape
  have hsz : x.t.shape.getD 2 0 = w := by rw [hw]; rfl
  unfold conv1dT conv1d asBatch
  rw [hsz]
  have hrows : IsRows x.md.ids.length ch x.t.unnamed w (rowsOf x.md.ids.length ch w x.t) := ⟨hw, by simp [Ten.unnamed, hw], rfl⟩
  refine Agree.bind (applyPadding_agree c x.md hx.mdwf rfl hrows) ?_
  rintro ⟨m, p, t⟩ ⟨m', p', w', rows'⟩ ⟨h1, h2, h3, h4, h5⟩
  dsimp only at h1 h2 h3 h4 h5 ⊢
  subst h1 h2
  obtain ⟨items, h6, h7⟩ := tempBuffer_agree c h3.1 h3.2.1 h4 (by rw [h5])
  rw [h6, Except.bind_ok']
  refine Agree.bind (torchConv_agree c hk h3) ?_
  rintro y ⟨n, ys⟩ hy
  dsimp only at hy ⊢
  have hok := okNames3 hfb hfl hfe
  have hren : y.rename x.t.names = .ok { y with names := x.t.names } := by
    rw [hnames]
    exact rename_ok y _ (by simp [Ten.ndim, hy.1]) hok
  rw [hren, Except.bind_ok']
  obtain ⟨y', h8, h9, h10, h11⟩ := maskT_agree (t := { y with names := x.t.names }) (outs := m.lengths.map (outLen c)) hy.1 (by rw [List.length_map, h4.2.2.1, h5])
  rw [h8, Except.bind_ok']
  refine .ok ⟨?_, ⟨⟨f, by rw [h10]; exact hnames, hfb, hfl, hfe⟩, ⟨n, by rw [h9]; simp [h5]⟩, ?_⟩, h10, ?_⟩
  · simp only [h9, h5, ST.mk.injEq, List.getD_cons_succ, List.getD_cons_zero, true_and]
    rw [hy.2.2, ← h11]
    rfl
  · exact ⟨h4.1, h4.2.1, by simpa using h4.2.2.1, h4.2.2.2⟩
  · rw [h3.2.2]; exact h7

end
end DS.ConvT
