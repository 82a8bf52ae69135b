import Verif.Props.CatOps
/-! # C31: concatenating along length -/

namespace DS.Tn
open Meta

variable {α : Type}

/-- What an operand contributes to row `i`: the valid frames of a StreamTensor's row, all frames of a plain tensor. -/
def Opd.line (b l : Nat) (ix : List Nat) (i : Nat) : Opd α → List α
  | .stream x => x.line b l ix i
  | .plain t => (List.range (t.shape.getD l 0)).map fun j => t.val ((ix.set b i).set l j)

/-- Number of frames an operand contributes to row `i`. -/
def Opd.len (l i : Nat) : Opd α → Nat
  | .stream x => (x.md.lenAt i).toNat
  | .plain t => t.shape.getD l 0

/-- A row of the operand is shorter than its data. -/
def Opd.Padded (l : Nat) : Opd α → Prop
  | .stream x => ∃ n ∈ x.md.lengths, n < x.t.shape.getD l 0
  | .plain _ => False

theorem catLine (l : Nat) (ix : List Nat) (hl : l < ix.length) (p : Ten α × Nat) (ps : List (Ten α × Nat))
    (h : ∀ q ∈ (p :: ps).dropLast, q.2 = q.1.shape.getD l 0) :
    (List.range ((p :: ps).map (·.2)).sum).map (fun j => catVal l p.1 (ps.map (·.1)) (ix.set l j)) =
      (p :: ps).flatMap fun q => (List.range q.2).map fun j => q.1.val (ix.set l j) := by
  induction ps generalizing p with
  | nil => simp [catVal]
  | cons q ps ih =>
    have hp : p.2 = p.1.shape.getD l 0 := h p (by simp)
    have ih := ih q (fun r hr => h r (by
      rw [List.dropLast_cons_of_ne_nil (by simp)]; exact List.mem_cons_of_mem _ hr))
    rw [show ((p :: q :: ps).map (·.2)).sum = p.2 + ((q :: ps).map (·.2)).sum by simp, List.range_add, List.map_append, List.flatMap_cons, ← ih, List.map_map]
    congr 1
    · apply List.map_congr_left
      intro j hj
      rw [List.mem_range] at hj
      rw [List.map_cons, catVal, if_pos]
      simp [List.getD_eq_getElem?_getD, hl] at hp ⊢
      omega
    · apply List.map_congr_left
      intro j _
      show catVal l p.1 ((q :: ps).map (·.1)) (ix.set l (p.2 + j)) = _
      rw [List.map_cons, catVal, if_neg]
      · congr 1
        apply List.ext_getElem?
        intro k
        rw [List.getElem?_modify, List.getElem?_set, List.getElem?_set]
        by_cases e : l = k
        · subst e; simp [hl]; rw [List.getD_eq_getElem?_getD] at hp; omega
        · simp [e]
      · simp [List.getD_eq_getElem?_getD, hl] at hp ⊢
        omega

theorem unifyNames_spec (as bs cs : List (Option String)) (h : unifyNames as bs = .ok cs) (hlen : as.length = bs.length) :
    cs.length = as.length ∧ ∀ (k : Nat) (s : String), as[k]? = some (some s) ∨ bs[k]? = some (some s) → cs[k]? = some (some s) := by
  induction as generalizing bs cs with
  | nil =>
    cases bs with
    | nil => simp [unifyNames] at h; subst h; simp
    | cons b bs => simp at hlen
  | cons a as ih =>
    cases bs with
    | nil => simp at hlen
    | cons b bs =>
      obtain ⟨c, h1, h⟩ := ok_of_bind h
      obtain ⟨cs', h2, h⟩ := ok_of_bind h
      cases h
      obtain ⟨h3, h4⟩ := ih bs cs' h2 (by simpa using hlen)
      refine ⟨by simp [h3], ?_⟩
      intro k s hk
      cases k with
      | zero =>
        simp at hk ⊢
        cases a with
        | none => cases b <;> simp_all [unifyName]
        | some a =>
          cases b with
          | none => simp_all [unifyName]
          | some b =>
            simp only [unifyName] at h1
            split at h1
            · cases h1; simp_all
            · cases h1
      | succ k => simpa using h4 k s (by simpa using hk)

theorem unifyAll_spec (ts : List (Ten α)) (acc cs : List (Option String)) (h : unifyAll acc ts = .ok cs) (hlen : ∀ t ∈ ts, t.names.length = acc.length) :
    cs.length = acc.length ∧ ∀ (k : Nat) (s : String), (acc[k]? = some (some s) ∨ ∃ t ∈ ts, t.names[k]? = some (some s)) → cs[k]? = some (some s) := by
  induction ts generalizing acc with
  | nil => simp [unifyAll] at h; subst h; simp
  | cons t ts ih =>
    obtain ⟨n, h1, h2⟩ := ok_of_bind h
    obtain ⟨h3, h4⟩ := unifyNames_spec _ _ _ h1 (hlen t (by simp)).symm
    obtain ⟨h5, h6⟩ := ih n h2 (fun u hu => by rw [h3]; exact hlen u (by simp [hu]))
    refine ⟨by rw [h5, h3], ?_⟩
    rintro k s (hk | ⟨u, hu, hk⟩)
    · exact h6 k s (.inl (h4 k s (.inl hk)))
    · rcases List.mem_cons.1 hu with rfl | hu
      · exact h6 k s (.inl (h4 k s (.inr hk)))
      · exact h6 k s (.inr ⟨u, hu, hk⟩)

theorem mem_streams (os : List (Opd α)) (x : STen α) : x ∈ streams os ↔ .stream x ∈ os := by
  induction os with
  | nil => simp [streams]
  | cons o os ih => cases o <;> simp [streams, ih]

/-- The padding checks pass exactly if no operand is padded, and raise NotImplementedError otherwise. -/
theorem padChecks_eq (b l : Nat) (os : List (Opd α)) (h : ∀ x ∈ streams os, x.Describes b l ∧ x.md.ids ≠ []) :
    ((∀ o ∈ os, ¬ o.Padded l) → padChecks os = .ok ()) ∧ ((∃ o ∈ os, o.Padded l) → padChecks os = .error .notImplementedError) := by
  have hone : ∀ o ∈ os, (¬ o.Padded l → padCheck o = .ok ()) ∧ (o.Padded l → padCheck o = .error .notImplementedError) := by
    intro o ho
    cases o with
    | plain t => simp [Opd.Padded, padCheck]
    | stream x =>
      obtain ⟨hx, hne⟩ := h x ((mem_streams _ _).2 ho)
      have hmin : ∃ n, torchMin x.md.lengths = .ok n := by
        cases e : x.md.lengths with
        | nil => have := hx.mdwf.2.2.1; rw [e] at this; exact absurd (List.length_eq_zero_iff.1 this.symm) hne
        | cons a as => exact ⟨_, rfl⟩
      obtain ⟨n, hn⟩ := hmin
      have hn' := (torchMin_iff _ _).1 hn
      have hl := nameIndex_of hx.wf.2.1 hx.length
      change nameIndex _ LENGTH = _ at hl
      unfold padCheck
      simp only [hn, Except.bind_ok', hl, Opd.Padded]
      constructor
      · intro hp
        rw [if_neg]
        intro hlt
        exact hp ⟨n, hn'.1, hlt⟩
      · rintro ⟨k, hk, hlt⟩
        rw [if_pos]
        have := hn'.2 k hk
        omega
  clear h
  induction os with
  | nil => simp [padChecks]
  | cons o os ih =>
    obtain ⟨i1, i2⟩ := ih (fun p hp => hone p (by simp [hp]))
    obtain ⟨j1, j2⟩ := hone o (by simp)
    constructor
    · intro hp
      rw [padChecks, j1 (hp o (by simp)), Except.bind_ok', i1 (fun p hq => hp p (by simp [hq]))]
    · intro hp
      rw [padChecks]
      by_cases ho : o.Padded l
      · rw [j2 ho]; rfl
      · rw [j1 ho, Except.bind_ok', i2]
        obtain ⟨p, hp, h⟩ := hp
        rcases List.mem_cons.1 hp with rfl | hp
        · exact absurd h ho
        · exact ⟨p, hp, h⟩

/-- `cat` takes the length branch. -/
theorem cat_length_step (o : Opd α) (os : List (Opd α)) (hne : os ≠ []) (b l : Nat) (d : Int) (hst : streams (o :: os) ≠ [])
    (hd : ∀ x ∈ streams (o :: os), x.Describes b l ∧ posOf x.t.ndim d = some l) : cat o os d = catLengthDim o os d := by
  have hw : ∀ x ∈ streams (o :: os), x.t.WF ∧ posOf x.t.ndim d = some l := fun x hx => ⟨(hd x hx).1.wf, (hd x hx).2⟩
  cases os with
  | nil => exact absurd rfl hne
  | cons z zs =>
    unfold cat
    simp only []
    rw [dimIs_ok BATCH d l _ hw, Except.bind_ok', if_neg, dimIs_ok LENGTH d l _ hw, Except.bind_ok', if_pos]
    · simp only [List.any_map, List.any_eq_true, Function.comp_apply, id, decide_eq_true_eq]
      obtain ⟨x, hx⟩ := List.exists_mem_of_ne_nil _ hst
      exact ⟨x, hx, (hd x hx).1.length⟩
    · simp only [List.any_map, List.any_eq_true, Function.comp_apply, id, decide_eq_true_eq, not_exists, not_and]
      intro x hx
      rw [(hd x hx).1.length]
      decide

theorem catTen_ok (t : Ten α) (ts : List (Ten α)) (d : Int) (u : Ten α) (h : catTen t ts d = .ok u) :
    ∃ a, posOf t.ndim d = some a ∧ (∀ v ∈ ts, v.shape.length = t.shape.length ∧ v.shape.eraseIdx a = t.shape.eraseIdx a) ∧
      unifyAll t.names ts = .ok u.names ∧ namesOK u.names = true ∧ u.shape = t.shape.set a ((t :: ts).map fun v => v.shape.getD a 0).sum ∧
      u.val = catVal a t ts := by
  unfold catTen at h
  obtain ⟨a, h1, h⟩ := ok_of_bind h
  split at h
  · rename_i hs
    obtain ⟨ns, h2, h⟩ := ok_of_bind h
    split at h
    · rename_i hk
      cases h
      refine ⟨a, ?_, by simpa using hs, h2, hk, rfl, rfl⟩
      rw [normDim_eq] at h1
      cases hp : posOf t.ndim d with
      | none => rw [hp] at h1; cases h1
      | some k => rw [hp] at h1; cases h1; rfl
    · cases h
  · cases h

theorem plainSizes_ok (d : Int) (l : Nat) (os : List (Opd α)) (h : ∀ t, .plain t ∈ os → posOf t.ndim d = some l) :
    plainSizes d os = .ok ((os.map fun o => match o with | .plain t => (t.shape.getD l 0 : Int) | .stream _ => 0).sum) := by
  induction os with
  | nil => rfl
  | cons o os ih =>
    have ih := ih (fun t ht => h t (by simp [ht]))
    cases o with
    | stream x => rw [plainSizes, ih]; simp
    | plain t =>
      rw [plainSizes, sizeAt, normDim_ok (h t (by simp)), Except.bind_ok', Except.bind_ok', ih, Except.bind_ok']
      simp

/-- Lengths of a concatenation of one or more consecutive chunks. -/
theorem catLength_lens (ms : List Meta) (hms : ∀ m ∈ ms, m.WF) (m : Meta) (h : catLength ms = .ok m) :
    m.WF ∧ (∀ a ∈ ms, a.ids.length = m.ids.length) ∧ ∀ i, i < m.ids.length → m.lenAt i = total (ms.map (lenAt · i)) := by
  match ms with
  | [] => cases h
  | [a] =>
    cases h
    exact ⟨hms _ (by simp), by simp, fun i _ => by simp [total]⟩
  | a :: b :: r =>
    obtain ⟨last, hlast⟩ : ∃ last, (a :: b :: r)[(a :: b :: r).length - 1]? = some last :=
      ⟨_, List.getElem?_eq_getElem (by simp)⟩
    obtain ⟨h1, h2⟩ := C19_cat_length (a :: b :: r) (by simp) hms a last rfl hlast
    by_cases hc : Consecutive (a :: b :: r)
    · obtain ⟨m', e, hw, hlen, -, hrow⟩ := h1 hc
      rw [e] at h; cases h
      have hall : ∀ x ∈ a :: b :: r, x.ids = a.ids := by
        intro x hx
        obtain ⟨k, hk⟩ := List.mem_iff_getElem?.1 hx
        exact (hc.1 k x hk).1 a rfl
      refine ⟨hw, fun x hx => by rw [hall x hx, hlen], ?_⟩
      intro i hi
      obtain ⟨f, hf, -⟩ := row_some a (hms a (by simp)) i (by omega)
      have hlm := List.mem_of_getElem? hlast
      obtain ⟨g, hg, -⟩ := row_some last (hms last hlm) i (by rw [hall last hlm]; omega)
      have := hrow i f g hf hg
      unfold lenAt
      rw [this]
      rfl
    · rw [h2 hc] at h; cases h

theorem lenAt_add (m : Meta) (hm : m.WF) (e : Int) (i : Nat) (hi : i < m.ids.length) :
    ({ m with lengths := m.lengths.map (· + e) } : Meta).WF ∧ ({ m with lengths := m.lengths.map (· + e) } : Meta).lenAt i = m.lenAt i + e := by
  have hw : ({ m with lengths := m.lengths.map (· + e) } : Meta).WF := ⟨hm.1, hm.2.1, by simpa using hm.2.2.1, hm.2.2.2⟩
  refine ⟨hw, ?_⟩
  rw [lenAt_eq _ hw, lenAt_eq _ hm]
  have : i < m.lengths.length := by rw [hm.2.2.1]; exact hi
  simp [List.getD_eq_getElem?_getD, this]

/-- **C31.** Concatenation of two or more operands along length, at least one of them a StreamTensor (with rows), length being the same axis `l` of all of them and batch
the same axis `b`: (1) if a StreamTensor other than the last operand is padded, NotImplementedError; (2) if the call succeeds, the result is described
by its metadata and every row's valid frames are the concatenation of the operands' valid frames (plain tensors contribute all their
frames). -/
theorem C31_cat_length (o : Opd α) (os : List (Opd α)) (hne : os ≠ []) (hst : streams (o :: os) ≠ []) (b l : Nat) (d : Int)
    (hd : ∀ x ∈ streams (o :: os), x.Describes b l ∧ posOf x.t.ndim d = some l ∧ x.md.ids ≠ []) (hp : ∀ t, .plain t ∈ o :: os → t.WF) :
    ((∃ p ∈ (o :: os).dropLast, p.Padded l) → cat o os d = .error .notImplementedError) ∧
    ∀ r, cat o os d = .ok r → ∃ y, r = .stream y ∧ y.Describes b l ∧ (∀ x ∈ streams (o :: os), y.md.ids.length = x.md.ids.length) ∧
      ∀ ix : List Nat, ix.length = y.t.ndim → ∀ i, i < y.md.ids.length →
        y.line b l ix i = (o :: os).flatMap (Opd.line b l ix i) := by
  have hstep := cat_length_step o os hne b l d hst (fun x hx => ⟨(hd x hx).1, (hd x hx).2.1⟩)
  have hdl : ∀ x ∈ streams (o :: os).dropLast, x ∈ streams (o :: os) := fun x hx =>
    (mem_streams _ _).2 (List.dropLast_subset _ ((mem_streams _ _).1 hx))
  obtain ⟨hpad1, hpad2⟩ := padChecks_eq b l (o :: os).dropLast (fun x hx => ⟨(hd x (hdl x hx)).1, (hd x (hdl x hx)).2.2⟩)
  rw [hstep]
  unfold catLengthDim
  refine ⟨fun h => by rw [hpad2 h]; rfl, ?_⟩
  intro r hr
  have hnp : ∀ p ∈ (o :: os).dropLast, ¬ p.Padded l := by
    intro p hp h
    rw [hpad2 ⟨p, hp, h⟩] at hr; cases hr
  rw [hpad1 hnp, Except.bind_ok'] at hr
  obtain ⟨t, ht, hr⟩ := ok_of_bind hr
  obtain ⟨m, hm, hr⟩ := ok_of_bind hr
  obtain ⟨extra, hex, hr⟩ := ok_of_bind hr
  cases hr
  obtain ⟨a, ha, hsh, hun, hok, hshape, hval⟩ := catTen_ok _ _ _ _ ht
  have hsh' : ∀ p ∈ o :: os, p.ten.shape.length = o.ten.shape.length ∧ p.ten.shape.eraseIdx a = o.ten.shape.eraseIdx a := by
    intro p hp
    rcases List.mem_cons.1 hp with rfl | hp
    · exact ⟨rfl, rfl⟩
    · exact hsh _ (List.mem_map_of_mem hp)
  obtain ⟨x0, hx0⟩ := List.exists_mem_of_ne_nil _ hst
  obtain ⟨hx0d, hx0p, -⟩ := hd x0 hx0
  have hx0m := (mem_streams _ _).1 hx0
  have hal : a = l := by
    have h1 := (hsh' _ hx0m).1
    have h2 : posOf x0.t.shape.length d = some l := hx0p
    have h3 : posOf o.ten.shape.length d = some a := ha
    change x0.t.shape.length = _ at h1
    rw [h1, h3] at h2
    exact Option.some.inj h2
  subst hal
  have hbl : b ≠ a := by
    intro e
    have h1 := hx0d.batch
    rw [e, hx0d.length] at h1
    exact absurd h1 (by decide)
  have hwf : ∀ p ∈ o :: os, p.ten.WF := by
    intro p hp'
    cases p with
    | plain t => exact hp t hp'
    | stream x => exact (hd x ((mem_streams _ _).2 hp')).1.wf
  have hnl : ∀ p ∈ o :: os, p.ten.names.length = o.ten.names.length := by
    intro p hp'
    rw [(hwf p hp').1, (hwf o (by simp)).1, (hsh' p hp').1]
  obtain ⟨hul, huk⟩ := unifyAll_spec _ _ _ hun (by
    intro u hu
    obtain ⟨p, hp', rfl⟩ := List.mem_map.1 hu
    exact hnl p (by simp [hp']))
  have huk' : ∀ (k : Nat) (s : String), x0.t.names[k]? = some (some s) → t.names[k]? = some (some s) := by
    intro k s hk
    apply huk k s
    rcases List.mem_cons.1 hx0m with h | h
    · left; rw [← h]; exact hk
    · right; exact ⟨x0.t, List.mem_map.2 ⟨_, h, rfl⟩, hk⟩
  obtain ⟨hmw, hmids, hmlen⟩ := catLength_lens _ (by
    intro m hm
    obtain ⟨x, hx, rfl⟩ := List.mem_map.1 hm
    exact (hd x hx).1.mdwf) m hm
  have hmids' : ∀ x ∈ streams (o :: os), x.md.ids.length = m.ids.length := fun x hx => hmids _ (List.mem_map_of_mem hx)
  have hpl : ∀ t, .plain t ∈ o :: os → posOf t.ndim d = some a := by
    intro t ht
    have := (hsh' _ ht).1
    change t.shape.length = _ at this
    show posOf t.shape.length d = _
    rw [this]; exact ha
  rw [plainSizes_ok d a _ hpl] at hex
  cases hex
  -- lengths of a row of each operand
  have hfit : ∀ x ∈ streams (o :: os), ∀ i, i < m.ids.length → x.md.lenAt i ∈ x.md.lengths ∧ 0 ≤ x.md.lenAt i ∧ x.md.lenAt i ≤ x.t.shape.getD a 0 := by
    intro x hx i hi
    obtain ⟨hdx, -, -⟩ := hd x hx
    have hlt : i < x.md.lengths.length := by rw [hdx.mdwf.2.2.1, hmids' x hx]; exact hi
    have hmem : x.md.lenAt i ∈ x.md.lengths := by
      rw [lenAt_eq _ hdx.mdwf]
      simp [List.getD_eq_getElem?_getD, hlt]
    obtain ⟨w, hw, hb⟩ := hdx.fits
    rw [List.getD_eq_getElem?_getD, hw, Option.getD_some]
    exact ⟨hmem, hb _ hmem⟩
  have hlens : ∀ i, i < m.ids.length → m.lenAt i + ((o :: os).map fun o => match o with | .plain t => (t.shape.getD a 0 : Int) | .stream _ => 0).sum =
      (((o :: os).map (Opd.len a i)).sum : Nat) := by
    intro i hi
    rw [hmlen i hi]
    have hf : ∀ x ∈ streams (o :: os), 0 ≤ x.md.lenAt i := fun x hx => (hfit x hx i hi).2.1
    clear * - hf
    generalize o :: os = ps at hf ⊢
    induction ps with
    | nil => rfl
    | cons p ps ih =>
      cases p with
      | plain t =>
        have := ih (by simpa [streams] using hf)
        simp only [streams, List.map_cons, List.sum_cons, Opd.len] at this ⊢
        omega
      | stream x =>
        have := ih (fun y hy => hf y (by simp [streams, hy]))
        have h0 := hf x (by simp [streams])
        simp only [streams, List.map_cons, List.sum_cons, Opd.len, total] at this ⊢
        omega
  generalize hE : ((o :: os).map fun o => match o with | .plain t => (t.shape.getD a 0 : Int) | .stream _ => 0).sum = E at hlens
  have hlenle : ∀ i, i < m.ids.length → ((o :: os).map (Opd.len a i)).sum ≤ ((o.ten :: os.map Opd.ten).map fun v => v.shape.getD a 0).sum := by
    intro i hi
    have hf : ∀ x ∈ streams (o :: os), x.md.lenAt i ≤ x.t.shape.getD a 0 := fun x hx => (hfit x hx i hi).2.2
    clear * - hf
    rw [← List.map_cons (f := Opd.ten)]
    generalize o :: os = ps at hf ⊢
    induction ps with
    | nil => simp
    | cons p ps ih =>
      cases p with
      | plain t =>
        have := ih (by simpa [streams] using hf)
        simp only [List.map_cons, List.sum_cons, Opd.len, Opd.ten] at this ⊢
        omega
      | stream x =>
        have := ih (fun y hy => hf y (by simp [streams, hy]))
        have h0 := hf x (by simp [streams])
        simp only [List.map_cons, List.sum_cons, Opd.len, Opd.ten] at this ⊢
        omega
  have halt : a < o.ten.shape.length := posOf_lt ha
  refine ⟨_, rfl, ⟨⟨?_, (namesOK_iff _).1 hok⟩, huk' b _ hx0d.batch, huk' a _ hx0d.length, ⟨hmw.1, hmw.2.1, by simpa using hmw.2.2.1, hmw.2.2.2⟩, ?_, ?_⟩, ?_, ?_⟩
  · rw [hul, hshape, (hwf o (by simp)).1]; simp
  · show t.shape[b]? = some m.ids.length
    rw [hshape, List.getElem?_set_ne (by omega)]
    rw [← get_of_eraseIdx (hsh' _ hx0m).2 b hbl, ← hmids' x0 hx0]
    exact hx0d.rows
  · refine ⟨_, by rw [hshape, List.getElem?_set_self halt], ?_⟩
    intro n hn
    obtain ⟨n0, hn0, rfl⟩ := List.mem_map.1 hn
    obtain ⟨i, hi⟩ := List.mem_iff_getElem?.1 hn0
    have hilt : i < m.ids.length := by
      have := (List.getElem?_eq_some_iff.1 hi).1
      rw [hmw.2.2.1] at this; exact this
    have h1 := hlens i hilt
    have h2 := hlenle i hilt
    rw [lenAt_eq _ hmw, List.getD_eq_getElem?_getD, hi, Option.getD_some] at h1
    omega
  · exact fun x hx => (hmids' x hx).symm
  · intro ix hix i hi
    have hilt : i < m.ids.length := hi
    obtain ⟨-, hla⟩ := lenAt_add m hmw E i hilt
    have hline := catLine a (ix.set b i) (by
      have : ix.length = t.shape.length := hix
      rw [List.length_set, this, hshape, List.length_set]; exact halt) (o.ten, o.len a i) (os.map fun p => (p.ten, p.len a i)) (by
      intro q hq
      rw [← List.map_cons (f := fun p : Opd α => (p.ten, p.len a i)), ← List.map_dropLast] at hq
      obtain ⟨p, hp', rfl⟩ := List.mem_map.1 hq
      cases p with
      | plain t => rfl
      | stream x =>
        have hx := (mem_streams _ _).2 (List.dropLast_subset _ hp')
        obtain ⟨h1, h2, h3⟩ := hfit x hx i hilt
        have h4 := hnp _ hp'
        simp only [Opd.Padded, not_exists, not_and, Int.not_lt] at h4
        have h5 := h4 _ h1
        show (x.md.lenAt i).toNat = x.t.shape.getD a 0
        omega)
    have hy : STen.line ⟨t, { m with lengths := m.lengths.map (· + E) }⟩ b a ix i =
        (List.range ((o :: os).map (Opd.len a i)).sum).map fun j => catVal a o.ten (os.map Opd.ten) ((ix.set b i).set a j) := by
      unfold STen.line
      rw [hla, hlens i hilt, Int.toNat_natCast, hval]
    rw [hy]
    have e1 : ((o.ten, o.len a i) :: os.map fun p => (p.ten, p.len a i)).map (·.2) = (o :: os).map (Opd.len a i) := by
      simp [Function.comp_def]
    have e2 : (os.map fun p => (p.ten, p.len a i)).map (·.1) = os.map Opd.ten := by simp [Function.comp_def]
    rw [e1, e2] at hline
    rw [hline, ← List.map_cons (f := fun p : Opd α => (p.ten, p.len a i)), List.flatMap_map]
    congr 1
    funext p
    cases p <;> rfl

/-- **C31**, when it succeeds: torch accepts the data, no operand but the last is padded, and the StreamTensors are consecutive chunks (or there is
just one). If there are several that are not consecutive, ValueError. -/
theorem C31_cat_length_accepts (o : Opd α) (os : List (Opd α)) (hne : os ≠ []) (hst : streams (o :: os) ≠ []) (b l : Nat) (d : Int)
    (hd : ∀ x ∈ streams (o :: os), x.Describes b l ∧ posOf x.t.ndim d = some l ∧ x.md.ids ≠ [])
    (hpad : ∀ p ∈ (o :: os).dropLast, ¬ p.Padded l) (t : Ten α) (ht : catTen o.ten (os.map Opd.ten) d = .ok t) :
    ((streams (o :: os)).length = 1 ∨ Consecutive ((streams (o :: os)).map (·.md)) → ∃ y, cat o os d = .ok (.stream y)) ∧
    ((streams (o :: os)).length ≠ 1 → ¬ Consecutive ((streams (o :: os)).map (·.md)) → cat o os d = .error .valueError) := by
  have hstep := cat_length_step o os hne b l d hst (fun x hx => ⟨(hd x hx).1, (hd x hx).2.1⟩)
  have hdl : ∀ x ∈ streams (o :: os).dropLast, x ∈ streams (o :: os) := fun x hx =>
    (mem_streams _ _).2 (List.dropLast_subset _ ((mem_streams _ _).1 hx))
  obtain ⟨hpad1, -⟩ := padChecks_eq b l (o :: os).dropLast (fun x hx => ⟨(hd x (hdl x hx)).1, (hd x (hdl x hx)).2.2⟩)
  obtain ⟨a, ha, hsh, -⟩ := catTen_ok _ _ _ _ ht
  have hpl : ∀ t, .plain t ∈ o :: os → posOf t.ndim d = some a := by
    intro u hu
    rcases List.mem_cons.1 hu with h | h
    · subst h; exact ha
    · have := (hsh u (List.mem_map.2 ⟨_, h, rfl⟩)).1
      show posOf u.shape.length d = _
      rw [this]; exact ha
  have hms : ∀ m ∈ (streams (o :: os)).map (·.md), m.WF := by
    intro m hm
    obtain ⟨x, hx, rfl⟩ := List.mem_map.1 hm
    exact (hd x hx).1.mdwf
  rw [hstep]
  unfold catLengthDim
  rw [hpad1 hpad, Except.bind_ok', ht, Except.bind_ok', plainSizes_ok d a _ hpl]
  generalize streams (o :: os) = xs at *
  match xs, hst with
  | [x], _ =>
    refine ⟨fun _ => ⟨_, rfl⟩, fun h => absurd rfl h⟩
  | x :: y :: r, _ =>
    obtain ⟨last, hlast⟩ : ∃ last, ((x :: y :: r).map (·.md))[((x :: y :: r).map (·.md)).length - 1]? = some last :=
      ⟨_, List.getElem?_eq_getElem (by simp)⟩
    obtain ⟨h1, h2⟩ := C19_cat_length ((x :: y :: r).map (·.md)) (by simp) hms x.md last rfl hlast
    constructor
    · rintro (h | h)
      · simp at h
      · obtain ⟨m, e, -⟩ := h1 h
        rw [e]
        exact ⟨_, rfl⟩
    · intro _ h
      rw [h2 h]
      rfl

/-- Two consecutive chunks of the same two sequences, the second padded, and three plain frames between them. -/
def exC1 : STen (List Nat) := ⟨exT [2, 3] [some "B", some "L"], ⟨["a", "b"], [true, true], [false, false], [3, 3], none⟩⟩
/-- The second chunk. -/
def exC2 : STen (List Nat) := ⟨exT [2, 2] [some "B", some "L"], ⟨["a", "b"], [false, false], [true, true], [2, 1], none⟩⟩

example : exC1.Describes 0 1 ∧ exC2.Describes 0 1 ∧
    ∃ y, cat (.stream exC1) [.plain (exT [2, 1] [none, none]), .stream exC2] (-1) = .ok (.stream y) ∧ y.md.lengths = [6, 5] ∧
      y.line 0 1 [0, 0] 1 = [[1, 0], [1, 1], [1, 2], [1, 0], [1, 0]] :=
  ⟨⟨by decide, rfl, rfl, by decide, rfl, 3, rfl, by decide⟩, ⟨by decide, rfl, rfl, by decide, rfl, 2, rfl, by decide⟩, _, rfl, rfl, rfl⟩

example : cat (.stream exC2) [.stream exC1] 1 = .error .notImplementedError := rfl

end DS.Tn
