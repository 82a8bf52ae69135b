import Verif.Model.Elementwise
import Verif.Props.Recouple
import Verif.Lemmas.Tensor
/-! C108–C111: elementwise functions. -/

namespace DS.Tn

/-- The multi-index `jx` of an operand that belongs to the multi-index `ix` of a broadcast result: axes are aligned at the right, an axis of size 1 is read at 0. -/
def ReadsAt (shape ix jx : List Nat) : Prop :=
  jx.length = shape.length ∧ ∀ a s k, shape[a]? = some s → ix[a + (ix.length - shape.length)]? = some k → jx[a]? = some (if s = 1 then 0 else k)

/-- The size of the axis of a tensor that is aligned with axis `a` of a tensor with `n` axes. -/
def aligned {α : Type} (u : Ten α) (n a : Nat) : Option Nat := u.shape.reverse[n - 1 - a]?

section
variable {α : Type}

theorem bshapeR_len {xs ys zs : List Nat} (h : bshapeR xs ys = some zs) : zs.length = max xs.length ys.length := by
  induction xs generalizing ys zs with
  | nil => simp only [bshapeR, Option.some.injEq] at h; simp [← h]
  | cons x xs ih =>
    cases ys with
    | nil => simp only [bshapeR, Option.some.injEq] at h; simp [← h]
    | cons y ys =>
      simp only [bshapeR] at h
      split at h
      · rename_i s r h1 h2
        simp only [Option.some.injEq] at h
        rw [← h]
        simp only [List.length_cons, ih h2]
        omega
      · simp at h

theorem bshapeR_get {xs ys zs : List Nat} (h : bshapeR xs ys = some zs) (r : Nat) :
    (∀ m n, xs[r]? = some m → ys[r]? = some n → ∃ s, bsize m n = some s ∧ zs[r]? = some s) ∧
    (∀ m, xs[r]? = some m → ys[r]? = none → zs[r]? = some m) ∧ (∀ n, xs[r]? = none → ys[r]? = some n → zs[r]? = some n) := by
  induction xs generalizing ys zs r with
  | nil => simp only [bshapeR, Option.some.injEq] at h; subst h; simp
  | cons x xs ih =>
    cases ys with
    | nil =>
      simp only [bshapeR, Option.some.injEq] at h
      subst h
      simp
    | cons y ys =>
      simp only [bshapeR] at h
      split at h
      · rename_i s q h1 h2
        simp only [Option.some.injEq] at h
        subst h
        cases r with
        | zero =>
          simp only [List.getElem?_cons_zero, Option.some.injEq, reduceCtorEq, false_implies, implies_true, and_true]
          rintro m n rfl rfl
          exact ⟨s, h1, rfl⟩
        | succ r => simpa using ih h2 r
      · simp at h

theorem unifyR_get {xs ys zs : List (Option String)} (h : unifyR xs ys = .ok zs) :
    zs.length = max xs.length ys.length ∧ ∀ (r : Nat) (s : String), (xs[r]? = some (some s) ∨ ys[r]? = some (some s)) → zs[r]? = some (some s) := by
  induction xs generalizing ys zs with
  | nil => simp only [unifyR, Except.ok.injEq] at h; subst h; simp
  | cons x xs ih =>
    cases ys with
    | nil => simp only [unifyR, Except.ok.injEq] at h; subst h; simp
    | cons y ys =>
      simp only [unifyR] at h
      obtain ⟨c, h1, h⟩ := ok_of_bind h
      obtain ⟨cs, h2, h⟩ := ok_of_bind h
      simp only [Except.ok.injEq] at h
      subst h
      obtain ⟨i1, i2⟩ := ih h2
      refine ⟨by simp only [List.length_cons, i1]; omega, ?_⟩
      intro r s hrs
      cases r with
      | zero =>
        simp only [List.getElem?_cons_zero, Option.some.injEq] at hrs ⊢
        cases x with
        | none =>
          cases y with
          | none => simp at hrs
          | some y => simp only [unifyName, Except.ok.injEq] at h1; simp at hrs; rw [← h1, hrs]
        | some x =>
          cases y with
          | none => simp only [unifyName, Except.ok.injEq] at h1; simp at hrs; rw [← h1, hrs]
          | some y =>
            simp only [unifyName] at h1
            split at h1
            · rename_i hxy
              simp only [Except.ok.injEq] at h1
              subst hxy
              simp at hrs
              rw [← h1, hrs]
            · simp at h1
      | succ r => simpa using i2 r s (by simpa using hrs)

theorem operandIx_reads (shape ix : List Nat) (h : shape.length ≤ ix.length) : ReadsAt shape ix (operandIx shape ix) := by
  constructor
  · unfold operandIx bix
    simp
    omega
  · intro a s k hs hk
    unfold operandIx bix
    rw [List.getElem?_zipWith, hs, List.getElem?_drop, Nat.add_comm, hk]
    simp [bcoord]

/-- Everything about `ewise` that the theorems use. -/
theorem ewise_spec {f : α → α → α} {t u out : Ten α} (ht : t.names.length = t.shape.length) (hu : u.names.length = u.shape.length)
    (h : ewise f t u = .ok out) :
    out.WF ∧ bshapeR t.shape.reverse u.shape.reverse = some out.shape.reverse ∧ out.shape.length = max t.shape.length u.shape.length ∧
    (∀ a s, t.names[a]? = some (some s) → out.names[a + (out.shape.length - t.shape.length)]? = some (some s)) ∧
    (∀ a s, u.names[a]? = some (some s) → out.names[a + (out.shape.length - u.shape.length)]? = some (some s)) ∧
    ∀ ix, ix.length = out.shape.length → ∃ jx ju, ReadsAt t.shape ix jx ∧ ReadsAt u.shape ix ju ∧ out.val ix = f (t.val jx) (u.val ju) := by
  unfold ewise at h
  split at h
  · simp at h
  · rename_i r hr
    obtain ⟨n, hn, h⟩ := ok_of_bind h
    split at h
    · rename_i hok
      simp only [Except.ok.injEq] at h
      subst h
      have hl := bshapeR_len hr
      obtain ⟨u1, u2⟩ := unifyR_get hn
      simp only [List.length_reverse] at hl u1
      have key : ∀ (ns : List (Option String)) (m : Nat), ns.length = m → m ≤ r.length →
          (∀ (k : Nat) (s : String), ns.reverse[k]? = some (some s) → n[k]? = some (some s)) →
          ∀ a s, ns[a]? = some (some s) → n.reverse[a + (r.reverse.length - m)]? = some (some s) := by
        intro ns m hm hmr hk a s ha
        have hlt := (List.getElem?_eq_some_iff.1 ha).1
        have := hk (ns.length - 1 - a) s (by
          rw [List.getElem?_reverse (by omega), ← ha]
          congr 1
          omega)
        rw [List.length_reverse, List.getElem?_reverse (by rw [u1, ht, hu, ← hl]; omega), ← this]
        congr 1
        rw [u1, ht, hu, ← hl]
        omega
      refine ⟨⟨by simp [u1, hl, ht, hu], (namesOK_iff _).1 hok⟩, by simpa using hr, by simp [hl], ?_, ?_, ?_⟩
      · exact key t.names _ ht (by omega) fun k s h => u2 k s (.inl h)
      · exact key u.names _ hu (by omega) fun k s h => u2 k s (.inr h)
      · intro ix hix
        simp only [List.length_reverse] at hix
        exact ⟨_, _, operandIx_reads _ _ (by omega), operandIx_reads _ _ (by omega), rfl⟩
    · simp at h

theorem bsize_comm (m n : Nat) : bsize m n = bsize n m := by
  unfold bsize
  split <;> split <;> try split
  all_goals (try split)
  all_goals (try split)
  all_goals first | rfl | omega | (congr 1 <;> omega)

theorem bshapeR_comm (xs ys : List Nat) : bshapeR xs ys = bshapeR ys xs := by
  induction xs generalizing ys with
  | nil => cases ys <;> rfl
  | cons x xs ih =>
    cases ys with
    | nil => rfl
    | cons y ys => simp only [bshapeR, bsize_comm x y, ih ys]

/-- The size of an axis of the result. -/
theorem ewise_size {t u out : Ten α} (h : bshapeR t.shape.reverse u.shape.reverse = some out.shape.reverse) (hl : t.shape.length ≤ out.shape.length) (a s : Nat)
    (ha : t.shape[a]? = some s) :
    ∃ z, out.shape[a + (out.shape.length - t.shape.length)]? = some z ∧
      ((aligned u t.ndim a = none ∧ z = s) ∨ ∃ n, aligned u t.ndim a = some n ∧ bsize s n = some z) := by
  have hlt := (List.getElem?_eq_some_iff.1 ha).1
  have hg := bshapeR_get h (t.shape.length - 1 - a)
  have hs : t.shape.reverse[t.shape.length - 1 - a]? = some s := by
    rw [List.getElem?_reverse (by omega), ← ha]
    congr 1
    omega
  have ho : out.shape.reverse[t.shape.length - 1 - a]? = out.shape[a + (out.shape.length - t.shape.length)]? := by
    rw [List.getElem?_reverse (by omega)]
    congr 1
    omega
  rw [ho] at hg
  unfold aligned Ten.ndim
  cases hn : u.shape.reverse[t.shape.length - 1 - a]? with
  | none => exact ⟨s, hg.2.1 s hs hn, .inl ⟨rfl, rfl⟩⟩
  | some n =>
    obtain ⟨z, h1, h2⟩ := hg.1 s n hs hn
    exact ⟨z, h2, .inr ⟨n, rfl, h1⟩⟩

/-- A single sequence of three frames. -/
def exOne : STen (List Nat) := ⟨exT [1, 3] [some "B", some "L"], ⟨["a"], [true], [false], [3], none⟩⟩

/-- **C108 is false of the code.** Adding a plain column of two values to a batch of one sequence gives a StreamTensor with two rows and metadata for one. -/
theorem C108_plain_false : ∃ y, ewiseValid (fun a b => a ++ b) (.stream exOne) (.plain (exT [2, 1] [none, none])) = .ok y ∧ exOne.Describes 0 1 ∧
    y.t.shape = [2, 3] ∧ y.t.names = [BATCH, LENGTH] ∧ y.md.ids.length = 1 :=
  ⟨_, rfl, ⟨by decide, rfl, rfl, by decide, rfl, 3, rfl, by decide⟩, rfl, rfl, rfl⟩

theorem describes_of {x : STen α} {b l : Nat} (h : x.Describes b l) {u out : Ten α} {k : Nat} (hwf : out.WF) (hk : k = out.shape.length - x.t.shape.length)
    (hsh : bshapeR x.t.shape.reverse u.shape.reverse = some out.shape.reverse) (hlen : x.t.shape.length ≤ out.shape.length)
    (hn : ∀ a s, x.t.names[a]? = some (some s) → out.names[a + k]? = some (some s))
    (hb : ∀ s, aligned u x.t.ndim b = some s → s = 1 ∨ s = x.md.ids.length)
    (hl : aligned u x.t.ndim l = some 0 → x.t.shape[l]? = some 0) : STen.Describes ⟨out, x.md⟩ (b + k) (l + k) := by
  subst hk
  refine ⟨hwf, hn b _ h.batch, hn l _ h.length, h.mdwf, ?_, ?_⟩
  · obtain ⟨z, h1, h2⟩ := ewise_size hsh hlen b _ h.rows
    rw [h1]
    rcases h2 with ⟨-, rfl⟩ | ⟨n, hn, hz⟩
    · rfl
    · unfold bsize at hz
      rcases hb n hn with rfl | rfl
      · split at hz
        · simpa using hz.symm
        · split at hz
          · simpa using hz.symm
          · simp_all
      · simpa using hz.symm
  · obtain ⟨w, hw, hf⟩ := h.fits
    obtain ⟨z, h1, h2⟩ := ewise_size hsh hlen l _ hw
    refine ⟨z, h1, fun n hn => ⟨(hf n hn).1, (hf n hn).2.trans ?_⟩⟩
    rcases h2 with ⟨-, rfl⟩ | ⟨s, hs, hz⟩
    · exact le_refl _
    · unfold bsize at hz
      have h0 : s = 0 → w = 0 := by
        rintro rfl
        have := hl hs
        rw [hw] at this
        simpa using this
      split at hz
      · simp at hz; omega
      · split at hz
        · simp at hz; omega
        · split at hz
          · simp at hz; omega
          · simp at hz

/-- **C108, the part that holds.** A default-valid elementwise function of a StreamTensor and a plain tensor, in either order: if the call succeeds and the
plain tensor does not broadcast the batch axis, and does not empty the length axis, the result has the metadata of the StreamTensor, batch and length are found by name at the aligned axes and
described by the metadata, and every entry is the function of the entries at the aligned multi-indices. Missing: plain tensors that are larger than the StreamTensor on the
batch axis (exactly which plain tensors: `C108_exact_partial`). -/
theorem C108_plain_partial (f : α → α → α) (x : STen α) (u : Ten α) (b l : Nat) (h : x.Describes b l) (hu : u.WF)
    (hb : ∀ s, aligned u x.t.ndim b = some s → s = 1 ∨ s = x.md.ids.length) (hl : aligned u x.t.ndim l = some 0 → x.t.shape[l]? = some 0) (y : STen α) :
    (ewiseValid f (.stream x) (.plain u) = .ok y → y.md = x.md ∧ y.Describes (b + (y.t.ndim - x.t.ndim)) (l + (y.t.ndim - x.t.ndim)) ∧
      ∀ ix, ix.length = y.t.ndim → ∃ jx ju, ReadsAt x.t.shape ix jx ∧ ReadsAt u.shape ix ju ∧ y.t.val ix = f (x.t.val jx) (u.val ju)) ∧
    (ewiseValid f (.plain u) (.stream x) = .ok y → y.md = x.md ∧ y.Describes (b + (y.t.ndim - x.t.ndim)) (l + (y.t.ndim - x.t.ndim)) ∧
      ∀ ix, ix.length = y.t.ndim → ∃ jx ju, ReadsAt x.t.shape ix jx ∧ ReadsAt u.shape ix ju ∧ y.t.val ix = f (u.val ju) (x.t.val jx)) := by
  constructor
  · intro hy
    unfold ewiseValid defaultValid at hy
    obtain ⟨out, ho, hy⟩ := ok_of_bind hy
    simp only [streams, List.map_nil, allEq, Except.bind_ok', if_true, Except.ok.injEq] at hy
    subst hy
    obtain ⟨h1, h2, h3, h4, h5, h6⟩ := ewise_spec h.wf.1 hu.1 ho
    exact ⟨rfl, describes_of h h1 rfl h2 (by rw [h3]; omega) h4 hb hl, h6⟩
  · intro hy
    unfold ewiseValid defaultValid at hy
    obtain ⟨out, ho, hy⟩ := ok_of_bind hy
    simp only [streams, List.map_nil, allEq, Except.bind_ok', if_true, Except.ok.injEq] at hy
    subst hy
    obtain ⟨h1, h2, h3, h4, h5, h6⟩ := ewise_spec hu.1 h.wf.1 ho
    rw [bshapeR_comm] at h2
    refine ⟨rfl, describes_of h h1 rfl h2 (by rw [h3]; omega) h5 hb hl, ?_⟩
    intro ix hix
    obtain ⟨jx, ju, a, b, c⟩ := h6 ix hix
    exact ⟨ju, jx, b, a, c⟩

/-- A batch of two sequences and a bias per feature, applied from the right. -/
example : (∃ y, ewiseValid (fun a b => a ++ b) (.stream ⟨exT [2, 4, 3] [some "B", none, some "L"], exM2⟩) (.plain (exT [4, 1] [none, none])) = .ok y ∧
    y.t.shape = [2, 4, 3] ∧ y.t.val [1, 2, 0] = [1, 2, 0] ++ [2, 0]) ∧ aligned (exT [4, 1] [none, none]) 3 0 = none := ⟨⟨_, rfl, rfl, rfl⟩, rfl⟩

/-- **C108, recoupled functions.** For a recoupled elementwise function the plain tensor must have no names; the result has the rank, names and metadata of the StreamTensor, and is described
as above. Missing: as above. -/
theorem C108_recouple_partial (f : α → α → α) (x : STen α) (u : Ten α) (b l : Nat) (h : x.Describes b l) (hu : u.WF)
    (hb : ∀ s, aligned u x.t.ndim b = some s → s = 1 ∨ s = x.md.ids.length) (hl : aligned u x.t.ndim l = some 0 → x.t.shape[l]? = some 0) (y : STen α)
    (hy : ewiseRecouple f (.stream x) (.plain u) = .ok y) :
    y.md = x.md ∧ y.t.names = x.t.names ∧ y.Describes b l ∧
      ∀ ix, ix.length = y.t.ndim → ∃ jx ju, ReadsAt x.t.shape ix jx ∧ ReadsAt u.shape ix ju ∧ y.t.val ix = f (x.t.val jx) (u.val ju) := by
  unfold ewiseRecouple recouple at hy
  simp only [streams, List.map_nil, allEq, Except.bind_ok', List.all_nil, Bool.and_self, if_true] at hy
  obtain ⟨out, ho, hy⟩ := ok_of_bind hy
  obtain ⟨out', hr, hy⟩ := ok_of_bind hy
  simp only [Except.ok.injEq] at hy
  subst hy
  split at ho
  · simp at ho
  · obtain ⟨h1, h2, h3, h4, h5, h6⟩ := ewise_spec (t := x.t.unnamed) (by simp [Ten.unnamed]) hu.1 ho
    have hns : x.t.names ≠ [none] := by
      intro hc
      have hb := h.batch
      rw [hc] at hb
      cases b with
      | zero => simp [BATCH] at hb
      | succ b => simp at hb
    unfold Ten.rename at hr
    rw [if_neg hns] at hr
    split at hr
    · rename_i hlen
      simp only [Except.ok.injEq] at hr
      subst hr
      have hlen' : out.shape.length = x.t.shape.length := by
        have := hlen.1
        unfold Ten.ndim at this
        rw [← this, h.wf.1]
      refine ⟨rfl, rfl, ?_, h6⟩
      have hwf : Ten.WF { out with names := x.t.names } := ⟨by simp only; rw [h.wf.1, hlen'], h.wf.2⟩
      have := describes_of (k := 0) h (out := { out with names := x.t.names }) (u := u) hwf (by simp [hlen']) h2 (by simp [hlen'])
        (fun a s h => by simpa using h) hb hl
      simpa using this
    · simp at hr

example : ∃ y, ewiseRecouple (fun a b => a ++ b) (.stream ⟨exT [2, 3] [some "B", some "L"], exM2⟩) (.plain (exT [3] [none])) = .ok y ∧ y.t.val [1, 2] = [1, 2] ++ [2] := ⟨_, rfl, rfl⟩

/-- **C109.** An elementwise function (default-valid or recoupled) of two StreamTensors with the same metadata: if the call succeeds, their batch axes and their length axes are aligned, the result has the
common metadata and is described by it, and every entry is the function of the entries at the aligned multi-indices. -/
theorem C109_streams (f : α → α → α) (x x' : STen α) (b l b' l' : Nat) (h : x.Describes b l) (h' : x'.Describes b' l') (hm : x'.md = x.md) (y : STen α)
    (hy : ewiseValid f (.stream x) (.stream x') = .ok y ∨ ewiseRecouple f (.stream x) (.stream x') = .ok y) :
    y.md = x.md ∧ y.Describes (b + (y.t.ndim - x.t.ndim)) (l + (y.t.ndim - x.t.ndim)) ∧ b + (y.t.ndim - x.t.ndim) = b' + (y.t.ndim - x'.t.ndim) ∧
      l + (y.t.ndim - x.t.ndim) = l' + (y.t.ndim - x'.t.ndim) ∧
      ∀ ix, ix.length = y.t.ndim → ∃ jx ju, ReadsAt x.t.shape ix jx ∧ ReadsAt x'.t.shape ix ju ∧ y.t.val ix = f (x.t.val jx) (x'.t.val ju) := by
  have unq : ∀ (ns : List (Option String)) (s : String) (i j : Nat), (ns.filterMap id).Nodup → ns[i]? = some (some s) → ns[j]? = some (some s) → i = j := by
    intro ns s i j hnd hi hj
    have e1 := nameIndex_of hnd hi
    have e2 := nameIndex_of hnd hj
    rw [e1] at e2
    simpa using e2
  have sizes : ∀ (k : Nat) (out : Ten α), bshapeR x.t.shape.reverse x'.t.shape.reverse = some out.shape.reverse →
      out.shape.length = max x.t.shape.length x'.t.shape.length → k = out.shape.length - x.t.shape.length → ∀ a a', a < x.t.shape.length → a' < x'.t.shape.length →
      a + k = a' + (out.shape.length - x'.t.shape.length) → aligned x'.t x.t.ndim a = x'.t.shape[a']? := by
    intro k out hs hl hk a a' ha ha' he
    unfold aligned Ten.ndim
    rw [List.getElem?_reverse (by omega)]
    congr 1
    omega
  have main : ∀ out : Ten α, out.WF → bshapeR x.t.shape.reverse x'.t.shape.reverse = some out.shape.reverse → out.shape.length = max x.t.shape.length x'.t.shape.length →
      (∀ a s, x.t.names[a]? = some (some s) → out.names[a + (out.shape.length - x.t.shape.length)]? = some (some s)) →
      (∀ a s, x'.t.names[a]? = some (some s) → out.names[a + (out.shape.length - x'.t.shape.length)]? = some (some s)) →
      STen.Describes ⟨out, x.md⟩ (b + (out.shape.length - x.t.shape.length)) (l + (out.shape.length - x.t.shape.length)) ∧
        b + (out.shape.length - x.t.shape.length) = b' + (out.shape.length - x'.t.shape.length) ∧
        l + (out.shape.length - x.t.shape.length) = l' + (out.shape.length - x'.t.shape.length) := by
    intro out h1 h2 h3 h4 h5
    have eb := unq out.names _ _ _ h1.2.1 (h4 b _ h.batch) (h5 b' _ h'.batch)
    have el := unq out.names _ _ _ h1.2.1 (h4 l _ h.length) (h5 l' _ h'.length)
    obtain ⟨w, hw, -⟩ := h.fits
    obtain ⟨w', hw', hf'⟩ := h'.fits
    have lb := (List.getElem?_eq_some_iff.1 h.rows).1
    have lb' := (List.getElem?_eq_some_iff.1 h'.rows).1
    have ll := (List.getElem?_eq_some_iff.1 hw).1
    have ll' := (List.getElem?_eq_some_iff.1 hw').1
    have ab := sizes _ out h2 h3 rfl b b' lb lb' eb
    have al := sizes _ out h2 h3 rfl l l' ll ll' el
    refine ⟨?_, eb, el⟩
    obtain ⟨wx, hwx, hfx⟩ := h.fits
    refine ⟨h1, h4 b _ h.batch, h4 l _ h.length, h.mdwf, ?_, ?_⟩
    · obtain ⟨z, e1, e2⟩ := ewise_size h2 (by rw [h3]; omega) b _ h.rows
      refine e1.trans ?_
      rcases e2 with ⟨-, rfl⟩ | ⟨n, hn, hz⟩
      · rfl
      · rw [ab, h'.rows, hm] at hn
        simp only [Option.some.injEq] at hn
        subst hn
        unfold bsize at hz
        simpa using hz.symm
    · obtain ⟨z, e1, e2⟩ := ewise_size h2 (by rw [h3]; omega) l _ hwx
      refine ⟨z, e1, fun n hn => ⟨(hfx n hn).1, ?_⟩⟩
      have q1 := (hfx n hn).2
      have q2 := (hf' n (by rw [hm]; exact hn)).2
      rcases e2 with ⟨-, rfl⟩ | ⟨s, hs, hz⟩
      · exact q1
      · rw [al, hw'] at hs
        simp only [Option.some.injEq] at hs
        subst hs
        unfold bsize at hz
        split at hz
        · simp at hz; omega
        · split at hz
          · simp at hz; omega
          · split at hz
            · simp at hz; omega
            · simp at hz
  rcases hy with hy | hy
  · unfold ewiseValid defaultValid at hy
    obtain ⟨out, ho, hy⟩ := ok_of_bind hy
    simp only [streams] at hy
    obtain ⟨same, hs, hy⟩ := ok_of_bind hy
    split at hy
    · simp only [Except.ok.injEq] at hy
      subst hy
      obtain ⟨h1, h2, h3, h4, h5, h6⟩ := ewise_spec h.wf.1 h'.wf.1 ho
      obtain ⟨m1, m2, m3⟩ := main out h1 h2 h3 h4 h5
      exact ⟨rfl, m1, m2, m3, h6⟩
    · simp at hy
  · unfold ewiseRecouple recouple at hy
    simp only [streams] at hy
    obtain ⟨same, hs, hy⟩ := ok_of_bind hy
    split at hy
    · rename_i hc
      obtain ⟨out, ho, hy⟩ := ok_of_bind hy
      obtain ⟨out', hr, hy⟩ := ok_of_bind hy
      simp only [Except.ok.injEq] at hy
      subst hy
      split at ho
      · simp at ho
      · obtain ⟨h1, h2, h3, -, -, h6⟩ := ewise_spec (t := x.t.unnamed) (u := x'.t.unnamed) (by simp [Ten.unnamed]) (by simp [Ten.unnamed]) ho
        have hnames : x'.t.names = x.t.names := by
          simp only [Bool.and_eq_true, List.all_cons, List.all_nil, decide_eq_true_eq, and_true] at hc
          exact hc.2
        have hns : x.t.names ≠ [none] := by
          intro hc
          have hb := h.batch
          rw [hc] at hb
          cases b with
          | zero => simp [BATCH] at hb
          | succ b => simp at hb
        unfold Ten.rename at hr
        rw [if_neg hns] at hr
        split at hr
        · rename_i hlen
          simp only [Except.ok.injEq] at hr
          subst hr
          have l1 : x.t.shape.length = x'.t.shape.length := by rw [← h.wf.1, ← h'.wf.1, hnames]
          have hlen' : out.shape.length = x.t.shape.length := by
            rw [h3]
            show max x.t.shape.length x'.t.shape.length = _
            omega
          have z1 : out.shape.length - x.t.shape.length = 0 := by omega
          have z2 : out.shape.length - x'.t.shape.length = 0 := by omega
          obtain ⟨m1, m2, m3⟩ := main { out with names := x.t.names } ⟨by simp only; rw [h.wf.1, hlen'], h.wf.2⟩ h2 h3
            (fun a s h => by simpa [z1] using h) (fun a s h => by simpa [z2, hnames] using h)
          exact ⟨rfl, m1, m2, m3, h6⟩
        · simp at hr
    · simp at hy

example : ∃ y, ewiseValid (fun a b => a ++ b) (.stream ⟨exT [2, 3] [some "B", some "L"], exM2⟩) (.stream ⟨exT [5, 2, 3] [none, some "B", some "L"], exM2⟩) = .ok y ∧
    y.t.names = [none, some "B", some "L"] ∧ y.t.val [4, 1, 2] = [1, 2] ++ [4, 1, 2] := ⟨_, rfl, rfl, rfl⟩

/-- **C110 is false of the code.** `x.add_(y)` and `x.remainder_(y)` accept a StreamTensor with the metadata of other sequences. -/
theorem C110_inplace_false :
    (∃ z, ewiseInplace (fun a b => a ++ b) ⟨exBL, exM2⟩ (.stream ⟨exBL, exM2'⟩) = .ok z ∧ z.md = exM2) ∧
    (∃ z, ewiseInplaceRecouple (fun a b => a ++ b) ⟨exBL, exM2⟩ (.stream ⟨exBL, exM2'⟩) = .ok z ∧ z.md = exM2) ∧ exM2 ≠ exM2' :=
  ⟨⟨_, rfl, rfl⟩, ⟨_, rfl, rfl⟩, by decide⟩

/-- **C110, the part that holds.** An in-place elementwise function never changes shape or metadata of its StreamTensor, keeps every name, and leaves it described by its metadata; the other operand cannot broadcast
it. Missing: the other operand's metadata are never compared. -/
theorem C110_inplace_partial (f : α → α → α) (x : STen α) (q : Opd α) (b l : Nat) (h : x.Describes b l) (hq : q.ten.WF) (y : STen α)
    (hy : ewiseInplace f x q = .ok y ∨ ewiseInplaceRecouple f x q = .ok y) :
    y.md = x.md ∧ y.t.shape = x.t.shape ∧ (∀ (a : Nat) (s : String), x.t.names[a]? = some (some s) → y.t.names[a]? = some (some s)) ∧ y.Describes b l ∧
      ∀ ix, ix.length = x.t.ndim → ∃ jx ju, ReadsAt x.t.shape ix jx ∧ ReadsAt q.ten.shape ix ju ∧ y.t.val ix = f (x.t.val jx) (q.ten.val ju) := by
  rcases hy with hy | hy
  · unfold ewiseInplace ewiseInto at hy
    obtain ⟨out, ho, hy⟩ := ok_of_bind hy
    simp only [Except.ok.injEq] at hy
    subst hy
    obtain ⟨out', ho', ho⟩ := ok_of_bind ho
    split at ho
    · rename_i hs
      simp only [Except.ok.injEq] at ho
      subst ho
      obtain ⟨h1, h2, h3, h4, h5, h6⟩ := ewise_spec h.wf.1 hq.1 ho'
      rw [hs] at h4 h6
      simp only [Nat.sub_self, Nat.add_zero] at h4
      refine ⟨rfl, hs, h4, ⟨h1, h4 b _ h.batch, h4 l _ h.length, h.mdwf, ?_, ?_⟩, h6⟩
      · simpa only [hs] using h.rows
      · simpa only [hs] using h.fits
    · simp at ho
  · unfold ewiseInplaceRecouple at hy
    split at hy
    · simp at hy
    · unfold ewiseInto at hy
      obtain ⟨out, ho, hy⟩ := ok_of_bind hy
      simp only [Except.ok.injEq] at hy
      subst hy
      obtain ⟨out', ho', ho⟩ := ok_of_bind ho
      split at ho
      · rename_i hs
        simp only [Except.ok.injEq] at ho
        subst ho
        have hqs : q.decoupled.shape = q.ten.shape ∧ q.decoupled.val = q.ten.val := by cases q <;> exact ⟨rfl, rfl⟩
        have hqn : q.decoupled.names.length = q.decoupled.shape.length := by
          cases q with
          | stream x => simp [Opd.decoupled, Ten.unnamed]
          | plain t => exact hq.1
        obtain ⟨h1, h2, h3, h4, h5, h6⟩ := ewise_spec (t := x.t.unnamed) (by simp [Ten.unnamed]) hqn ho'
        have hs' : out'.shape = x.t.shape := hs
        rw [hqs.1, hqs.2, hs'] at h6
        refine ⟨rfl, hs, fun a s h => h, ⟨⟨?_, h.wf.2⟩, h.batch, h.length, h.mdwf, ?_, ?_⟩, h6⟩
        · simp only [hs', h.wf.1]
        · simpa only [hs'] using h.rows
        · simpa only [hs'] using h.fits
      · simp at ho

example : ∃ y, ewiseInplace (fun a b => a ++ b) ⟨exBL, exM2⟩ (.plain (exT [3] [none])) = .ok y ∧ y.t.val [1, 2] = [1, 2] ++ [2] := ⟨_, rfl, rfl⟩

/-- **C110, exactly.** An in-place function of a StreamTensor does with another StreamTensor what it does with the plain tensor of its entries (and names, except for the functions that work on unnamed views), whatever its metadata are.
Missing: refusal of other metadata (`C110_inplace_false`). -/
theorem C110_exact_partial (f : α → α → α) (x y : STen α) :
    ewiseInplace f x (.stream y) = ewiseInplace f x (.plain y.t) ∧ ewiseInplaceRecouple f x (.stream y) = ewiseInplaceRecouple f x (.plain y.t.unnamed) := ⟨rfl, rfl⟩

example : ∃ z, ewiseInplace (fun a b => a ++ b) ⟨exBL, exM2⟩ (.stream ⟨exBL, exM2'⟩) = .ok z ∧ z.t.val [1, 2] = [1, 2] ++ [1, 2] := ⟨_, rfl, rfl⟩

/-- **C111 is false of the code.** `x += y` with other metadata raises, and `x` has changed. -/
theorem C111_iadd_false : (ewiseIadd (fun a b => a ++ b) ⟨exBL, exM2⟩ (.stream ⟨exBL, exM2'⟩)).1 = .error .attributeError ∧
    (ewiseIadd (fun a b => a ++ b) ⟨exBL, exM2⟩ (.stream ⟨exBL, exM2'⟩)).2.val [0, 0] ≠ exBL.val [0, 0] := by
  constructor
  · rfl
  · decide

/-- **C111, the part that holds.** A refused `x += q` leaves `x` as it was if `q` is a plain tensor, or has the metadata of `x` (without chunk indices); that is, if the refusal comes from
torch. Missing: refusals that come from the comparison of metadata. -/
theorem C111_iadd_partial (f : α → α → α) (x : STen α) (q : Opd α) (hq : ∀ y, q = .stream y → y.md = x.md ∧ x.md.chunk = none) (e : PyErr)
    (he : (ewiseIadd f x q).1 = .error e) : (ewiseIadd f x q).2 = x.t := by
  unfold ewiseIadd at he ⊢
  cases ho : ewiseInto f x.t q.ten with
  | error e' => rfl
  | ok out =>
    exfalso
    rw [ho] at he
    unfold defaultValid at he
    simp only [Except.bind_ok'] at he
    cases q with
    | plain t => simp [streams, allEq, Except.bind_ok'] at he
    | stream y =>
      obtain ⟨h1, h2⟩ := hq y rfl
      simp only [streams, List.map_cons, List.map_nil] at he
      rw [allEq_self h2 _ (by simpa using h1)] at he
      simp [Except.bind_ok'] at he

example : (ewiseIadd (fun a b => a ++ b) ⟨exBL, exM2⟩ (.plain (exT [2] [none]))).1 = .error .runtimeError := rfl

/-- **C111, exactly.** What torch refuses leaves `x` as it was. What torch accepts is in `x` afterwards; the statement succeeds if the metadata of the other StreamTensor pass for those of `x` (`Looks`), and otherwise raises AttributeError or, if the other one has chunk indices,
RuntimeError. Missing: as in `C111_iadd_partial`. -/
theorem C111_exact_partial (f : α → α → α) (x y : STen α) :
    (∀ e, ewiseInto f x.t y.t = .error e → ewiseIadd f x (.stream y) = (.error e, x.t)) ∧
    ∀ out, ewiseInto f x.t y.t = .ok out → ewiseIadd f x (.stream y) =
      (if Looks y.md x.md then .ok ⟨out, x.md⟩ else if y.md.chunk = none then .error .attributeError else .error .runtimeError, out) := by
  constructor
  · intro e h
    unfold ewiseIadd defaultValid
    simp only [show (Opd.stream y).ten = y.t from rfl, h, Except.bind_error']
  · intro out h
    unfold ewiseIadd defaultValid
    simp only [show (Opd.stream y).ten = y.t from rfl, h, Except.bind_ok', streams, List.map_cons, List.map_nil, allEq, eqMeta_table]
    by_cases hl : Looks y.md x.md
    · simp only [if_pos hl, Except.bind_ok', if_true]
    · simp only [if_neg hl]
      by_cases hc : y.md.chunk = none
      · simp only [if_pos hc]
        rfl
      · simp only [if_neg hc, Except.bind_ok', Bool.false_eq_true, if_false]

example : Looks exM2d exM2 ∧ ∃ out, ewiseInto (fun a b => a ++ b) exBL exBL = .ok out := ⟨by decide, _, rfl⟩

end
end DS.Tn
