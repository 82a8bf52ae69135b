import Verif.Lemmas.ConvTenHook
import Verif.Props.ConvCollect
import Mathlib.Data.Fintype.Basic
/-! C170, C171: convolution of named tensors with channels. -/

namespace DS.ConvT
open DS.Tn DS.Conv

/-- One sequence of two frames (1, 2) and (3, 4), with axes batch, time, features. -/
def exBLF : STen Int := ⟨{ shape := [1, 2, 2], names := [BATCH, LENGTH, some "F"], val := fun ix => [1, 2, 3, 4].getD (ix.getD 1 0 * 2 + ix.getD 2 0) 0 }, ⟨["a"], [true], [true], [2], none⟩⟩

/-- The same sequence with axes batch, features, time. -/
def exBFL : STen Int := ⟨{ shape := [1, 2, 2], names := [BATCH, some "F", LENGTH], val := fun ix => [1, 2, 3, 4].getD (ix.getD 2 0 * 2 + ix.getD 1 0) 0 }, ⟨["a"], [true], [true], [2], none⟩⟩

/-- A layer that exchanges two channels. -/
def exSwap : Kern Int := { outs := 2, ins := 2, groups := 1, weight := fun o c _ => if o + c = 1 then 1 else 0, bias := fun _ => 0 }

/-- All entries of a tensor with three axes, with its shape and names. -/
def entries3 (t : Ten Int) : List Nat × List (Option String) × List Int :=
  (t.shape, t.names, (List.range (t.shape.getD 0 0)).flatMap fun a => (List.range (t.shape.getD 1 0)).flatMap fun b => (List.range (t.shape.getD 2 0)).map fun c => t.val [a, b, c])

/-- **C170 is false of the code.** Exchanging the two features of the frames (1, 2), (3, 4) should give (2, 1), (4, 3). With axes batch, features, time it does. With axes batch, time, features the call is accepted
and the two frames change places: the axes count by position, whatever their names are. -/
theorem C170_axes_false :
    ((conv1dT exSwap ⟨1, 1, 1, 0⟩ exBFL).map fun r => (entries3 r.1.t, r.1.md)) = .ok (([1, 2, 2], [BATCH, some "F", LENGTH], [2, 4, 1, 3]), ⟨["a"], [true], [true], [2], none⟩) ∧
    ((conv1dT exSwap ⟨1, 1, 1, 0⟩ exBLF).map fun r => (entries3 r.1.t, r.1.md)) = .ok (([1, 2, 2], [BATCH, LENGTH, some "F"], [3, 4, 1, 2]), ⟨["a"], [true], [true], [2], none⟩) := by
  exact ⟨rfl, rfl⟩

section
variable {α : Type} [AddCommMonoid α] [Mul α]

theorem torchConv_rank {k : Kern α} {c : Cfg} {p : Nat} {t y : Ten α} (h : torchConv k c p t = .ok y) : y.ndim = t.ndim := by
  unfold torchConv at h
  split at h
  · rename_i heq
    split at h
    · cases h
    · cases h; simp [Ten.ndim, heq]
  · rename_i heq
    split at h
    · cases h
    · cases h; simp [Ten.ndim, heq]
  · cases h

theorem widenT_rank {p : Nat} {m : Meta} {t t' : Ten α} {ml : Int} (h : widenT p m t ml = .ok t') : t'.ndim = t.ndim := by
  unfold widenT at h
  dsimp only at h
  split at h
  · split at h
    · split at h
      · cases h; simp [padLast, Ten.ndim]
      · cases h
    · cases h; simp [padLast, Ten.ndim]
  · cases h; rfl

theorem applyPaddingT_rank {c : Cfg} {m : Meta} {t : Ten α} {r : Meta × Nat × Ten α} (h : applyPaddingT c m t = .ok r) : r.2.2.ndim = t.ndim := by
  unfold applyPaddingT at h
  split at h
  · dsimp only at h
    split at h
    · cases h; rfl
    · obtain ⟨ml, -, h⟩ := ok_of_bind h
      obtain ⟨t1, h1, h⟩ := ok_of_bind h
      refine Eq.trans ?_ (widenT_rank h1)
      split at h
      · obtain ⟨t2, h2, h⟩ := ok_of_bind h
        cases h
        unfold rollStarting at h2
        split at h2
        · cases h2
        · cases h2; rfl
      · obtain ⟨t2, h2, h⟩ := ok_of_bind h
        cases h
        cases h2; rfl
  · cases h; rfl

theorem maskT_rename (outs : List Int) (t : Ten α) (ns ns' : List (Option String)) :
    maskT outs { t with names := ns } = (maskT outs { t with names := ns' }).map fun u => { u with names := ns } := by
  unfold maskT
  dsimp only
  split
  · split <;> rfl
  · rfl

/-- C170, what the code does: the names of the axes do not matter. Under other (valid) names the same data give the same data, metadata and buffer, or the same exception; the result carries the names of the argument.
Missing: looking the axes up by their names (the property holds for the order batch, channels, length: C171). -/
theorem C170_names_partial (k : Kern α) (c : Cfg) (x : STen α) (hx : x.t.WF) (ns : List (Option String)) (hl : ns.length = x.t.shape.length) (hn : (ns.filterMap id).Nodup) (he : some "" ∉ ns) :
    conv1dT k c ⟨{ x.t with names := ns }, x.md⟩ = (conv1dT k c x).map fun r => (⟨{ r.1.t with names := ns }, r.1.md⟩, r.2) := by
  unfold conv1dT
  show (applyPaddingT c x.md x.t.unnamed >>= _) = _
  cases hA : applyPaddingT c x.md x.t.unnamed with
  | error e => rfl
  | ok r =>
    have hr := applyPaddingT_rank hA
    obtain ⟨m, p, t⟩ := r
    rw [Except.bind_ok', Except.bind_ok']
    dsimp only at hr ⊢
    cases tempBufferT c m t with
    | error e => rfl
    | ok items =>
      rw [Except.bind_ok', Except.bind_ok']
      cases hT : torchConv k c p t with
      | error e => rfl
      | ok y =>
        have hy : y.ndim = x.t.shape.length := (torchConv_rank hT).trans hr
        rw [Except.bind_ok', Except.bind_ok', rename_ok y ns (by rw [hy, hl]) ⟨hn, he⟩, rename_ok y x.t.names (by rw [hy, hx.1]) hx.2, Except.bind_ok', Except.bind_ok',
          maskT_rename _ y ns x.t.names]
        cases maskT (m.lengths.map (outLen c)) { y with names := x.t.names } with
        | error e => rfl
        | ok u => rfl

example : exBFL.t.WF ∧ exBLF.t.names.length = exBFL.t.shape.length ∧ (exBLF.t.names.filterMap id).Nodup ∧ some "" ∉ exBLF.t.names := by decide

/-- C170, rows without batch axis: a StreamTensor with two axes (channels, L), as `unbind` gives, is refused by every layer, although `torch.conv1d` takes tensors without batch axis.
Missing: a result for such rows. -/
theorem C170_row_partial (k : Kern α) (c : Cfg) (x : STen α) (h2 : x.t.shape.length = 2) : ∃ e, conv1dT k c x = .error e := by
  unfold conv1dT
  cases hA : applyPaddingT c x.md x.t.unnamed with
  | error e => exact ⟨e, rfl⟩
  | ok r =>
    have hr := applyPaddingT_rank hA
    obtain ⟨m, p, t⟩ := r
    rw [Except.bind_ok']
    dsimp only at hr ⊢
    cases tempBufferT c m t with
    | error e => exact ⟨e, rfl⟩
    | ok items =>
      rw [Except.bind_ok']
      cases hT : torchConv k c p t with
      | error e => exact ⟨e, rfl⟩
      | ok y =>
        have hy : y.ndim = 2 := (torchConv_rank hT).trans (hr.trans h2)
        rw [Except.bind_ok']
        cases hR : y.rename x.t.names with
        | error e => exact ⟨e, rfl⟩
        | ok z =>
          have hz : z.shape.length = 2 := by
            unfold Ten.rename at hR
            split at hR
            · cases hR; exact hy
            · split at hR
              · cases hR; exact hy
              · cases hR
          rw [Except.bind_ok']
          refine ⟨.runtimeError, ?_⟩
          unfold maskT
          split
          · rename_i heq
            rw [heq] at hz
            simp at hz
          · rfl

example : conv1dT exSwap ⟨1, 1, 1, 0⟩ (⟨{ shape := [2, 3], names := [some "F", LENGTH], val := fun _ => 1 }, ⟨["a"], [true], [true], [3], none⟩⟩ : STen Int) = .error .runtimeError := rfl

end

/-- Two chunks of the stream `a` with two channels: the frames (1, 2), (3, 4), then (5, 6). -/
def exChunks : List (STen Int) :=
  [⟨{ shape := [1, 2, 2], names := [BATCH, some "F", LENGTH], val := fun ix => [1, 2, 3, 4].getD (ix.getD 2 0 * 2 + ix.getD 1 0) 0 }, ⟨["a"], [true], [false], [2], none⟩⟩,
   ⟨{ shape := [1, 2, 1], names := [BATCH, some "F", LENGTH], val := fun ix => [5, 6].getD (ix.getD 1 0) 0 }, ⟨["a"], [false], [true], [1], none⟩⟩]

theorem exChunks_bcl : ∀ x ∈ exChunks, BCL 2 x := by
  intro x hx
  simp only [exChunks, List.mem_cons, List.not_mem_nil, or_false] at hx
  rcases hx with rfl | rfl
  · exact ⟨⟨some "F", rfl, by decide, by decide, by decide⟩, ⟨2, rfl⟩, by decide⟩
  · exact ⟨⟨some "F", rfl, by decide, by decide, by decide⟩, ⟨1, rfl⟩, by decide⟩

theorem exChunks_schedule : Schedule (exChunks.map (asBatch 2)) ∧ Complete (chunksOf "a" ((exChunks.map (asBatch 2)).map unpack)) := by
  have hc : Complete (chunksOf "a" ((exChunks.map (asBatch 2)).map unpack)) := by decide
  refine ⟨⟨fun x hx => ?_, fun i => ?_⟩, hc⟩
  · simp only [exChunks, List.map_cons, List.map_nil, List.mem_cons, List.not_mem_nil, or_false] at hx
    rcases hx with rfl | rfl
    · exact ⟨⟨by decide, rfl, rfl, by decide, rfl⟩, by decide, by decide⟩
    · exact ⟨⟨by decide, rfl, rfl, by decide, rfl⟩, by decide, by decide⟩
  by_cases ha : i = "a"
  · subst ha
    exact ⟨[chunksOf "a" ((exChunks.map (asBatch 2)).map unpack)], [], by simp, by simpa using hc, .inl rfl⟩
  · refine ⟨[], [], ?_⟩
    have : chunksOf i ((exChunks.map (asBatch 2)).map unpack) = [] := by
      unfold chunksOf
      rw [List.filter_eq_nil_iff]
      intro x hx
      have h : ∀ x ∈ ((exChunks.map (asBatch 2)).map unpack).flatten, x.id = "a" := by decide
      simp [h x hx, Ne.symm ha]
    rw [this]
    exact ⟨rfl, by simp, .inl rfl⟩

/-- The entries of frames with two channels. -/
def pairs (l : List (Nat → Int)) : List (Int × Int) := l.map fun v => (v 0, v 1)

/-- A layer with two output channels: the sum of both channels under two taps, and the first channel of the second tap plus 1. -/
def exKern : Kern Int := { outs := 2, ins := 2, groups := 1, weight := fun o c i => if o = 0 then 1 else if c = 0 ∧ i = 1 then 1 else 0, bias := fun o => o }

/-- **C171 is false of the code.** With stride 3 and kernel size 1 the chunks of 2 frames and 1 frame give two outputs; the whole sequence has one. -/
theorem C171_channels_false : Schedule (exChunks.map (asBatch 2)) ∧ exSwap.Fits 2 ∧
    ((runT exSwap ⟨1, 1, 3, 0⟩ (fun _ => none) exChunks).map fun r => pairs (collected "a" (r.1.map (asBatch 2)))) = .ok [(2, 1), (6, 5)] ∧
    pairs (offline ⟨1, 1, 3, 0⟩ (exSwap.frames) (collected "a" (exChunks.map (asBatch 2)))) = [(2, 1)] := by
  exact ⟨exChunks_schedule.1, by unfold Kern.Fits; decide, by decide +kernel, by decide +kernel⟩

section
variable {α : Type} [AddCommMonoid α] [Mul α]

/-- **C171**, refinement: on batches with axes (batch, channels, length), in this order, a sequence of calls of a `Conv1d` raises the same exception as, or gives the same frames, metadata and buffers as, the convolution of frames (Model/Conv) with the weighted sum over the channels
as kernel; the outputs have the names of the inputs. So everything about convolution of frames (C52, C53, C58, C59, C97 and others) holds in every channel. -/
theorem C171_refines (k : Kern α) (c : Cfg) (ch : Nat) (hk : k.Fits ch) (xs : List (STen α)) (hx : ∀ x ∈ xs, BCL ch x) (b : BufT α) (buf : Buf (Nat → α)) (hb : Shows ch b buf) :
    (∀ e, runT k c b xs = .error e ↔ run c k.frames buf (xs.map (asBatch ch)) = .error e) ∧
    ∀ ys b', runT k c b xs = .ok (ys, b') → ∃ buf', run c k.frames buf (xs.map (asBatch ch)) = .ok (ys.map (asBatch k.outs), buf') ∧ Shows ch b' buf' ∧
      List.Forall₂ (fun y x => BCL k.outs y ∧ y.t.names = x.t.names) ys xs := by
  have h := run_agree c hk xs hx hb
  constructor
  · intro e
    cases hr : runT k c b xs with
    | error e' =>
      rw [hr] at h
      cases hq : run c k.frames buf (xs.map (asBatch ch)) with
      | error e'' => rw [hq] at h; cases h; simp
      | ok q => rw [hq] at h; cases h
    | ok r =>
      rw [hr] at h
      cases hq : run c k.frames buf (xs.map (asBatch ch)) with
      | error e'' => rw [hq] at h; cases h
      | ok q => simp
  · intro ys b' hr
    rw [hr] at h
    cases hq : run c k.frames buf (xs.map (asBatch ch)) with
    | error e'' => rw [hq] at h; cases h
    | ok q =>
      rw [hq] at h
      cases h with
      | ok h =>
        obtain ⟨h1, h2, h3⟩ := h
        dsimp only at h1 h2 h3
        exact ⟨q.2, by rw [← h1], h3, h2⟩

example : exKern.Fits 2 ∧ (∀ x ∈ exChunks, BCL 2 x) ∧ Shows 2 (fun _ => none : BufT Int) (fun _ => none) :=
  ⟨by unfold Kern.Fits; decide, exChunks_bcl, by simp, by simp⟩

/-- C171, what holds: over any schedule of batches with axes (batch, channels, length), if no call raises, the outputs of each complete stream put together are, in every output channel, what an ordinary `Conv1d` gives for the whole stream,
if the stride is at most the kernel width or no chunk but the last ends inside a gap.
Missing: sequences with a chunk that ends inside a gap (C52), calls that raise (C58, C59). -/
theorem C171_channels_partial (k : Kern α) (c : Cfg) (hv : c.Valid) (ch : Nat) (hk : k.Fits ch) (xs : List (STen α)) (hx : ∀ x ∈ xs, BCL ch x) (hs : Schedule (xs.map (asBatch ch)))
    (ys : List (STen α)) (b : BufT α) (hrun : runT k c (fun _ => none) xs = .ok (ys, b)) (i : String) (hc : Complete (chunksOf i ((xs.map (asBatch ch)).map unpack)))
    (hg : c.stride ≤ span c ∨ Clear c (chunksOf i ((xs.map (asBatch ch)).map unpack))) :
    collected i (ys.map (asBatch k.outs)) = offline c k.frames (collected i (xs.map (asBatch ch))) := by
  obtain ⟨buf, h1, -, -⟩ := (C171_refines k c ch hk xs hx (fun _ => none) (fun _ => none) ⟨by simp, by simp⟩).2 ys b hrun
  refine C52_clear_partial c hv _ _ hs _ buf h1 i hc ?_
  rcases hg with h | h
  · intro p q _ _ _ ⟨j, h3, h4⟩
    have : (j + 1) * c.stride = j * c.stride + c.stride := Nat.succ_mul _ _
    omega
  · exact h

example : Schedule (exChunks.map (asBatch 2)) ∧ Complete (chunksOf "a" ((exChunks.map (asBatch 2)).map unpack)) ∧ (1 ≤ span ⟨2, 1, 1, 1⟩) ∧
    ((runT exKern ⟨2, 1, 1, 1⟩ (fun _ => none) exChunks).map fun r => (r.1.map fun y => entries3 y.t, pairs (collected "a" (r.1.map (asBatch 2))))) =
      .ok ([([1, 2, 2], [BATCH, some "F", LENGTH], [3, 10, 2, 4]), ([1, 2, 2], [BATCH, some "F", LENGTH], [18, 11, 6, 1])], [(3, 2), (10, 4), (18, 6), (11, 1)]) :=
  ⟨exChunks_schedule.1, exChunks_schedule.2, by decide, rfl⟩

/-- **C171**, the ordinary `Conv1d`: `torch.conv1d` with padding on a tensor with axes (batch, channels, length) gives in each row and each output channel the convolution of the frames of that row, and refuses a tensor that is shorter than the
kernel, for which the convolution is empty. -/
theorem C171_torch (k : Kern α) (c : Cfg) (hv : c.Valid) (ch : Nat) (hk : k.Fits ch) (t : Ten α) (n w : Nat) (ht : t.shape = [n, ch, w]) :
    (w + 2 * c.padding < span c ∧ torchConv k c c.padding t = .error .runtimeError ∧ ∀ r < n, offline c k.frames (rowOf ch w t r) = []) ∨
    ∃ y v, torchConv k c c.padding t = .ok y ∧ y.shape = [n, k.outs, v] ∧ ∀ r < n, rowOf k.outs v y r = offline c k.frames (rowOf ch w t r) := by
  have hkw : c.kw = span c := (span_eq c hv).symm
  have h := torchConv_agree (p := c.padding) c hk (t := t.unnamed) (n := n) (w := w) ⟨ht, by simp [Ten.unnamed, ht], rfl⟩
  have hun : torchConv k c c.padding t.unnamed = torchConv k c c.padding t := by
    unfold torchConv
    rfl
  rw [hun] at h
  unfold torchConv1d at h
  have hoff : ∀ r, (zeros c.padding ++ rowOf ch w t r ++ zeros c.padding).length = w + 2 * c.padding := by
    intro r
    simp [zeros, rowOf]
    omega
  by_cases hw : w + 2 * c.padding < c.kw
  · left
    rw [if_pos hw] at h
    refine ⟨by omega, ?_, ?_⟩
    · cases hT : torchConv k c c.padding t with
      | error e => rw [hT] at h; cases h; rfl
      | ok y => rw [hT] at h; cases h
    · intro r _
      unfold offline
      rw [conv_eq c hv, hoff, nOut, if_pos hw]
      rfl
  · right
    rw [if_neg hw] at h
    cases hT : torchConv k c c.padding t with
    | error e => rw [hT] at h; cases h
    | ok y =>
      rw [hT] at h
      cases h with
      | ok h =>
        refine ⟨y, _, rfl, h.1, fun r hr => ?_⟩
        have h2 := h.2.2
        have h3 := congrArg (fun l => l[r]?) h2
        simp only [rowsOf, List.getElem?_map, List.getElem?_range hr, Option.map_some, Option.some.injEq] at h3
        rw [← h3]
        unfold offline
        rw [conv_eq c hv, hoff, nOut, if_neg hw]
        rfl

end

example : exKern.Fits 2 ∧ exBFL.t.shape = [1, 2, 2] ∧ ((torchConv exKern ⟨2, 1, 1, 1⟩ 1 exBFL.t).map entries3) = .ok ([1, 2, 3], [none, none, none], [3, 10, 7, 2, 4, 1]) := 
  ⟨by unfold Kern.Fits; decide, rfl, by decide +kernel⟩

end DS.ConvT
