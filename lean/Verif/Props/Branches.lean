import Verif.Model.Branches
import Verif.Spec.Branches
import Verif.Lemmas.ConvMap
import Verif.Props.ConvTen
import Verif.Props.CatOps
import Verif.Props.ConvMore
/-! # C199: convolutions on parts of the channels -/

namespace DS.ConvT
open DS.Tn DS.Conv

section
variable {α : Type} [AddCommMonoid α] [Mul α]

/-- The part of a tensor with axes batch, channels, time. -/
def part (s n : Nat) (x : STen α) : STen α := ⟨{ x.t with shape := x.t.shape.set 1 n, val := fun ix => x.t.val (ix.modify 1 (· + s)) }, x.md⟩

theorem narrow_part {ch : Nat} {x : STen α} (hx : BCL ch x) (s n : Nat) (h : s + n ≤ ch) : narrow 0 x 1 s n = .ok (part s n x) := by
  obtain ⟨⟨f, hf, h1, h2, h3⟩, ⟨w, hw⟩, -⟩ := hx
  have hd : x.t.ndim = 3 := by simp [Ten.ndim, hw]
  have hn : normDim x.t.ndim 1 = .ok 1 := by rw [hd]; rfl
  unfold narrow Ten.narrow
  rw [hn, ok_bind']
  have e1 : ((x.t.shape.getD 1 0 : Nat) : Int) = ch := by rw [hw]; rfl
  simp only [e1]
  rw [if_neg (by omega), if_neg (by omega), if_neg (by omega), if_neg (by omega), ok_bind']
  have e2 : pyGet x.t.names 1 = .ok f := by rw [hf]; rfl
  rw [e2, ok_bind', if_neg h1, if_neg h2]
  rfl

theorem split_part {ch : Nat} {x : STen α} (hx : BCL ch x) (n m : Nat) (h : n + m = ch) : split x (.sections [(n : Int), (m : Int)]) 1 = .ok [part 0 n x, part n m x] := by
  obtain ⟨⟨f, hf, h1, h2, h3⟩, ⟨w, hw⟩, -⟩ := hx
  have hd : x.t.ndim = 3 := by simp [Ten.ndim, hw]
  have hn : normDim x.t.ndim 1 = .ok 1 := by rw [hd]; rfl
  unfold split Ten.split
  have e2 : pyGet x.t.names 1 = .ok f := by rw [hf]; rfl
  rw [e2, ok_bind', hn, ok_bind']
  have e1 : ((x.t.shape.getD 1 0 : Nat) : Int) = ch := by rw [hw]; rfl
  simp only [e1]
  rw [if_neg, ok_bind', if_neg h2, if_neg h1]
  · simp only [Meta.sectionBounds, List.map_cons, List.map_nil, Ten.piece, part]
    congr 3
    · congr 2 <;> simp
    · congr 2
      congr 2
      · congr 2 <;> simp
      · simp
  · simp [isum]
    omega

theorem part_bcl {ch : Nat} {x : STen α} (hx : BCL ch x) (s n : Nat) : BCL n (part s n x) := by
  obtain ⟨h1, ⟨w, hw⟩, h3⟩ := hx
  exact ⟨h1, ⟨w, by simp [part, hw]⟩, h3⟩

theorem part_batch {ch : Nat} {x : STen α} (hx : BCL ch x) (s n : Nat) (h : s + n ≤ ch) : asBatch n (part s n x) = (asBatch ch x).map (chans s n) := by
  obtain ⟨h1, ⟨w, hw⟩, h3⟩ := hx
  unfold asBatch ST.map
  have e1 : (part s n x).t.shape.getD 2 0 = x.t.shape.getD 2 0 := by simp [part, hw]
  rw [e1]
  congr 1
  unfold rowsOf
  rw [List.map_map]
  apply List.map_congr_left
  intro b _
  simp only [Function.comp_apply, rowOf, List.map_map]
  apply List.map_congr_left
  intro j _
  funext c
  simp only [Function.comp_apply, chans]
  split
  · rw [if_pos (by omega)]
    show x.t.val ([b, c, j].modify 1 (· + s)) = _
    rw [Nat.add_comm s c]
    rfl
  · rfl

/-- The kernels of both parts at the same position, their outputs one after the other. -/
def Pair.both (P : Pair α) (ws : List (Nat → α)) : Nat → α := fun o =>
  if o < P.k₁.outs then P.k₁.frames (ws.map (chans 0 P.n)) o else P.k₂.frames (ws.map (chans P.n P.m)) (o - P.k₁.outs)

theorem frames_out (k : Kern α) (ws : List (Nat → α)) (o : Nat) (h : k.outs ≤ o) : k.frames ws o = 0 := by
  unfold Kern.frames
  rw [if_neg (by omega)]

theorem both_first (P : Pair α) (ws : List (Nat → α)) : P.k₁.frames (ws.map (chans 0 P.n)) = chans 0 P.k₁.outs (P.both ws) := by
  funext o
  unfold chans Pair.both
  by_cases h : o < P.k₁.outs
  · rw [if_pos h, if_pos (by omega), Nat.zero_add]
    rfl
  · rw [if_neg h, frames_out _ _ _ (by omega)]

theorem both_second (P : Pair α) (ws : List (Nat → α)) : P.k₂.frames (ws.map (chans P.n P.m)) = chans P.k₁.outs P.k₂.outs (P.both ws) := by
  funext o
  by_cases h : o < P.k₂.outs
  · unfold chans Pair.both
    rw [if_pos h, if_neg (by omega), Nat.add_sub_cancel_left]
    rfl
  · rw [frames_out _ _ _ (by omega)]
    unfold chans
    rw [if_neg h]

theorem chans_zero (s n : Nat) : chans s n (0 : Nat → α) = 0 := by
  funext c
  simp [chans]

theorem both_all (P : Pair α) (ws : List (Nat → α)) : P.both (ws.map id) = chans 0 (P.k₁.outs + P.k₂.outs) (P.both ws) := by
  rw [List.map_id]
  funext o
  unfold chans
  split
  · rw [Nat.zero_add]
  · unfold Pair.both
    rw [if_neg (by omega), frames_out _ _ _ (by omega)]

theorem glue_ok {o₁ o₂ : Nat} {y z : STen α} (hy : BCL o₁ y) (hz : BCL o₂ z) (hn : y.t.names = z.t.names) (hm : z.md = y.md) (hw : z.t.shape.getD 2 0 = y.t.shape.getD 2 0) (hc : y.md.chunk = none) :
    ∃ w, glue y z = .ok w ∧ BCL (o₁ + o₂) w ∧ w.t.names = y.t.names ∧ w.md = y.md ∧ w.t.shape.getD 2 0 = y.t.shape.getD 2 0 ∧
      ∀ b c j, w.t.val [b, c, j] = if c < o₁ then y.t.val [b, c, j] else z.t.val [b, c - o₁, j] := by
  obtain ⟨⟨f, hf, f1, f2, f3⟩, ⟨wy, hwy⟩, hmy⟩ := hy
  obtain ⟨-, ⟨wz, hwz⟩, -⟩ := hz
  rw [hwy, hwz] at hw
  have hww : wz = wy := hw
  subst hww
  have hnm : namesOK [BATCH, f, LENGTH] = true := by
    unfold namesOK
    cases f with
    | none => decide
    | some g =>
      have g1 : g ≠ "B" := fun h => f1 (by rw [h]; rfl)
      have g2 : g ≠ "L" := fun h => f2 (by rw [h]; rfl)
      have g3 : g ≠ "" := fun h => f3 (by rw [h])
      simp [BATCH, LENGTH, g1, g2, g3, Ne.symm g1, Ne.symm g2, Ne.symm g3]
  have hnm' : ([BATCH, f, LENGTH].filterMap id).Nodup ∧ some "" ∉ [BATCH, f, LENGTH] := by
    unfold namesOK at hnm
    simpa only [Bool.and_eq_true, decide_eq_true_eq, Bool.not_eq_true', List.contains_eq_mem, decide_eq_false_iff_not] using hnm
  have hun : unifyNames [BATCH, f, LENGTH] [BATCH, f, LENGTH] = .ok [BATCH, f, LENGTH] := by
    cases f with
    | none => rfl
    | some g => simp [unifyNames, unifyName, BATCH, LENGTH, ok_bind']
  have hcat : catTen y.t [z.t] 1 = .ok { shape := y.t.shape.set 1 (o₁ + o₂), names := [BATCH, f, LENGTH], val := catVal 1 y.t [z.t] } := by
    unfold catTen
    have hd : y.t.ndim = 3 := by simp [Ten.ndim, hwy]
    have e : normDim y.t.ndim 1 = .ok 1 := by rw [hd]; rfl
    rw [e, ok_bind', if_pos (by simp [hwy, hwz, hm]), unifyAll, ← hn, hf, hun, ok_bind', unifyAll, ok_bind', if_pos hnm]
    simp [hwy, hwz]
  have hwf : ∀ u ∈ [y, z], u.t.WF ∧ posOf u.t.ndim 1 = some 1 ∧ u.t.names[1]? ≠ some BATCH ∧ u.t.names[1]? ≠ some LENGTH := by
    intro u hu
    have hu : u = y ∨ u = z := by simpa using hu
    rcases hu with rfl | rfl
    · refine ⟨?_, by simp [Ten.ndim, hwy, posOf], by simp [hf, f1], by simp [hf, f2]⟩
      exact ⟨by simp [hwy, hf], by rw [hf]; exact hnm'⟩
    · refine ⟨?_, by simp [Ten.ndim, hwz, posOf], by simp [← hn, hf, f1], by simp [← hn, hf, f2]⟩
      exact ⟨by simp [hwz, ← hn, hf], by rw [← hn, hf]; exact hnm'⟩
  have h := (C32_cat_feature_partial y [z] (by simp) 1 1 hwf (by simp [hc, hm])).2 (by simp)
  simp only [List.map_cons, List.map_nil, hcat, Except.map] at h
  refine ⟨⟨{ shape := y.t.shape.set 1 (o₁ + o₂), names := [BATCH, f, LENGTH], val := catVal 1 y.t [z.t] }, y.md⟩, by unfold glue; rw [h, ok_bind'], ⟨⟨f, rfl, f1, f2, f3⟩, ⟨wz, by simp [hwy]⟩, hmy⟩, hf.symm, rfl, by simp [hwy], ?_⟩
  intro b c j
  simp only [catVal, hwy]
  rfl

theorem chunk_none {β γ : Type} [Zero β] [Zero γ] {c : Cfg} {g : List β → γ} {buf : Buf β} {x : ST β} {o : Out β γ} (h : forward c g buf x = .ok o) (hx : x.md.chunk = none) : o.y.md.chunk = none := by
  have h' := C90_chunk_indices_partial c g buf x o h
  by_cases h1 : c.kw ≤ 1 ∨ (∀ s ∈ x.md.sos, s = true) ∨ (∀ i ∈ x.md.ids, ∀ j ∈ x.md.ids, ((buf i).getD []).length = ((buf j).getD []).length)
  · rw [h'.1 h1, hx]
  · simp only [not_or, not_forall] at h1
    obtain ⟨a1, ⟨s, a2, a3⟩, i, a4, j, a5, a6⟩ := h1
    exact h'.2 (by omega) ⟨s, a2, by simpa using a3⟩ ⟨i, a4, j, a5, a6⟩

/-- What one call does: as a convolution of frames with both kernels. -/
theorem callNarrow_agree (P : Pair α) (hk₁ : P.k₁.Fits P.n) (hk₂ : P.k₂.Fits P.m) (c : Cfg) (h1 : P.c₁ = c) (h2 : P.c₂ = c) {x : STen α} (hx : BCL (P.n + P.m) x) (hc : x.md.chunk = none)
    {b : BufT α × BufT α} {buf : Buf (Nat → α)} (hb₁ : Shows P.n b.1 (buf.map (chans 0 P.n))) (hb₂ : Shows P.m b.2 (buf.map (chans P.n P.m))) :
    Agree (fun (y : STen α × BufT α × BufT α) (o : Out (Nat → α) (Nat → α)) => o.y = asBatch (P.k₁.outs + P.k₂.outs) y.1 ∧ BCL (P.k₁.outs + P.k₂.outs) y.1 ∧ y.1.t.names = x.t.names ∧
        Shows P.n y.2.1 (o.buf.map (chans 0 P.n)) ∧ Shows P.m y.2.2 (o.buf.map (chans P.n P.m)))
      (callNarrow P b x) (forward c P.both buf (asBatch (P.n + P.m) x)) := by
  unfold callNarrow
  have e0 : narrow 0 x 1 0 P.n = .ok (part 0 P.n x) := narrow_part hx 0 P.n (by omega)
  rw [e0, ok_bind', narrow_part hx P.n P.m (by omega), ok_bind', h1, h2]
  have a1 := forward_agree c hk₁ (part_bcl hx 0 P.n) hb₁
  have a2 := forward_agree c hk₂ (part_bcl hx P.n P.m) hb₂
  rw [part_batch hx 0 P.n (by omega), forward_map (chans_zero 0 P.n) (chans_zero 0 P.k₁.outs) (g := P.both) (both_first P)] at a1
  rw [part_batch hx P.n P.m (by omega), forward_map (chans_zero P.n P.m) (chans_zero P.k₁.outs P.k₂.outs) (g := P.both) (both_second P)] at a2
  have a3 := forward_map (f := id) (h := chans 0 (P.k₁.outs + P.k₂.outs)) rfl (chans_zero _ _) (both_all P) c buf (asBatch (P.n + P.m) x)
  have ei : (asBatch (P.n + P.m) x).map id = asBatch (P.n + P.m) x := by simp [ST.map]
  have eb : buf.map id = buf := by funext i; simp [Buf.map]
  rw [ei, eb] at a3
  cases hr : forward c P.both buf (asBatch (P.n + P.m) x) with
  | error e =>
    rw [hr] at a1
    generalize forwardT P.k₁ c b.1 (part 0 P.n x) = q at a1
    cases a1
    exact .error e
  | ok o =>
    rw [hr] at a1 a2 a3
    have ho := chunk_none hr hc
    generalize forwardT P.k₁ c b.1 (part 0 P.n x) = q₁ at a1
    generalize forwardT P.k₂ c b.2 (part P.n P.m x) = q₂ at a2
    cases a1 with
    | @ok y₁ _ r₁ =>
      cases a2 with
      | @ok z₁ _ r₂ =>
        obtain ⟨y, b₁⟩ := y₁
        obtain ⟨z, b₂⟩ := z₁
        obtain ⟨r1, r2, r3, r4⟩ := r₁
        obtain ⟨s1, s2, s3, s4⟩ := r₂
        dsimp only at r1 r2 r3 r4 s1 s2 s3 s4
        have my : y.md = o.y.md := (congrArg ST.md r1).symm
        have mz : z.md = o.y.md := (congrArg ST.md s1).symm
        have wy : y.t.shape.getD 2 0 = o.y.width := (congrArg ST.width r1).symm
        have wz : z.t.shape.getD 2 0 = o.y.width := (congrArg ST.width s1).symm
        obtain ⟨w, g1, g2, g3, g4, g5, g6⟩ := glue_ok r2 s2 (r3.trans s3.symm) (mz.trans my.symm) (wz.trans wy.symm) (by rw [my]; exact ho)
        simp only [ok_bind', g1]
        refine .ok ⟨?_, g2, g3.trans r3, r4, s4⟩
        simp only [Except.map, Except.ok.injEq] at a3
        have hall : o.y = o.y.map (chans 0 (P.k₁.outs + P.k₂.outs)) := congrArg Out.y a3
        have hy : o.y.rows.map (List.map (chans 0 P.k₁.outs)) = rowsOf y.md.ids.length P.k₁.outs (y.t.shape.getD 2 0) y.t := congrArg ST.rows r1
        have hz : o.y.rows.map (List.map (chans P.k₁.outs P.k₂.outs)) = rowsOf z.md.ids.length P.k₂.outs (z.t.shape.getD 2 0) z.t := congrArg ST.rows s1
        have hrows : o.y.rows = rowsOf w.md.ids.length (P.k₁.outs + P.k₂.outs) (w.t.shape.getD 2 0) w.t := by
          rw [g4, g5]
          rw [mz, wz] at hz
          rw [my, wy] at hy
          rw [my, wy]
          have hh : o.y.rows = o.y.rows.map (List.map (chans 0 (P.k₁.outs + P.k₂.outs))) := congrArg ST.rows hall
          apply List.ext_getElem?
          intro r
          have y1 := congrArg (fun l => l[r]?) hy
          have z1 := congrArg (fun l => l[r]?) hz
          have h1 := congrArg (fun l => l[r]?) hh
          simp only [rowsOf, List.getElem?_map] at y1 z1 h1 ⊢
          by_cases hb : r < o.y.md.ids.length
          · rw [List.getElem?_range hb] at y1 z1 ⊢
            cases hq : o.y.rows[r]? with
            | none => rw [hq] at y1; cases y1
            | some l =>
              rw [hq] at y1 z1 h1
              simp only [Option.map_some, Option.some.injEq] at y1 z1 h1 ⊢
              apply List.ext_getElem?
              intro j
              have y2 := congrArg (fun l => l[j]?) y1
              have z2 := congrArg (fun l => l[j]?) z1
              have h2 := congrArg (fun l => l[j]?) h1
              simp only [rowOf, List.getElem?_map] at y2 z2 h2 ⊢
              by_cases hj : j < o.y.width
              · rw [List.getElem?_range hj] at y2 z2 ⊢
                cases hv : l[j]? with
                | none => rw [hv] at y2; cases y2
                | some v =>
                  rw [hv] at y2 z2 h2
                  simp only [Option.map_some, Option.some.injEq] at y2 z2 h2 ⊢
                  funext ch
                  rw [h2]
                  unfold chans
                  by_cases hch : ch < P.k₁.outs + P.k₂.outs
                  · rw [if_pos hch, if_pos hch, Nat.zero_add, g6]
                    by_cases hc1 : ch < P.k₁.outs
                    · have := congrFun y2 ch
                      unfold chans at this
                      rw [if_pos hc1, if_pos hc1, Nat.zero_add] at this
                      rw [if_pos hc1, this]
                    · have := congrFun z2 (ch - P.k₁.outs)
                      unfold chans at this
                      rw [if_pos (by omega), if_pos (by omega), Nat.add_sub_cancel' (by omega)] at this
                      rw [if_neg hc1, this]
                  · rw [if_neg hch, if_neg hch]
              · have er : (List.range o.y.width)[j]? = none := List.getElem?_eq_none (by simp; omega)
                rw [er] at y2 ⊢
                cases hv : l[j]? with
                | none => rfl
                | some v => rw [hv] at y2; cases y2
          · have er : (List.range o.y.md.ids.length)[r]? = none := List.getElem?_eq_none (by simp; omega)
            rw [er] at y1 ⊢
            cases hq : o.y.rows[r]? with
            | none => rfl
            | some l => rw [hq] at y1; cases y1
        obtain ⟨oy, ob, oc⟩ := o
        obtain ⟨md, wd, rows⟩ := oy
        dsimp only at hrows my wy
        unfold asBatch
        rw [hrows, g4, my, g5, wy]

theorem calls_agree (P : Pair α) (hk₁ : P.k₁.Fits P.n) (hk₂ : P.k₂.Fits P.m) (c : Cfg) (h1 : P.c₁ = c) (h2 : P.c₂ = c) (xs : List (STen α)) (hx : ∀ x ∈ xs, BCL (P.n + P.m) x) (hc : ∀ x ∈ xs, x.md.chunk = none)
    {b : BufT α × BufT α} {buf : Buf (Nat → α)} (hb₁ : Shows P.n b.1 (buf.map (chans 0 P.n))) (hb₂ : Shows P.m b.2 (buf.map (chans P.n P.m))) :
    Agree (fun (y : List (STen α) × BufT α × BufT α) (o : List (ST (Nat → α)) × Buf (Nat → α)) => o.1 = y.1.map (asBatch (P.k₁.outs + P.k₂.outs)) ∧
        List.Forall₂ (fun u x => BCL (P.k₁.outs + P.k₂.outs) u ∧ u.t.names = x.t.names) y.1 xs)
      (calls (callNarrow P) b xs) (run c P.both buf (xs.map (asBatch (P.n + P.m)))) := by
  induction xs generalizing b buf with
  | nil => exact .ok ⟨rfl, .nil⟩
  | cons x xs ih =>
    simp only [calls, List.map_cons, run]
    refine (callNarrow_agree P hk₁ hk₂ c h1 h2 (hx x (by simp)) (hc x (by simp)) hb₁ hb₂).bind ?_
    rintro ⟨y, b'⟩ o ⟨r1, r2, r3, r4, r5⟩
    dsimp only at r1 r2 r3 r4 r5 ⊢
    refine (ih (fun x hx' => hx x (by simp [hx'])) (fun x hx' => hc x (by simp [hx'])) r4 r5).bind ?_
    rintro ⟨ys, b''⟩ os ⟨q1, q2⟩
    dsimp only at q1 q2 ⊢
    exact .ok ⟨by rw [List.map_cons, r1, q1], .cons ⟨r2, r3⟩ q2⟩

theorem offline_map {β γ δ ε : Type} [Zero β] [Zero γ] [Zero δ] [Zero ε] {f : β → γ} (hf : f 0 = 0) {h : δ → ε} {g : List β → δ} {g' : List γ → ε} (hg : ∀ ws, g' (ws.map f) = h (g ws)) (c : Cfg) (x : List β) :
    offline c g' (x.map f) = (offline c g x).map h := by
  unfold offline
  have e : zeros c.padding ++ x.map f ++ zeros c.padding = (zeros c.padding ++ x ++ zeros c.padding).map f := by simp [zeros, hf]
  rw [e]
  generalize zeros c.padding ++ x ++ zeros c.padding = l
  unfold conv
  rw [List.length_map, List.map_map]
  apply List.map_congr_left
  intro k _
  simp only [Function.comp_apply, at']
  rw [← hg, List.map_map]
  congr 1
  apply List.map_congr_left
  intro i _
  simp only [Function.comp_apply]
  exact getD_map0 hf l _

end

/-- Two convolutions that add the two frames under their kernel, one for each of two channels. -/
def exPair : Pair Int :=
  { k₁ := { outs := 1, ins := 1, groups := 1, weight := fun _ _ _ => 1, bias := fun _ => 0 }, c₁ := ⟨2, 1, 1, 0⟩, n := 1
    k₂ := { outs := 1, ins := 1, groups := 1, weight := fun _ _ _ => 1, bias := fun _ => 0 }, c₂ := ⟨2, 1, 1, 0⟩, m := 1 }

/-- **C199 is false of the code.** With `p, q = x.split([1, 1], 1)` both parts have one metadata object. On the first chunk (1, 2), (3, 4) the first convolution leaves length 1 in it, so the second one takes the second frame for padding: of the outputs (4, 6), (8, 10) of the ordinary
model only (8, 8) is left, whose second number is the sum of frames that are not neighbours. Nothing is raised. -/
theorem C199_split_false : Schedule (exChunks.map (asBatch 2)) ∧ Complete (chunksOf "a" ((exChunks.map (asBatch 2)).map unpack)) ∧ exPair.k₁.Fits 1 ∧ exPair.k₂.Fits 1 ∧
    ((calls (callSplit exPair) (fun _ => none, fun _ => none) exChunks).map fun r => pairs (collected "a" (r.1.map (asBatch 2)))) = .ok [(8, 8)] ∧
    (offline ⟨2, 1, 1, 0⟩ exPair.k₁.frames ((collected "a" (exChunks.map (asBatch 2))).map (chans 0 1))).map (· 0) = [4, 8] ∧
    (offline ⟨2, 1, 1, 0⟩ exPair.k₂.frames ((collected "a" (exChunks.map (asBatch 2))).map (chans 1 1))).map (· 0) = [6, 10] :=
  ⟨exChunks_schedule.1, exChunks_schedule.2, by unfold Kern.Fits; decide, by unfold Kern.Fits; decide, by decide +kernel, by decide +kernel, by decide +kernel⟩

section
variable {α : Type} [AddCommMonoid α] [Mul α]

/-- C199, what holds: with parts that have metadata of their own (`narrow`), two convolutions of the same configuration, and over any schedule of batches with axes (batch, channels, length) without chunk indices: if no call raises, the outputs of each complete stream put together are, in
the channels of the first convolution, what an ordinary `Conv1d` gives for the first channels of the whole stream, and in the other channels what it gives for the other channels, if the stride is at most the kernel width or no chunk but the last ends inside a gap.
Missing: parts obtained by `split` (`C199_split_false`; see `C199_shared_partial`), chunk indices (`cat` refuses them, C32), different configurations (C200). -/
theorem C199_narrow_partial (P : Pair α) (c : Cfg) (h1 : P.c₁ = c) (h2 : P.c₂ = c) (hv : c.Valid) (hk₁ : P.k₁.Fits P.n) (hk₂ : P.k₂.Fits P.m) (xs : List (STen α)) (hx : ∀ x ∈ xs, BCL (P.n + P.m) x)
    (hcn : ∀ x ∈ xs, x.md.chunk = none) (hs : Schedule (xs.map (asBatch (P.n + P.m)))) (ys : List (STen α)) (b : BufT α × BufT α)
    (hrun : calls (callNarrow P) (fun _ => none, fun _ => none) xs = .ok (ys, b)) (i : String) (hc : Complete (chunksOf i ((xs.map (asBatch (P.n + P.m))).map unpack)))
    (hg : c.stride ≤ span c ∨ Clear c (chunksOf i ((xs.map (asBatch (P.n + P.m))).map unpack))) :
    List.Forall₂ (fun y x => BCL (P.k₁.outs + P.k₂.outs) y ∧ y.t.names = x.t.names) ys xs ∧
    (collected i (ys.map (asBatch (P.k₁.outs + P.k₂.outs)))).map (chans 0 P.k₁.outs) = offline c P.k₁.frames ((collected i (xs.map (asBatch (P.n + P.m)))).map (chans 0 P.n)) ∧
    (collected i (ys.map (asBatch (P.k₁.outs + P.k₂.outs)))).map (chans P.k₁.outs P.k₂.outs) = offline c P.k₂.frames ((collected i (xs.map (asBatch (P.n + P.m)))).map (chans P.n P.m)) := by
  have h := calls_agree P hk₁ hk₂ c h1 h2 xs hx hcn (b := (fun _ => none, fun _ => none)) (buf := fun _ => none) ⟨by simp, by simp [Buf.map]⟩ ⟨by simp, by simp [Buf.map]⟩
  rw [hrun] at h
  cases hq : run c P.both (fun _ => none) (xs.map (asBatch (P.n + P.m))) with
  | error e => rw [hq] at h; cases h
  | ok q =>
    rw [hq] at h
    cases h with
    | ok h =>
      obtain ⟨q1, q2⟩ := h
      dsimp only at q1 q2
      have hcol : collected i (ys.map (asBatch (P.k₁.outs + P.k₂.outs))) = offline c P.both (collected i (xs.map (asBatch (P.n + P.m)))) := by
        rw [← q1]
        refine C52_clear_partial c hv P.both _ hs q.1 q.2 hq i hc ?_
        rcases hg with h | h
        · intro p q _ _ _ ⟨j, h3, h4⟩
          have : (j + 1) * c.stride = j * c.stride + c.stride := Nat.succ_mul _ _
          omega
        · exact h
      rw [hcol]
      exact ⟨q2, (offline_map (chans_zero _ _) (both_first P) c _).symm, (offline_map (chans_zero _ _) (both_second P) c _).symm⟩

example : Schedule (exChunks.map (asBatch (1 + 1))) ∧ (∀ x ∈ exChunks, BCL 2 x) ∧ (∀ x ∈ exChunks, x.md.chunk = none) ∧
    ((calls (callNarrow exPair) (fun _ => none, fun _ => none) exChunks).map fun r => pairs (collected "a" (r.1.map (asBatch 2)))) = .ok [(4, 6), (8, 10)] :=
  ⟨exChunks_schedule.1, exChunks_bcl, by decide, by decide +kernel⟩

/-- Without padding, with a stride of 1 and a kernel that sees one frame. -/
theorem pointwise_md {k : Kern α} {c : Cfg} (hk : c.kw = 1) (hs : c.stride = 1) (hp : c.padding = 0) {b : BufT α} {x : STen α} (hl : ∀ l ∈ x.md.lengths, 0 ≤ l) {y : STen α} {b' : BufT α}
    (h : forwardT k c b x = .ok (y, b')) : y.md = x.md := by
  unfold forwardT preHookT at h
  rw [if_neg (by omega), ok_bind'] at h
  obtain ⟨⟨y', items⟩, h1, h2⟩ := ok_of_bind h
  simp only [Except.ok.injEq, Prod.mk.injEq] at h2
  obtain ⟨rfl, -⟩ := h2
  unfold conv1dT applyPaddingT at h1
  rw [if_neg (by omega), ok_bind'] at h1
  obtain ⟨bf, h3, h1⟩ := ok_of_bind h1
  obtain ⟨t1, h4, h1⟩ := ok_of_bind h1
  obtain ⟨t2, h5, h1⟩ := ok_of_bind h1
  obtain ⟨t3, h6, h1⟩ := ok_of_bind h1
  simp only [Except.ok.injEq, Prod.mk.injEq] at h1
  obtain ⟨rfl, -⟩ := h1
  show ({ x.md with lengths := x.md.lengths.map (outLen c) } : Meta) = x.md
  have : x.md.lengths.map (outLen c) = x.md.lengths := by
    conv_rhs => rw [← List.map_id x.md.lengths]
    apply List.map_congr_left
    intro l hl'
    have := hl l hl'
    simp only [outLen, hk, hs, id]
    omega
  rw [this]

/-- C199, histories: a history of calls may be cut anywhere; the second part begins with the buffers the first part has left. Missing: see `C199_narrow_partial`. -/
theorem C199_resume_partial (call : BufT α × BufT α → STen α → Py (STen α × BufT α × BufT α)) (b : BufT α × BufT α) (xs xs' : List (STen α)) :
    calls call b (xs ++ xs') = (calls call b xs).bind fun r => (calls call r.2 xs').map fun q => (r.1 ++ q.1, q.2) := by
  induction xs generalizing b with
  | nil =>
    show calls call b xs' = (calls call b xs').map fun q => q
    cases calls call b xs' <;> rfl
  | cons x xs ih =>
    simp only [List.cons_append, calls]
    cases call b x with
    | error e => rfl
    | ok o =>
      obtain ⟨y, b'⟩ := o
      simp only [ok_bind', ih]
      cases calls call b' xs with
      | error e => rfl
      | ok r =>
        obtain ⟨ys, b''⟩ := r
        simp only [ok_bind', Except.bind]
        cases calls call b'' xs' <;> rfl

/-- C199, parts that share their metadata: `split` does what `narrow` does, whatever the buffers, on every batch in which some row does not start if the first kernel is wider than one frame, and on every batch if both convolutions are pointwise.
Missing: first chunks of streams with kernels wider than one frame (`C199_split_false`). -/
theorem C199_shared_partial (P : Pair α) (b : BufT α × BufT α) (x : STen α) (hx : BCL (P.n + P.m) x) (hl : ∀ l ∈ x.md.lengths, 0 ≤ l)
    (h : P.c₁.kw > 1 ∧ (∃ s ∈ x.md.sos, s = false) ∨
      (P.c₁.kw = 1 ∧ P.c₁.stride = 1 ∧ P.c₁.padding = 0) ∧ P.c₂.kw = 1 ∧ P.c₂.stride = 1 ∧ P.c₂.padding = 0) :
    callSplit P b x = callNarrow P b x := by
  unfold callSplit callNarrow
  have e0 : narrow 0 x 1 0 P.n = .ok (part 0 P.n x) := narrow_part hx 0 P.n (by omega)
  rw [e0, ok_bind', narrow_part hx P.n P.m (by omega), ok_bind', split_part hx P.n P.m rfl, ok_bind']
  dsimp only
  cases hr : forwardT P.k₁ P.c₁ b.1 (part 0 P.n x) with
  | error e => rfl
  | ok r =>
    obtain ⟨y, b₁⟩ := r
    simp only [ok_bind']
    rcases h with ⟨h1, s, h2, h3⟩ | ⟨⟨h1, h2, h3⟩, h4, h5, h6⟩
    · have ha : x.md.allStarting = false := by
        unfold Meta.allStarting
        rw [List.all_eq_false]
        exact ⟨s, h2, by simp [h3]⟩
      have : decide (P.c₁.kw > 1 ∧ x.md.allStarting = false) = true := by simp [h1, ha]
      simp only [this, if_true, Bool.true_or]
    · have hm : y.md = x.md := pointwise_md (x := part 0 P.n x) h1 h2 h3 hl hr
      have e1 : decide (P.c₁.kw > 1 ∧ x.md.allStarting = false) = false := by simp [h1]
      have e2 : ∀ m : Meta, decide (P.c₂.kw > 1 ∧ m.allStarting = false) = false := by simp [h4]
      have e3 : (⟨(part P.n P.m x).t, y.md⟩ : STen α) = part P.n P.m x := by rw [hm]; rfl
      simp only [e1, e2, e3, Bool.false_eq_true, if_false, Bool.or_self]
      cases hz : forwardT P.k₂ P.c₂ b.2 (part P.n P.m x) with
      | error e => rfl
      | ok z =>
        obtain ⟨z, b₂⟩ := z
        have hm' : z.md = x.md := pointwise_md (x := part P.n P.m x) h4 h5 h6 hl hz
        simp only [ok_bind']
        have e4 : (⟨y.t, z.md⟩ : STen α) = y := by rw [hm', ← hm]
        rw [e4]

example : ∃ x ∈ exChunks, BCL 2 x ∧ (∀ l ∈ x.md.lengths, 0 ≤ l) ∧ exPair.c₁.kw > 1 ∧ ∃ s ∈ x.md.sos, s = false :=
  ⟨exChunks[1], by simp [exChunks], exChunks_bcl _ (by simp [exChunks]), by decide, by decide, false, by decide, rfl⟩

end
end DS.ConvT
