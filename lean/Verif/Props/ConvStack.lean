import Verif.Lemmas.ConvStack
import Verif.Props.ConvTen
/-! C175: stacks of layers with channels. -/

namespace DS.ConvT
open DS.Tn DS.Conv

/-- One input channel, two output channels: the entry of the second of two taps minus the first, and the first tap. -/
def exFirst : Kern Int := { outs := 2, ins := 1, groups := 1, weight := fun o _ i => if o = 0 then (if i = 0 then -1 else 1) else (if i = 0 then 1 else 0), bias := fun _ => 0 }

/-- Two input channels, one output channel: the sum of everything under the kernel. -/
def exSecond : Kern Int := { outs := 1, ins := 2, groups := 1, weight := fun _ _ _ => 1, bias := fun _ => 3 }

/-- `relu`. -/
def exRelu (x : Int) : Int := max x 0

/-- A convolution from one to two channels, `relu`, a convolution with padding back to one channel. -/
def exStack : List (LayerT Int) := [.conv exFirst ⟨2, 1, 1, 0⟩, .act exRelu, .conv exSecond ⟨2, 1, 1, 1⟩]

/-- The same with each channel minus the sum of the channels in between. -/
def exStackChan : List (LayerT Int) := [.conv exFirst ⟨2, 1, 1, 0⟩, .chan fun l o => l.getD o 0 - l.sum, .conv exSecond ⟨2, 1, 1, 1⟩]

/-- The stream `a` with one channel in two chunks: 1, 4, 2, then 7. -/
def exMono : List (STen Int) :=
  [⟨{ shape := [1, 1, 3], names := [BATCH, some "F", LENGTH], val := fun ix => [1, 4, 2].getD (ix.getD 2 0) 0 }, ⟨["a"], [true], [false], [3], none⟩⟩,
   ⟨{ shape := [1, 1, 1], names := [BATCH, some "F", LENGTH], val := fun _ => 7 }, ⟨["a"], [false], [true], [1], none⟩⟩]

/-- The whole sequence as an ordinary tensor. -/
def exWhole : Ten Int := { shape := [1, 1, 4], names := [none, none, none], val := fun ix => [1, 4, 2, 7].getD (ix.getD 2 0) 0 }

/-- Every `Conv1d` of the stack is one that torch can build. -/
def ValidAll {α : Type} : List (LayerT α) → Prop
  | [] => True
  | .conv _ c :: ls => c.Valid ∧ ValidAll ls
  | .act _ :: ls => ValidAll ls
  | .chan _ :: ls => ValidAll ls

theorem exMono_bcl : ∀ x ∈ exMono, BCL 1 x := by
  intro x hx
  simp only [exMono, List.mem_cons, List.not_mem_nil, or_false] at hx
  rcases hx with rfl | rfl
  · exact ⟨⟨some "F", rfl, by decide, by decide, by decide⟩, ⟨3, rfl⟩, by decide⟩
  · exact ⟨⟨some "F", rfl, by decide, by decide, by decide⟩, ⟨1, rfl⟩, by decide⟩

theorem exMono_schedule : Schedule (exMono.map (asBatch 1)) ∧ Complete (chunksOf "a" ((exMono.map (asBatch 1)).map unpack)) := by
  have hc : Complete (chunksOf "a" ((exMono.map (asBatch 1)).map unpack)) := by decide
  refine ⟨⟨fun x hx => ?_, fun i => ?_⟩, hc⟩
  · simp only [exMono, List.map_cons, List.map_nil, List.mem_cons, List.not_mem_nil, or_false] at hx
    rcases hx with rfl | rfl
    · exact ⟨⟨by decide, rfl, rfl, by decide, rfl⟩, by decide, by decide⟩
    · exact ⟨⟨by decide, rfl, rfl, by decide, rfl⟩, by decide, by decide⟩
  by_cases ha : i = "a"
  · subst ha
    exact ⟨[chunksOf "a" ((exMono.map (asBatch 1)).map unpack)], [], by simp, by simpa using hc, .inl rfl⟩
  · refine ⟨[], [], ?_⟩
    have : chunksOf i ((exMono.map (asBatch 1)).map unpack) = [] := by
      unfold chunksOf
      rw [List.filter_eq_nil_iff]
      intro x hx
      have h : ∀ x ∈ ((exMono.map (asBatch 1)).map unpack).flatten, x.id = "a" := by decide
      simp [h x hx, Ne.symm ha]
    rw [this]
    exact ⟨rfl, by simp, .inl rfl⟩

theorem exStack_fits : FitsAll 1 exStack ∧ ValidAll exStack ∧ StackOK true (framesAll 1 exStack) ∧ Overlapping (framesAll 1 exStack) := by
  refine ⟨⟨by unfold Kern.Fits; decide, ⟨by unfold Kern.Fits; decide, trivial⟩⟩, ⟨by decide, ⟨by decide, trivial⟩⟩, ⟨by decide, .inr rfl, .inl ⟨rfl, ?_, by decide, .inl rfl, trivial⟩⟩, ?_⟩
  · funext o
    show (if o < 2 then exRelu 0 else 0) = 0
    split <;> rfl
  · exact ⟨by decide, by decide, trivial⟩

section
variable {α : Type} [AddCommMonoid α] [Mul α]

/-- **C175**, refinement: on batches with axes (batch, channels, length), in this order, a sequence of calls of a patched stack of `Conv1d`s with any numbers of channels, entrywise functions and functions along the channels raises the same exception as,
or gives the same frames and metadata as, the stack of layers on frames; the outputs have the names of the inputs. So what is proved about stacks on frames (C62, C113, C114 and others) holds in every channel. -/
theorem C175_refines (ls : List (LayerT α)) (ch : Nat) (hf : FitsAll ch ls) (xs : List (STen α)) (hx : ∀ x ∈ xs, BCL ch x) :
    (∀ e, chainRunT (freshT ls) xs = .error e ↔ chainRun (fresh (framesAll ch ls)) (xs.map (asBatch ch)) = .error e) ∧
    ∀ ys s, chainRunT (freshT ls) xs = .ok (ys, s) → ∃ s', chainRun (fresh (framesAll ch ls)) (xs.map (asBatch ch)) = .ok (ys.map (asBatch (outsAll ch ls)), s') ∧ ShowsAll ch s s' ∧
      List.Forall₂ (fun y x => BCL (outsAll ch ls) y ∧ y.t.names = x.t.names) ys xs := by
  have h := chainRun_agree ch ls hf xs hx (freshT ls) (fresh (framesAll ch ls)) (by simp [freshT, Function.comp_def]) (showsAll_fresh ls ch)
  constructor
  · intro e
    cases hr : chainRunT (freshT ls) xs with
    | error e' =>
      rw [hr] at h
      cases hq : chainRun (fresh (framesAll ch ls)) (xs.map (asBatch ch)) with
      | error e'' => rw [hq] at h; cases h; simp
      | ok q => rw [hq] at h; cases h
    | ok r =>
      rw [hr] at h
      cases hq : chainRun (fresh (framesAll ch ls)) (xs.map (asBatch ch)) with
      | error e'' => rw [hq] at h; cases h
      | ok q => simp
  · intro ys s hr
    rw [hr] at h
    cases hq : chainRun (fresh (framesAll ch ls)) (xs.map (asBatch ch)) with
    | error e'' => rw [hq] at h; cases h
    | ok q =>
      rw [hq] at h
      cases h with
      | ok h =>
        obtain ⟨h1, h2, h3⟩ := h
        dsimp only at h1 h2 h3
        exact ⟨q.2, by rw [← h1], h3, h2⟩

example : FitsAll 1 exStack ∧ (∀ x ∈ exMono, BCL 1 x) ∧
    ((chainRunT (freshT exStack) exMono).map fun r => r.1.map fun y => entries3 y.t) = .ok [([1, 1, 2], [BATCH, some "F", LENGTH], [7, 11]), ([1, 1, 2], [BATCH, some "F", LENGTH], [14, 10])] := ⟨exStack_fits.1, exMono_bcl, rfl⟩

theorem whole_frames {ch n w : Nat} (l : LayerT α) (hf : FitsAll ch [l]) (hv : ValidAll [l]) {t y : Ten α} (ht : t.shape = [n, ch, w]) (h : l.whole t = .ok y) :
    ∃ v, y.shape = [n, l.outs ch, v] ∧ ∀ r < n, rowOf (l.outs ch) v y r = (l.frames ch).offline (rowOf ch w t r) := by
  cases l with
  | conv k c =>
    rcases C171_torch k c hv.1 ch hf.1 t n w ht with ⟨-, h1, -⟩ | ⟨y', v, h1, h2, h3⟩
    · rw [show (LayerT.conv k c).whole t = torchConv k c c.padding t from rfl, h1] at h
      cases h
    · rw [show (LayerT.conv k c).whole t = torchConv k c c.padding t from rfl, h1] at h
      cases h
      exact ⟨v, h2, h3⟩
  | act f =>
    cases h
    refine ⟨w, ht, fun r _ => ?_⟩
    show rowOf ch w (mapTen f t) r = (rowOf ch w t r).map _
    unfold rowOf
    rw [List.map_map]
    refine List.map_congr_left fun j _ => ?_
    funext o
    simp only [Function.comp, mapTen]
    by_cases ho : o < ch <;> simp [ho]
  | chan f =>
    have h3 : t.ndim = 3 := by simp [Ten.ndim, ht]
    change alongTen f t 1 = .ok y at h
    unfold alongTen at h
    rw [h3, show normDim 3 1 = .ok 1 from rfl, Except.bind_ok'] at h
    cases h
    refine ⟨w, ht, fun r _ => ?_⟩
    show rowOf ch w { t with val := fun ix => f (lineOf t 1 ix) (ix.getD 1 0) } r = (rowOf ch w t r).map _
    unfold rowOf
    rw [List.map_map]
    refine List.map_congr_left fun j _ => ?_
    funext o
    simp only [Function.comp]
    by_cases ho : o < ch
    · rw [if_pos ho, if_pos ho]
      show f (lineOf t 1 [r, o, j]) o = _
      congr 1
      unfold lineOf
      rw [ht]
      refine List.map_congr_left fun c hc => ?_
      rw [if_pos (show c < ch from List.mem_range.1 hc)]
      rfl
    · rw [if_neg ho, if_neg ho]

theorem fits_head {ch : Nat} {l : LayerT α} {ls : List (LayerT α)} (h : FitsAll ch (l :: ls)) : FitsAll ch [l] := by
  cases l with
  | conv k c => exact ⟨h.1, trivial⟩
  | act f => trivial
  | chan f => trivial

theorem valid_split {l : LayerT α} {ls : List (LayerT α)} (h : ValidAll (l :: ls)) : ValidAll [l] ∧ ValidAll ls := by
  cases l with
  | conv k c => exact ⟨⟨h.1, trivial⟩, h.2⟩
  | act f => exact ⟨trivial, h⟩
  | chan f => exact ⟨trivial, h⟩

/-- **C175**, the ordinary model: what it gives for an ordinary tensor with axes (batch, channels, length) is, in each row, what the stack of layers gives for the frames of the row. -/
theorem C175_whole : ∀ (ls : List (LayerT α)) (ch : Nat) (_ : FitsAll ch ls) (_ : ValidAll ls) (t : Ten α) (n w : Nat) (_ : t.shape = [n, ch, w]) (y : Ten α) (_ : wholeT ls t = .ok y),
    ∃ v, y.shape = [n, outsAll ch ls, v] ∧ ∀ r < n, rowOf (outsAll ch ls) v y r = offlineChain (framesAll ch ls) (rowOf ch w t r) := by
  intro ls
  induction ls with
  | nil =>
    intro ch _ _ t n w ht y h
    cases h
    exact ⟨w, ht, fun r _ => rfl⟩
  | cons l ls ih =>
    intro ch hf hv t n w ht y h
    obtain ⟨hv1, hv2⟩ := valid_split hv
    unfold wholeT at h
    cases hl : l.whole t with
    | error e => rw [hl] at h; cases h
    | ok u =>
      rw [hl, Except.bind_ok'] at h
      obtain ⟨v, h1, h2⟩ := whole_frames l (fits_head hf) hv1 ht hl
      obtain ⟨v', h3, h4⟩ := ih (l.outs ch) (fits_tail hf) hv2 u n v h1 y h
      refine ⟨v', h3, fun r hr => ?_⟩
      rw [show outsAll ch (l :: ls) = outsAll (l.outs ch) ls from rfl, h4 r hr, h2 r hr]
      rfl

/-- The ordinary model accepts sequences that are long enough. -/
theorem whole_ok : ∀ (ls : List (LayerT α)) (ch : Nat) (_ : FitsAll ch ls) (_ : ValidAll ls) (t : Ten α) (n w : Nat) (_ : t.shape = [n, ch, w]) (_ : need (framesAll ch ls) ≤ w), ∃ y, wholeT ls t = .ok y := by
  intro ls
  induction ls with
  | nil => intro ch _ _ t n w _ _; exact ⟨t, rfl⟩
  | cons l ls ih =>
    intro ch hf hv t n w ht hw
    cases l with
    | conv k c =>
      have hkw : c.kw = span c := (span_eq c hv.1).symm
      have hs : 0 < c.stride := by have := hv.1; unfold Cfg.Valid at this; omega
      change max 1 (span c + (need (framesAll k.outs ls) - 1) * c.stride - c.padding) ≤ w at hw
      obtain ⟨h1, h2, h3⟩ := hf.1
      have hT : ∃ y, torchConv k c c.padding t = .ok y ∧ y.shape = [n, k.outs, (w + 2 * c.padding - c.kw) / c.stride + 1] := by
        unfold torchConv
        rw [ht]
        dsimp only
        rw [if_neg (by simp only [h1, h3, ne_eq, not_true_eq_false, false_or]; omega)]
        exact ⟨_, rfl, rfl⟩
      obtain ⟨y, hy, hys⟩ := hT
      obtain ⟨z, hz⟩ := ih k.outs hf.2 hv.2 y n _ hys (by
        have : need (framesAll k.outs ls) - 1 ≤ (w + 2 * c.padding - c.kw) / c.stride := by
          rw [Nat.le_div_iff_mul_le hs]
          omega
        omega)
      exact ⟨z, by rw [wholeT, LayerT.whole, hy, Except.bind_ok', hz]⟩
    | act f => exact ih ch hf hv (mapTen f t) n w ht hw
    | chan f =>
      have h3 : t.ndim = 3 := by simp [Ten.ndim, ht]
      obtain ⟨z, hz⟩ := ih ch hf hv { t with val := fun ix => f (lineOf t 1 ix) (ix.getD 1 0) } n w ht hw
      refine ⟨z, ?_⟩
      have ha : alongTen f t 1 = .ok { t with val := fun ix => f (lineOf t 1 ix) (ix.getD 1 0) } := by
        unfold alongTen
        rw [h3]
        rfl
      rw [wholeT, LayerT.whole, ha, Except.bind_ok', hz]

example : FitsAll 1 exStack ∧ ValidAll exStack ∧ (wholeT exStack exWhole).map entries3 = .ok ([1, 1, 4], [none, none, none], [7, 11, 14, 10]) := ⟨exStack_fits.1, exStack_fits.2.1, rfl⟩

/-- C175, what holds: if no call raises, the outputs of each complete stream put together are what the ordinary model gives for the whole stream, provided no layer gets a batch with empty first or last chunks of several streams or chunks that end inside gaps (`Fine`), and
functions that do not keep zeros do not come directly before a convolution with padding (`StackOK`).
Missing: such stacks and batches (C62, C113). -/
theorem C175_online_partial (ls : List (LayerT α)) (ch : Nat) (hf : FitsAll ch ls) (hv : ValidAll ls) (hl : StackOK true (framesAll ch ls)) (xs : List (STen α)) (hx : ∀ x ∈ xs, BCL ch x)
    (hs : Schedule (xs.map (asBatch ch))) (hfine : Fine (framesAll ch ls) (xs.map (asBatch ch))) (ys : List (STen α)) (s : List (LayerT α × BufT α)) (hrun : chainRunT (freshT ls) xs = .ok (ys, s))
    (i : String) (hc : Complete (chunksOf i ((xs.map (asBatch ch)).map unpack))) (t : Ten α) (w : Nat) (ht : t.shape = [1, ch, w]) (hrow : rowOf ch w t 0 = collected i (xs.map (asBatch ch)))
    (y : Ten α) (hy : wholeT ls t = .ok y) :
    ∃ v, y.shape = [1, outsAll ch ls, v] ∧ collected i (ys.map (asBatch (outsAll ch ls))) = rowOf (outsAll ch ls) v y 0 := by
  obtain ⟨s', h1, -, -⟩ := (C175_refines ls ch hf xs hx).2 ys s hrun
  obtain ⟨v, h2, h3⟩ := C175_whole ls ch hf hv t 1 w ht y hy
  refine ⟨v, h2, ?_⟩
  rw [h3 0 (by omega), hrow]
  exact C113_pointwise_partial _ hl _ hs hfine _ s' h1 i hc

example : Fine (framesAll 1 exStack) (exMono.map (asBatch 1)) :=
  (stack_field _ true exStack_fits.2.2.1 exStack_fits.2.2.2 _ ⟨fun x hm => ⟨wp_shaped (exMono_schedule.1.1 x hm).1, (exMono_schedule.1.1 x hm).2⟩, exMono_schedule.1.2⟩ (fun _ x hm => (exMono_schedule.1.1 x hm).1) (by decide)).1

/-- C175, no exceptions: for stacks with strides below the kernel widths and chunks at least as long as C114 asks, no call raises, every output chunk has frames, and the outputs of each complete stream put together are what the ordinary model gives for the whole stream.
Missing: shorter chunks, wider strides (C114, C52). -/
theorem C175_total_partial (ls : List (LayerT α)) (ch : Nat) (hf : FitsAll ch ls) (hv : ValidAll ls) (hl : StackOK true (framesAll ch ls)) (ho : Overlapping (framesAll ch ls)) (xs : List (STen α)) (hx : ∀ x ∈ xs, BCL ch x)
    (hs : Schedule (xs.map (asBatch ch)))
    (hlong : ∀ x ∈ xs, ∀ u ∈ unpack (asBatch ch x), atLeast (need (framesAll ch ls)) (jump (framesAll ch ls)) (rest (framesAll ch ls)) u ≤ u.frames.length) :
    ∃ ys s, chainRunT (freshT ls) xs = .ok (ys, s) ∧ List.Forall₂ (fun y x => BCL (outsAll ch ls) y ∧ y.t.names = x.t.names) ys xs ∧ (∀ y ∈ ys, ∀ v ∈ unpack (asBatch (outsAll ch ls) y), v.frames ≠ []) ∧
      ∀ i, Complete (chunksOf i ((xs.map (asBatch ch)).map unpack)) → ∀ (t : Ten α) (w : Nat), t.shape = [1, ch, w] → rowOf ch w t 0 = collected i (xs.map (asBatch ch)) →
        ∃ y v, wholeT ls t = .ok y ∧ y.shape = [1, outsAll ch ls, v] ∧ collected i (ys.map (asBatch (outsAll ch ls))) = rowOf (outsAll ch ls) v y 0 := by
  obtain ⟨zs, s', h1, h2, h3⟩ := C114_total_stride _ hl ho _ hs (by simpa using hlong)
  obtain ⟨h4, h5⟩ := C175_refines ls ch hf xs hx
  cases hr : chainRunT (freshT ls) xs with
  | error e => rw [(h4 e).1 hr] at h1; cases h1
  | ok r =>
    obtain ⟨ys, s⟩ := r
    obtain ⟨s'', h6, -, h7⟩ := h5 ys s hr
    rw [h6] at h1
    simp only [Except.ok.injEq, Prod.mk.injEq] at h1
    obtain ⟨rfl, rfl⟩ := h1
    refine ⟨ys, s, rfl, h7, ?_, fun i hc t w ht hrow => ?_⟩
    · simpa using h2
    · have hw : need (framesAll ch ls) ≤ w := by
        have h0 : w = (collected i (xs.map (asBatch ch))).length := by rw [← hrow]; simp [rowOf]
        obtain ⟨hne, hst, -⟩ := hc
        obtain ⟨u, us, hus⟩ : ∃ u us, chunksOf i ((xs.map (asBatch ch)).map unpack) = u :: us := List.exists_cons_of_ne_nil hne
        have hsos : u.sos = true := (hst 0 u (by rw [hus]; rfl)).2 rfl
        have hu : u ∈ chunksOf i ((xs.map (asBatch ch)).map unpack) := by rw [hus]; simp
        obtain ⟨x, hxm, hux⟩ : ∃ x ∈ xs, u ∈ unpack (asBatch ch x) := by
          have := List.mem_of_mem_filter hu
          simpa using this
        have h1 := hlong x hxm u hux
        rw [atLeast, if_pos hsos] at h1
        have h2 : u.frames.length ≤ (collected i (xs.map (asBatch ch))).length := by
          unfold collected allFrames
          rw [hus]
          simp
        omega
      obtain ⟨y, hy⟩ := whole_ok ls ch hf hv t 1 w ht hw
      obtain ⟨v, h8, h9⟩ := C175_whole ls ch hf hv t 1 w ht y hy
      exact ⟨y, v, hy, h8, by rw [h9 0 (by omega), hrow]; exact h3 i hc⟩

end

example : FitsAll 1 exStack ∧ ValidAll exStack ∧ StackOK true (framesAll 1 exStack) ∧ Overlapping (framesAll 1 exStack) ∧ (∀ x ∈ exMono, BCL 1 x) ∧ Schedule (exMono.map (asBatch 1)) ∧
    (∀ x ∈ exMono, ∀ u ∈ unpack (asBatch 1 x), atLeast (need (framesAll 1 exStack)) (jump (framesAll 1 exStack)) (rest (framesAll 1 exStack)) u ≤ u.frames.length) ∧
    Complete (chunksOf "a" ((exMono.map (asBatch 1)).map unpack)) ∧ rowOf 1 4 exWhole 0 = collected "a" (exMono.map (asBatch 1)) ∧
    ((chainRunT (freshT exStack) exMono).map fun r => r.1.map fun y => entries3 y.t) = .ok [([1, 1, 2], [BATCH, some "F", LENGTH], [7, 11]), ([1, 1, 2], [BATCH, some "F", LENGTH], [14, 10])] ∧
    (wholeT exStack exWhole).map entries3 = .ok ([1, 1, 4], [none, none, none], [7, 11, 14, 10]) :=
  ⟨exStack_fits.1, exStack_fits.2.1, exStack_fits.2.2.1, exStack_fits.2.2.2, exMono_bcl, exMono_schedule.1, by decide, exMono_schedule.2, rfl, rfl, rfl⟩

example : ((chainRunT (freshT exStackChan) exMono).map fun r => r.1.map fun y => entries3 y.t) = .ok [([1, 1, 2], [BATCH, some "F", LENGTH], [-1, -3]), ([1, 1, 2], [BATCH, some "F", LENGTH], [-6, -4])] ∧
    (wholeT exStackChan exWhole).map entries3 = .ok ([1, 1, 4], [none, none, none], [-1, -3, -6, -4]) := ⟨rfl, rfl⟩

/-- **C175 is false of the code.** A function of the entries that does not keep zeros (here `x + 1`) fills the padding of the shorter of two sequences, and the end padding of the next convolution sees it. -/
theorem C175_stack_false :
    ((chainRunT (freshT [.act (· + 1), .conv exSecond ⟨2, 1, 1, 1⟩])
        [(⟨{ shape := [2, 2, 2], names := [BATCH, some "F", LENGTH], val := fun ix => if ix.getD 0 0 = 0 ∧ ix.getD 2 0 = 1 then 0 else 5 }, ⟨["a", "b"], [true, true], [true, true], [1, 2], none⟩⟩ : STen Int)]).map
      fun r => (collected "a" (r.1.map (asBatch 1))).map fun v => v 0) = .ok [15, 17] ∧
    ((wholeT [.act (· + 1), .conv exSecond ⟨2, 1, 1, 1⟩] ({ shape := [1, 2, 1], names := [none, none, none], val := fun _ => 5 } : Ten Int)).map entries3) = .ok ([1, 1, 2], [none, none, none], [15, 15]) := ⟨rfl, rfl⟩

end DS.ConvT
