import Verif.Props.ConvStack
import Verif.Props.UnpaddedTotal
/-! C175 for stacks without padding, in batches of any kind. -/

namespace DS.ConvT
open DS.Tn DS.Conv
section
variable {α : Type} [AddCommMonoid α] [Mul α]

/-- No convolution adds zeros, and none skips frames. -/
def BareT : LayerT α → Prop
  | .conv _ c => c.Valid ∧ c.stride ≤ span c ∧ c.padding = 0
  | _ => True

/-- Strides below the kernel widths. -/
def KeepsT : LayerT α → Prop
  | .conv _ c => c.Valid ∧ c.stride < span c ∧ c.padding = 0
  | _ => True

theorem bare_frames (ls : List (LayerT α)) (h : ∀ l ∈ ls, BareT l) (ch : Nat) : ∀ l ∈ framesAll ch ls, l.Bare := by
  induction ls generalizing ch with
  | nil => intro l hl; cases hl
  | cons a ls ih =>
    intro l hl
    rcases List.mem_cons.1 hl with rfl | hl
    · have := h a (List.mem_cons_self ..)
      cases a <;> exact this
    · exact ih (fun l hl => h l (List.mem_cons_of_mem _ hl)) _ l hl

theorem keeps_frames (ls : List (LayerT α)) (h : ∀ l ∈ ls, KeepsT l) (ch : Nat) : ∀ l ∈ framesAll ch ls, l.Keeps := by
  induction ls generalizing ch with
  | nil => intro l hl; cases hl
  | cons a ls ih =>
    intro l hl
    rcases List.mem_cons.1 hl with rfl | hl
    · have := h a (List.mem_cons_self ..)
      cases a <;> exact this
    · exact ih (fun l hl => h l (List.mem_cons_of_mem _ hl)) _ l hl

/-- C175 without padding: whatever functions are between the convolutions, whatever the batches hold next to their chunks and however short or empty the chunks are, after any number of calls that do not raise the outputs of each stream put together are what
the ordinary model gives for the frames of the stream that have come in, if it gives anything for them.
Missing: padding (C175_online_partial), strides above the kernel width (C52). -/
theorem C175_unpadded_partial (ls : List (LayerT α)) (ch : Nat) (hf : FitsAll ch ls) (hv : ValidAll ls) (hl : ∀ l ∈ ls, BareT l) (xs : List (STen α)) (hx : ∀ x ∈ xs, BCL ch x)
    (hs : Loose (xs.map (asBatch ch))) (ys : List (STen α)) (s : List (LayerT α × BufT α)) (hrun : chainRunT (freshT ls) xs = .ok (ys, s))
    (i : String) (t : Ten α) (w : Nat) (ht : t.shape = [1, ch, w]) (hrow : rowOf ch w t 0 = collected i (xs.map (asBatch ch))) (y : Ten α) (hy : wholeT ls t = .ok y) :
    ∃ v, y.shape = [1, outsAll ch ls, v] ∧ collected i (ys.map (asBatch (outsAll ch ls))) = rowOf (outsAll ch ls) v y 0 := by
  obtain ⟨s', h1, -, -⟩ := (C175_refines ls ch hf xs hx).2 ys s hrun
  obtain ⟨v, h2, h3⟩ := C175_whole ls ch hf hv t 1 w ht y hy
  refine ⟨v, h2, ?_⟩
  rw [h3 0 (by omega), hrow]
  exact C62_unpadded_partial _ (bare_frames ls hl ch) _ hs _ s' h1 i

/-- C175 without padding, no exceptions: with strides below the kernel widths no call raises if every call brings a new frame of the output of some stream (`Lively`) and no stream of which nothing has reached the last layer comes together with new ones (`Warm`).
Missing: calls without new output, which raise (C58_stack_needed_partial). -/
theorem C175_unpadded_total_partial (ls : List (LayerT α)) (ch : Nat) (hf : FitsAll ch ls) (hl : ∀ l ∈ ls, KeepsT l) (xs : List (STen α)) (hx : ∀ x ∈ xs, BCL ch x)
    (hs : Loose (xs.map (asBatch ch))) (hn : Lively (offlineChain (framesAll ch ls)) (xs.map (asBatch ch))) (hw : Warm (offlineChain (framesAll ch ls).dropLast) (xs.map (asBatch ch))) :
    ∃ ys s, chainRunT (freshT ls) xs = .ok (ys, s) ∧ List.Forall₂ (fun y x => BCL (outsAll ch ls) y ∧ y.t.names = x.t.names) ys xs := by
  obtain ⟨zs, s', h⟩ := C58_stack_partial _ (keeps_frames ls hl ch) _ hs hn hw
  obtain ⟨h4, h5⟩ := C175_refines ls ch hf xs hx
  cases hr : chainRunT (freshT ls) xs with
  | error e => rw [(h4 e).1 hr] at h; cases h
  | ok r => exact ⟨r.1, r.2, rfl, (h5 r.1 r.2 hr).choose_spec.2.2⟩
end

/-- A convolution from one to two channels, `x + 1`, which does not keep zeros, and a convolution back to one channel. -/
def exBareT : List (LayerT Int) := [.conv exFirst ⟨2, 1, 1, 0⟩, .act (· + 1), .conv exSecond ⟨2, 1, 1, 0⟩]

/-- The stream `a` in chunks of four, none and one frames, `b` in chunks of one, two and three, ending in the second and third batch; the padding holds 9s. -/
def exLooseT : List (STen Int) :=
  [⟨{ shape := [2, 1, 4], names := [BATCH, some "F", LENGTH], val := fun ix => if ix.getD 0 0 = 0 then [1, 4, 2, 7].getD (ix.getD 2 0) 0 else [3, 9, 9, 9].getD (ix.getD 2 0) 0 },
      ⟨["a", "b"], [true, true], [false, false], [4, 1], none⟩⟩,
   ⟨{ shape := [2, 1, 2], names := [BATCH, some "F", LENGTH], val := fun ix => if ix.getD 0 0 = 0 then [9, 9].getD (ix.getD 2 0) 0 else [5, 8].getD (ix.getD 2 0) 0 },
      ⟨["a", "b"], [false, false], [false, false], [0, 2], none⟩⟩,
   ⟨{ shape := [2, 1, 3], names := [BATCH, some "F", LENGTH], val := fun ix => if ix.getD 0 0 = 0 then [6, 9, 9].getD (ix.getD 2 0) 0 else [2, 2, 1].getD (ix.getD 2 0) 0 },
      ⟨["a", "b"], [false, false], [true, true], [1, 3], none⟩⟩]

/-- All frames of `b`. -/
def exWholeB : Ten Int := { shape := [1, 1, 6], names := [none, none, none], val := fun ix => [3, 5, 8, 2, 2, 1].getD (ix.getD 2 0) 0 }

theorem exLooseT_bcl : ∀ x ∈ exLooseT, BCL 1 x := by
  intro x hx
  simp only [exLooseT, List.mem_cons, List.not_mem_nil, or_false] at hx
  rcases hx with rfl | rfl | rfl
  · exact ⟨⟨some "F", rfl, by decide, by decide, by decide⟩, ⟨4, rfl⟩, by decide⟩
  · exact ⟨⟨some "F", rfl, by decide, by decide, by decide⟩, ⟨2, rfl⟩, by decide⟩
  · exact ⟨⟨some "F", rfl, by decide, by decide, by decide⟩, ⟨3, rfl⟩, by decide⟩

theorem exBareT_fits : FitsAll 1 exBareT ∧ ValidAll exBareT ∧ ∀ l ∈ exBareT, KeepsT l := by
  refine ⟨⟨by unfold Kern.Fits; decide, ⟨by unfold Kern.Fits; decide, trivial⟩⟩, ⟨by decide, ⟨by decide, trivial⟩⟩, fun l hl => ?_⟩
  simp only [exBareT, List.mem_cons, List.not_mem_nil, or_false] at hl
  rcases hl with rfl | rfl | rfl
  · exact ⟨(by decide : (⟨2, 1, 1, 0⟩ : Cfg).Valid), (by decide : (⟨2, 1, 1, 0⟩ : Cfg).stride < span (⟨2, 1, 1, 0⟩ : Cfg)), rfl⟩
  · trivial
  · exact ⟨(by decide : (⟨2, 1, 1, 0⟩ : Cfg).Valid), (by decide : (⟨2, 1, 1, 0⟩ : Cfg).stride < span (⟨2, 1, 1, 0⟩ : Cfg)), rfl⟩

theorem exLooseT_loose : Loose (exLooseT.map (asBatch 1)) := by
  refine ⟨fun x hx => ?_, fun i => ?_⟩
  · simp only [exLooseT, List.map_cons, List.map_nil, List.mem_cons, List.not_mem_nil, or_false] at hx
    rcases hx with rfl | rfl | rfl
    · exact ⟨⟨by decide, rfl, by decide +kernel, by decide⟩, by decide, by decide⟩
    · exact ⟨⟨by decide, rfl, by decide +kernel, by decide⟩, by decide, by decide⟩
    · exact ⟨⟨by decide, rfl, by decide +kernel, by decide⟩, by decide, by decide⟩
  · by_cases hi : i ∈ ["a", "b"]
    · refine once_get ?_
      revert i
      decide +kernel
    · have : chunksOf i ((exLooseT.map (asBatch 1)).map unpack) = [] := by
        unfold chunksOf
        rw [List.filter_eq_nil_iff]
        intro u hu h
        rw [decide_eq_true_eq] at h
        have hall : ∀ u ∈ ((exLooseT.map (asBatch 1)).map unpack).flatten, u.id ∈ ["a", "b"] := by decide +kernel
        exact hi (h ▸ hall u hu)
      rw [this]
      intro p x q h
      simp at h

example : Lively (offlineChain (framesAll 1 exBareT)) (exLooseT.map (asBatch 1)) := by
  refine split_take ?_
  decide +kernel
example : Warm (offlineChain (framesAll 1 exBareT).dropLast) (exLooseT.map (asBatch 1)) := by
  refine split_take ?_
  decide +kernel

-- The outputs of `b` put together are 20, 17, 11, 10; the ordinary model gives the same for the whole of `b`.
example : rowOf 1 6 exWholeB 0 = collected "b" (exLooseT.map (asBatch 1)) := rfl
example : ((chainRunT (freshT exBareT) exLooseT).map fun r => r.1.map fun y => (entries3 y.t).2.2) = .ok [[13, 16, 0, 0], [0, 20], [20, 0, 0, 17, 11, 10]] ∧
    ((chainRunT (freshT exBareT) exLooseT).map fun r => r.1.map fun y => y.md.lengths) = .ok [[2, 0], [0, 1], [1, 3]] ∧
    (wholeT exBareT exWholeB).map entries3 = .ok ([1, 1, 4], [none, none, none], [20, 17, 11, 10]) := by
  refine ⟨?_, ?_, ?_⟩ <;> decide +kernel
end DS.ConvT
