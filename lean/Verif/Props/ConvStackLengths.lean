import Verif.Props.ConvStackLoose
import Verif.Props.FilesStacks
/-! C175 for stacks without padding, by the lengths of the chunks. -/

namespace DS.ConvT
open DS.Tn DS.Conv
section
variable {α : Type} [AddCommMonoid α] [Mul α]

/-- **C175 without padding, by the lengths of the chunks.** If every stream starts with a chunk long enough for one output of the model and each later chunk is long enough for one more, no call raises, and the outputs of each stream put together are what the ordinary model gives
for the frames of the stream that have come in. Missing: shorter chunks (`C175_unpadded_total_partial`), padding (`C175_online_partial`), strides equal to the kernel width (C59). -/
theorem C175_lengths_partial (ls : List (LayerT α)) (ch : Nat) (hf : FitsAll ch ls) (hv : ValidAll ls) (hl : ∀ l ∈ ls, KeepsT l) (xs : List (STen α)) (hx : ∀ x ∈ xs, BCL ch x)
    (hs : Loose (xs.map (asBatch ch)))
    (hc : ∀ i u us, chunksOf i ((xs.map (asBatch ch)).map unpack) = u :: us →
      u.sos = true ∧ need (framesAll ch ls) ≤ u.frames.length ∧ ∀ v ∈ us, jump (framesAll ch ls) ≤ v.frames.length) :
    ∃ ys s, chainRunT (freshT ls) xs = .ok (ys, s) ∧
      ∀ (i : String) (t : Ten α) (w : Nat), t.shape = [1, ch, w] → rowOf ch w t 0 = collected i (xs.map (asBatch ch)) → ∀ y, wholeT ls t = .ok y →
        ∃ v, y.shape = [1, outsAll ch ls, v] ∧ collected i (ys.map (asBatch (outsAll ch ls))) = rowOf (outsAll ch ls) v y 0 := by
  obtain ⟨zs, s', h⟩ := C58_stack_lengths_partial _ (keeps_frames ls hl ch) _ hs hc
  obtain ⟨h4, -⟩ := C175_refines ls ch hf xs hx
  have hb : ∀ l ∈ ls, BareT l := by
    intro l h
    have := hl l h
    cases l with
    | conv k c => exact ⟨this.1, Nat.le_of_lt this.2.1, this.2.2⟩
    | _ => trivial
  cases hr : chainRunT (freshT ls) xs with
  | error e => rw [(h4 e).1 hr] at h; cases h
  | ok r => exact ⟨r.1, r.2, rfl, fun i t w ht hrow y hy => C175_unpadded_partial ls ch hf hv hb xs hx hs r.1 r.2 hr i t w ht hrow y hy⟩
end

/-- A stream of four frames in chunks of three and one, of one channel. -/
def exTailT : List (STen Int) :=
  [⟨{ shape := [1, 1, 3], names := [BATCH, some "F", LENGTH], val := fun ix => [1, 4, 2].getD (ix.getD 2 0) 0 }, ⟨["a"], [true], [false], [3], none⟩⟩,
   ⟨{ shape := [1, 1, 1], names := [BATCH, some "F", LENGTH], val := fun _ => 7 }, ⟨["a"], [false], [true], [1], none⟩⟩]

theorem exTailT_only (i : String) (hi : i ≠ "a") : chunksOf i ((exTailT.map (asBatch 1)).map unpack) = [] := by
  unfold chunksOf
  rw [List.filter_eq_nil_iff]
  intro u hu h
  rw [decide_eq_true_eq] at h
  have hall : ∀ u ∈ ((exTailT.map (asBatch 1)).map unpack).flatten, u.id = "a" := by decide +kernel
  exact hi (h ▸ hall u hu)

-- The model of two convolutions needs three frames for its first output and one for each further one.
example : need (framesAll 1 exBareT) = 3 ∧ jump (framesAll 1 exBareT) = 1 := by decide
example : ∀ x ∈ exTailT, BCL 1 x := by
  intro x hx
  simp only [exTailT, List.mem_cons, List.not_mem_nil, or_false] at hx
  rcases hx with rfl | rfl
  · exact ⟨⟨some "F", rfl, by decide, by decide, by decide⟩, ⟨3, rfl⟩, by decide⟩
  · exact ⟨⟨some "F", rfl, by decide, by decide, by decide⟩, ⟨1, rfl⟩, by decide⟩
example : Loose (exTailT.map (asBatch 1)) := by
  refine ⟨fun x hx => ?_, fun i => ?_⟩
  · simp only [exTailT, List.map_cons, List.map_nil, List.mem_cons, List.not_mem_nil, or_false] at hx
    rcases hx with rfl | rfl
    · exact ⟨⟨by decide, rfl, by decide +kernel, by decide⟩, by decide, by decide⟩
    · exact ⟨⟨by decide, rfl, by decide +kernel, by decide⟩, by decide, by decide⟩
  · by_cases hi : i = "a"
    · subst hi
      refine once_get ?_
      decide +kernel
    · rw [exTailT_only i hi]
      intro p x q h
      simp at h
example : ∀ i u us, chunksOf i ((exTailT.map (asBatch 1)).map unpack) = u :: us → u.sos = true ∧ need (framesAll 1 exBareT) ≤ u.frames.length ∧ ∀ v ∈ us, jump (framesAll 1 exBareT) ≤ v.frames.length := by
  intro i u us h
  by_cases hi : i = "a"
  · subst hi
    have hm : (chunksOf "a" ((exTailT.map (asBatch 1)).map unpack)).map (fun u => (u.sos, u.frames.length)) = [(true, 3), (false, 1)] := by decide +kernel
    rw [h, List.map_cons, List.cons.injEq, Prod.mk.injEq] at hm
    obtain ⟨⟨h1, h2⟩, h3⟩ := hm
    refine ⟨h1, by rw [h2]; decide, fun v hv => ?_⟩
    have := List.mem_map_of_mem (f := fun u : Chunk (Nat → Int) => (u.sos, u.frames.length)) hv
    rw [h3, List.mem_singleton, Prod.mk.injEq] at this
    rw [this.2]
    decide
  · rw [exTailT_only i hi] at h
    cases h
end DS.ConvT
