import Verif.Lemmas.PipelineTen
import Verif.Props.ConvStack
import Verif.Props.PipelineRun
/-! C176: the program of examples/wav2letter.py on named tensors. -/

namespace DS.PipeT
open DS.Tn DS.Conv DS.ConvT DS.Coll DS.Pipe

/-- Sequence `a` with one channel: 1, 4, 2, 7, 3. -/
def exSeqA : Ten Int := { shape := [1, 5], names := [none, none], val := fun ix => [1, 4, 2, 7, 3].getD (ix.getD 1 0) 0 }
/-- Sequence `b` with one channel: 5, 1, 6. -/
def exSeqB : Ten Int := { shape := [1, 3], names := [none, none], val := fun ix => [5, 1, 6].getD (ix.getD 1 0) 0 }

/-- Shape, names and entries of a tensor with two axes. -/
def entries2 (t : Ten Int) : List Nat × List (Option String) × List Int :=
  (t.shape, t.names, (List.range (t.shape.getD 0 0)).flatMap fun c => (List.range (t.shape.getD 1 0)).map fun j => t.val [c, j])

/-- The rounds of the example: `a` alone, both, `a` alone. -/
def exFlips : List (List Bool) := [[true, false], [true, true], [true, false]]

section
variable {α : Type} [AddCommMonoid α] [Mul α]

/-- **C176, refinement.** For plain sequences with `ch` channels and a model whose channels fit, the program on named tensors and the program on frames (C116) raise the same exception, or end with collectors that hold the
same streams: each entry has axes (F, L), its columns are the frames, and the same ids are closed. -/
theorem C176_refines (ls : List (LayerT α)) (ch : Nat) (hf : FitsAll ch ls) (seqs : List (Ten α)) (hseq : ∀ s ∈ seqs, ∃ w, s.shape = [ch, w] ∧ s.names = [none, none]) (ids : List String)
    (sizes : List (List Int)) (flips : List (List Bool)) :
    Agree (SameColl (outsAll ch ls) (some "F")) (programT ls ids seqs sizes flips) (program (framesAll ch ls) ids (seqs.map (asFrames ch)) sizes flips) := by
  refine program_agree ls hf ?_ ?_ ids sizes flips
  · rw [List.forall₂_map_right_iff, List.forall₂_same]
    intro s hs
    obtain ⟨w, h1, -⟩ := hseq s hs
    exact ⟨by rw [asFrames_length, h1]; rfl, rfl⟩
  · intro s hs
    obtain ⟨w, h1, h2⟩ := hseq s hs
    obtain ⟨sh, ns, v⟩ := s
    dsimp only at h1 h2
    subst h1 h2
    rfl

/-- The sizes are positive and cut the whole sequence. -/
def CutsT (s : Ten α) (sizes : List Int) : Prop := (∀ n ∈ sizes, 0 < n) ∧ total sizes = (s.shape.getD 1 0 : Nat)

theorem row_entry {ch v : Nat} {e : Ten α} {y : Ten α} {r : Nat} (he : e.shape.getD 1 0 = v) (h : asFrames ch e = rowOf ch v y r) (c : Nat) (hc : c < ch) (j : Nat) (hj : j < v) :
    e.val [c, j] = y.val [r, c, j] := by
  have h1 := congrArg (fun l : List (Nat → α) => (l.map fun f => f c)[j]?) h
  simp only [asFrames, he, rowOf, List.map_map, List.getElem?_map, List.getElem?_range hj, Option.map_some, Function.comp, if_pos hc, Option.some.injEq] at h1
  exact h1

/-- **C176, what holds.** If the first piece of every sequence is long enough for one output, pieces in between for the total stride and last pieces for what the end padding leaves of it, then whatever the order in which
the pieces are dealt: the program does not raise, the ordinary model accepts every whole sequence, and for every id the collected tensor has the axes (F, L) and the size and entries of the target without its batch axis. Other
ids have no entry.
Missing: shorter pieces (false, see `C176_program_false`), strides not below the kernel widths, and functions that do not keep zeros before padded convolutions. -/
theorem C176_program_partial (ls : List (LayerT α)) (ch : Nat) (hf : FitsAll ch ls) (hv : ValidAll ls) (hl : StackOK true (framesAll ch ls)) (ho : Overlapping (framesAll ch ls))
    (ids : List String) (seqs : List (Ten α)) (sizes : List (List Int)) (flips : List (List Bool)) (hnd : ids.Nodup) (hlen : seqs.length = ids.length) (hne : seqs ≠ [])
    (hseq : ∀ s ∈ seqs, ∃ w, s.shape = [ch, w + 1] ∧ s.names = [none, none]) (hcut : List.Forall₂ CutsT seqs sizes)
    (hlong : ∀ ss ∈ sizes, LongEnough (framesAll ch ls) ss) (hen : ∀ (k : Nat) (ss : List Int), sizes[k]? = some ss → Enough flips k ss) :
    ∃ s, programT ls ids seqs sizes flips = .ok s ∧ (∀ i, i ∉ ids → s.entries i = none) ∧
      ∀ (k : Nat) (i : String) (seq : Ten α), ids[k]? = some i → seqs[k]? = some seq → ∃ (e : STen α) (y : Ten α) (v : Nat), s.entries i = some e ∧ target ls seq = .ok y ∧
        y.shape = [1, outsAll ch ls, v] ∧ e.t.shape = [outsAll ch ls, v] ∧ e.t.names = [some "F", LENGTH] ∧
        ∀ c < outsAll ch ls, ∀ j < v, e.t.val [c, j] = y.val [0, c, j] := by
  have href := C176_refines ls ch hf seqs (fun s hs => by obtain ⟨w, h1, h2⟩ := hseq s hs; exact ⟨_, h1, h2⟩) ids sizes flips
  have hfl : ∀ s ∈ seqs, (asFrames ch s).length = s.shape.getD 1 0 := fun s _ => asFrames_length ch s
  have hcut' : List.Forall₂ Cuts (seqs.map (asFrames ch)) sizes := by
    rw [List.forall₂_map_left_iff]
    refine hcut.imp fun s ss h => ⟨h.1, ?_⟩
    rw [asFrames_length]
    exact h.2
  obtain ⟨s', h1, h2, h3⟩ := C116_program_partial (framesAll ch ls) hl ho ids (seqs.map (asFrames ch)) sizes flips hnd (by simpa using hlen) (by simpa using hne) (by
    intro x hx
    obtain ⟨s, hs, rfl⟩ := List.mem_map.1 hx
    obtain ⟨w, h1, -⟩ := hseq s hs
    intro h0
    have := hfl s hs
    rw [h0, h1] at this
    simp at this) hcut' hlong hen
  rw [h1] at href
  cases hp : programT ls ids seqs sizes flips with
  | error e => rw [hp] at href; cases href
  | ok s =>
    rw [hp] at href
    cases href with
    | ok hs =>
      refine ⟨s, rfl, fun i hi => ?_, fun k i seq g1 g2 => ?_⟩
      · have := hs.1 i
        rw [h2 i hi] at this
        cases hx : s.entries i with
        | none => rfl
        | some a => rw [hx] at this; cases this
      · obtain ⟨e', h4, h5⟩ := h3 k i (asFrames ch seq) g1 (by rw [List.getElem?_map, g2]; rfl)
        have := hs.1 i
        rw [h4] at this
        cases hx : s.entries i with
        | none => rw [hx] at this; cases this
        | some e =>
          rw [hx] at this
          cases this with
          | some he =>
            have hmem := List.mem_of_getElem? g2
            obtain ⟨w, hw, -⟩ := hseq seq hmem
            obtain ⟨ss, hss, hc⟩ := forall₂_getElem hcut g2
            have hneed : need (framesAll ch ls) ≤ w + 1 := by
              have hc2 := hc.2
              rw [hw] at hc2
              simp only [List.getD_cons_succ, List.getD_cons_zero] at hc2
              cases ss with
              | nil => simp [total] at hc2; omega
              | cons n ss =>
                have h6 := hlong _ (List.mem_of_getElem? hss) 0 n rfl
                have h7 : 0 ≤ total ss := by
                  rw [Meta.total_isum]
                  exact Meta.isum_nonneg ss fun t ht => by have := hc.1 t (by simp [ht]); omega
                simp only [if_true] at h6
                simp only [total] at hc2
                omega
            obtain ⟨y, hy⟩ := whole_ok ls ch hf hv { shape := 1 :: seq.shape, names := none :: seq.names, val := fun ix => seq.val ix.tail } 1 (w + 1) (by rw [hw]) hneed
            obtain ⟨v, h8, h9⟩ := C175_whole ls ch hf hv _ 1 (w + 1) (by dsimp only; rw [hw]) y hy
            have h10 := h9 0 (by omega)
            have h11 : rowOf ch (w + 1) ({ shape := 1 :: seq.shape, names := none :: seq.names, val := fun ix => seq.val ix.tail } : Ten α) 0 = asFrames ch seq := by
              simp only [rowOf, asFrames, hw, List.tail_cons, List.getD_cons_succ, List.getD_cons_zero]
            rw [h11, ← h5] at h10
            have hd : e'.frames = asFrames (outsAll ch ls) e.t := he.data
            have hvl : e'.frames.length = v := by rw [← h10]; simp [rowOf]
            have hsh : e.t.shape = [outsAll ch ls, v] := by rw [← hvl]; exact he.shape
            refine ⟨e, y, v, rfl, hy, h8, hsh, he.names, fun c hc' j hj => ?_⟩
            refine row_entry (by rw [hsh]; rfl) ?_ c hc' j hj
            rw [← hd, h10]

end

/-- Two sequences through a convolution to two channels, `relu` and a padded convolution to one channel, in four pieces and three batches. -/
example : FitsAll 1 exStack ∧ ValidAll exStack ∧ StackOK true (framesAll 1 exStack) ∧ Overlapping (framesAll 1 exStack) ∧ List.Forall₂ CutsT [exSeqA, exSeqB] [[3, 1, 1], [3]] ∧
    LongEnough (framesAll 1 exStack) [3, 1, 1] ∧ LongEnough (framesAll 1 exStack) [3] ∧ Enough exFlips 0 [3, 1, 1] ∧ Enough exFlips 1 [3] ∧
    ((programT exStack ["a", "b"] [exSeqA, exSeqB] [[3, 1, 1], [3]] exFlips).map fun s => ((s.entries "a").map fun e => entries2 e.t, (s.entries "b").map fun e => entries2 e.t)) =
      .ok (some ([1, 5], [some "F", LENGTH], [7, 11, 14, 17, 10]), some ([1, 3], [some "F", LENGTH], [8, 14, 9])) ∧
    (target exStack exSeqA).map entries3 = .ok ([1, 1, 5], [none, none, none], [7, 11, 14, 17, 10]) ∧ (target exStack exSeqB).map entries3 = .ok ([1, 1, 3], [none, none, none], [8, 14, 9]) := by
  refine ⟨exStack_fits.1, exStack_fits.2.1, exStack_fits.2.2.1, exStack_fits.2.2.2, .cons ⟨by decide, by decide⟩ (.cons ⟨by decide, by decide⟩ .nil), ?_, ?_, by unfold Enough; decide, by unfold Enough; decide, rfl, rfl, rfl⟩
  · intro k s hs
    match k with
    | 0 => cases hs; decide
    | 1 => cases hs; decide
    | 2 => cases hs; decide
    | k + 3 => simp at hs
  · intro k s hs
    match k with
    | 0 => cases hs; decide
    | k + 1 => simp at hs

/-- Two convolutions, the first one with stride 2. -/
def exShort : List (LayerT Int) := [.conv exFirst ⟨3, 1, 2, 0⟩, .conv exSecond ⟨2, 1, 1, 1⟩]
/-- A sequence with one channel: 1, 4, 2, 7. -/
def exSeqC : Ten Int := { shape := [1, 4], names := [none, none], val := fun ix => [1, 4, 2, 7].getD (ix.getD 1 0) 0 }

/-- **C176 is false of the code.** The last piece of `a` has one frame and gives no output in the first layer. Next to the first piece of `b` the second layer forgets that it was the last one, so that the output for the end
padding never comes and `a` is not closed; alone it makes the program raise. -/
theorem C176_program_false :
    FitsAll 1 exShort ∧ ValidAll exShort ∧ List.Forall₂ CutsT [exSeqC, exSeqB] [[3, 1], [3]] ∧
    ((programT exShort ["a", "b"] [exSeqC, exSeqB] [[3, 1], [3]] [[true, false], [true, true]]).map fun s => ((s.entries "a").map fun e => entries2 e.t, s.closed "a")) =
      .ok (some ([1, 1], [some "F", LENGTH], [9]), false) ∧
    (target exShort exSeqC).map entries3 = .ok ([1, 1, 2], [none, none, none], [9, 9]) ∧
    ((programT exShort ["a", "b"] [exSeqC, exSeqB] [[3, 1], [3]] [[true, false], [true, false], [false, true]]).map fun s => s.closed "a") = .error .runtimeError := by
  refine ⟨⟨by unfold Kern.Fits; decide, ⟨by unfold Kern.Fits; decide, trivial⟩⟩, ⟨by decide, ⟨by decide, trivial⟩⟩, .cons ⟨by decide, by decide⟩ (.cons ⟨by decide, by decide⟩ .nil), rfl, rfl, rfl⟩

section
variable {α : Type} [AddCommMonoid α] [Mul α]

/-- One `Conv1d` of the network with the given sizes; weight and bias are free. -/
def wavConv (w : Nat → Nat → Nat → Nat → α) (b : Nat → Nat → α) (n ins outs : Nat) : Kern α := { outs, ins, groups := 1, weight := w n, bias := b n }

/-- torchaudio's `Wav2Letter(num_classes, input_type="waveform")` as published (examples/wav2letter.py:28; the class is not part of this repository): twelve convolutions with `relu` after each, then `log_softmax(x, dim=1)`. -/
def wavLayers (w : Nat → Nat → Nat → Nat → α) (b : Nat → Nat → α) (relu : α → α) (logSoftmax : List α → Nat → α) (classes : Nat) : List (LayerT α) :=
  [.conv (wavConv w b 0 1 250) ⟨250, 1, 160, 45⟩, .act relu, .conv (wavConv w b 1 250 250) ⟨48, 1, 2, 23⟩, .act relu, .conv (wavConv w b 2 250 250) ⟨7, 1, 1, 3⟩, .act relu,
    .conv (wavConv w b 3 250 250) ⟨7, 1, 1, 3⟩, .act relu, .conv (wavConv w b 4 250 250) ⟨7, 1, 1, 3⟩, .act relu, .conv (wavConv w b 5 250 250) ⟨7, 1, 1, 3⟩, .act relu,
    .conv (wavConv w b 6 250 250) ⟨7, 1, 1, 3⟩, .act relu, .conv (wavConv w b 7 250 250) ⟨7, 1, 1, 3⟩, .act relu, .conv (wavConv w b 8 250 250) ⟨7, 1, 1, 3⟩, .act relu,
    .conv (wavConv w b 9 250 2000) ⟨32, 1, 1, 16⟩, .act relu, .conv (wavConv w b 10 2000 2000) ⟨1, 1, 1, 0⟩, .act relu, .conv (wavConv w b 11 2000 classes) ⟨1, 1, 1, 0⟩, .act relu, .chan logSoftmax]

/-- The pieces of one sequence in the example: at least 16000 samples each, except for the last one (examples/wav2letter.py:12-19 and 41), which has at least 115 if it is not the only one. -/
def WavPieces (ss : List Int) : Prop := ∀ (k : Nat) (s : Int), ss[k]? = some s → (if k ≠ 0 ∧ k + 1 = ss.length then 115 else 16000) ≤ s

/-- **C176 for the example itself.** For the network of examples/wav2letter.py with any weights, in exact arithmetic: if no last piece has fewer than 115 samples, the program does not raise and what the collector holds for each
sequence has the shape (classes, frames) and the entries of the model's output on the whole sequence.
Missing: last pieces of fewer than 115 samples, which the sizes that the example draws do not exclude; rounding. -/
theorem C176_wav2letter_partial (w : Nat → Nat → Nat → Nat → α) (b : Nat → Nat → α) (relu : α → α) (h0 : relu 0 = 0) (logSoftmax : List α → Nat → α) (classes : Nat)
    (ids : List String) (seqs : List (Ten α)) (sizes : List (List Int)) (flips : List (List Bool)) (hnd : ids.Nodup) (hlen : seqs.length = ids.length) (hne : seqs ≠ [])
    (hseq : ∀ s ∈ seqs, ∃ n, s.shape = [1, n + 1] ∧ s.names = [none, none]) (hcut : List.Forall₂ CutsT seqs sizes) (hlong : ∀ ss ∈ sizes, WavPieces ss)
    (hen : ∀ (k : Nat) (ss : List Int), sizes[k]? = some ss → Enough flips k ss) :
    ∃ s, programT (wavLayers w b relu logSoftmax classes) ids seqs sizes flips = .ok s ∧ (∀ i, i ∉ ids → s.entries i = none) ∧
      ∀ (k : Nat) (i : String) (seq : Ten α), ids[k]? = some i → seqs[k]? = some seq → ∃ (e : STen α) (y : Ten α) (v : Nat), s.entries i = some e ∧
        target (wavLayers w b relu logSoftmax classes) seq = .ok y ∧ y.shape = [1, classes, v] ∧ e.t.shape = [classes, v] ∧ e.t.names = [some "F", LENGTH] ∧
        ∀ c < classes, ∀ j < v, e.t.val [c, j] = y.val [0, c, j] := by
  have hz : (fun _ : Nat => (0 : α)) = 0 := rfl
  have hfit : ∀ n ins outs : Nat, (wavConv w b n ins outs).Fits ins := fun n ins outs => ⟨(Nat.mul_one ins).symm, Nat.le_refl 1, Nat.mod_one outs⟩
  refine C176_program_partial (wavLayers w b relu logSoftmax classes) 1 ?_ ?_ ?_ ?_ ids seqs sizes flips hnd hlen hne hseq hcut ?_ hen
  · simp only [wavLayers, FitsAll, hfit, wavConv, and_self]
    exact ⟨hfit 0 1 250, hfit 1 250 250, hfit 2 250 250, hfit 3 250 250, hfit 4 250 250, hfit 5 250 250, hfit 6 250 250, hfit 7 250 250, hfit 8 250 250, hfit 9 250 2000, hfit 10 2000 2000, hfit 11 2000 classes, trivial⟩
  · simp [wavLayers, ValidAll, Cfg.Valid]
  · simp [wavLayers, framesAll, LayerT.frames, StackOK, Cfg.Valid, h0, hz]
  · simp [wavLayers, framesAll, LayerT.frames, Overlapping, span]
  · intro ss hss k s hs
    have := hlong ss hss k s hs
    have h1 : need (framesAll 1 (wavLayers w b relu logSoftmax classes)) = 15565 := by simp [wavLayers, framesAll, LayerT.frames, need, span]
    have h2 : jump (framesAll 1 (wavLayers w b relu logSoftmax classes)) = 320 := by simp [wavLayers, framesAll, LayerT.frames, jump]
    have h3 : rest (framesAll 1 (wavLayers w b relu logSoftmax classes)) = 115 := by simp [wavLayers, framesAll, LayerT.frames, rest]
    rw [h1, h2, h3]
    by_cases hk : k = 0
    · rw [if_pos hk]
      rw [if_neg (by omega)] at this
      omega
    · rw [if_neg hk]
      by_cases hl : k + 1 = ss.length
      · rw [if_pos hl]
        rw [if_pos ⟨hk, hl⟩] at this
        omega
      · rw [if_neg hl]
        rw [if_neg (by omega)] at this
        omega

end

/-- The sizes that the example can draw for a sequence of 80000 samples. -/
example : WavPieces [20000, 31999, 16000, 12001] ∧ WavPieces [16000] ∧ ¬ WavPieces [32000, 100] := by
  refine ⟨?_, ?_, ?_⟩
  · intro k s hs
    match k with
    | 0 => cases hs; decide
    | 1 => cases hs; decide
    | 2 => cases hs; decide
    | 3 => cases hs; decide
    | k + 4 => simp at hs
  · intro k s hs
    match k with
    | 0 => cases hs; decide
    | k + 1 => simp at hs
  · intro h
    exact absurd (h 1 100 rfl) (by decide)

end DS.PipeT
