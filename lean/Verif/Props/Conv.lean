import Verif.Lemmas.ConvRun
/-! C51–C61, C90, C96: online convolution. -/

namespace DS.Conv
open Meta

section instances
variable {α : Type} [Zero α] [DecidableEq α]

instance (x : ST α) (w : Nat) (cs : List (Chunk α)) : Decidable (Packs x w cs) := by unfold Packs; infer_instance
instance (x : ST α) : Decidable (WellPacked x) := by unfold WellPacked; infer_instance
instance (w : Nat) (cs : List (Chunk α)) : Decidable (Tight w cs) := by unfold Tight; infer_instance
instance (cs : List (Chunk α)) : Decidable (BatchOK cs) := by unfold BatchOK; infer_instance
instance (cs : List (Chunk α)) : Decidable (StartsOnce cs) :=
  decidable_of_iff (∀ k : Fin cs.length, (cs[k].sos = true ↔ k.1 = 0)) (by
    unfold StartsOnce
    constructor
    · intro h k c hk
      obtain ⟨hlt, rfl⟩ := List.getElem?_eq_some_iff.1 hk
      exact h ⟨k, hlt⟩
    · intro h k
      exact h k.1 _ (List.getElem?_eq_getElem k.2))
instance (cs : List (Chunk α)) : Decidable (Open cs) := by unfold Open; infer_instance
instance (cs : List (Chunk α)) : Decidable (Complete cs) :=
  decidable_of_iff (cs ≠ [] ∧ StartsOnce cs ∧ ∀ k : Fin cs.length, (cs[k].eos = true ↔ k.1 + 1 = cs.length)) (by
    unfold Complete
    refine and_congr_right fun _ => and_congr_right fun _ => ?_
    constructor
    · intro h k c hk
      obtain ⟨hlt, rfl⟩ := List.getElem?_eq_some_iff.1 hk
      exact h ⟨k, hlt⟩
    · intro h k
      exact h k.1 _ (List.getElem?_eq_getElem k.2))
instance (cs : List (Chunk α)) (done : List (List (Chunk α))) (cur : List (Chunk α)) : Decidable (History cs done cur) := by
  unfold History; infer_instance
end instances

section
variable {α β : Type} [Zero α] [Zero β]

/-- The batches `xs` are zero-padded and exactly as wide as their longest chunk, and every stream in them follows the
protocol (complete sequences, then possibly one in progress). -/
def Schedule (xs : List (ST α)) : Prop :=
  (∀ x ∈ xs, WellPacked x ∧ BatchOK (unpack x) ∧ Tight x.width (unpack x)) ∧
    ∀ i, ∃ done cur, History (chunksOf i (xs.map unpack)) done cur

theorem schedule_invG {c : Cfg} (hv : c.Valid) {g : List α → β} {xs : List (ST α)} (h : Schedule xs)
    {ys : List (ST β)} {buf : Buf α} (hrun : run c g (fun _ => none) xs = .ok (ys, buf)) :
    InvG c g (xs.map unpack) (ys.map unpack) buf ∧ (∀ y ∈ ys, WellPacked y) ∧
      (ys.map fun y => (unpack y).map Chunk.flags) = (xs.map fun x => (unpack x).map Chunk.flags) ∧
      (∀ y ∈ ys, Tight y.width (unpack y)) := by
  have := inv_run hv xs (inv_init c g) (fun x hx => ⟨(h.1 x hx).1, (h.1 x hx).2.1, .inr (.inr (.inr (h.1 x hx).2.2.reaches))⟩)
    (by simpa using h.2) hrun
  simp only [List.nil_append] at this
  exact ⟨this.1, this.2.1, this.2.2.1, this.2.2.2 fun x hx => (h.1 x hx).2.2⟩

theorem schedule_inv {c : Cfg} (hv : c.Valid) (hs : c.stride ≤ c.kw) {g : List α → β} {xs : List (ST α)} (h : Schedule xs)
    {ys : List (ST β)} {buf : Buf α} (hrun : run c g (fun _ => none) xs = .ok (ys, buf)) :
    Inv c g (xs.map unpack) (ys.map unpack) buf ∧ (∀ y ∈ ys, WellPacked y) ∧
      (ys.map fun y => (unpack y).map Chunk.flags) = (xs.map fun x => (unpack x).map Chunk.flags) ∧
      (∀ y ∈ ys, Tight y.width (unpack y)) := by
  obtain ⟨h1, h2⟩ := schedule_invG hv h hrun
  exact ⟨h1.small hv hs, h2⟩

theorem streamed_frames {c : Cfg} {g : List α → β} {done : List (List (Chunk α))} {cur : List (Chunk α)} {outs : List (Chunk β)}
    (h : Streamed c g done cur outs) : allFrames outs = (done.flatMap fun s => offline c g (allFrames s)) ++ due c g cur := by
  obtain ⟨doneO, curO, rfl, h2, h3, -⟩ := h
  rw [allFrames_append, h3]
  congr 1
  clear h3
  induction h2 with
  | nil => rfl
  | cons h1 _ ih => rw [List.flatten_cons, allFrames_append, ih, h1.1, List.flatMap_cons]

/-- **C53.** Whatever the streams are batched with: if no call raises, then each stream's outputs are, chunk by chunk with the same
flags, the offline outputs of its complete sequences, followed by the outputs due for a sequence in progress. -/
theorem C53_schedule (c : Cfg) (hv : c.Valid) (hs : c.stride ≤ c.kw) (g : List α → β) (xs : List (ST α)) (hx : Schedule xs)
    (ys : List (ST β)) (buf : Buf α) (hrun : run c g (fun _ => none) xs = .ok (ys, buf)) :
    ys.length = xs.length ∧ (∀ y ∈ ys, WellPacked y) ∧ ∀ i done cur, History (chunksOf i (xs.map unpack)) done cur →
      Streamed c g done cur (chunksOf i (ys.map unpack)) ∧
      collected i ys = (done.flatMap fun s => offline c g (allFrames s)) ++ due c g cur := by
  obtain ⟨h1, h2, h3, -⟩ := schedule_inv hv hs hx hrun
  refine ⟨?_, h2, ?_⟩
  · have := congrArg List.length h3
    simpa using this
  · intro i done cur h
    have := h1.emitted i done cur h
    exact ⟨this, streamed_frames this⟩

/-! ### A concrete schedule -/

/-- Kernel for examples: digits of the taps. -/
def exG (l : List Int) : Int := l.foldl (fun acc t => 10 * acc + t) 0

/-- kernel_size 2, dilation 2 (width 3), stride 2, padding 1. -/
def exC : Cfg := ⟨2, 2, 2, 1⟩

/-- Two streams `a` (frames 1..5) and `b` (frames 7, 8, 9): three batches, the second one mixed and padded. -/
def exXs : List (ST Int) :=
  [ { md := ⟨["a"], [true], [false], [3], some [0]⟩, width := 3, rows := [[1, 2, 3]] },
    { md := ⟨["a", "b"], [false, true], [true, false], [2, 1], some [1, 0]⟩, width := 2, rows := [[4, 5], [7, 0]] },
    { md := ⟨["b"], [false], [true], [2], some [1]⟩, width := 2, rows := [[8, 9]] } ]

theorem exXs_schedule : Schedule exXs := by
  refine ⟨by decide, ?_⟩
  intro i
  by_cases ha : i = "a"
  · subst ha
    exact ⟨[[⟨"a", true, false, some 0, [1, 2, 3]⟩, ⟨"a", false, true, some 1, [4, 5]⟩]], [], by decide⟩
  · by_cases hb : i = "b"
    · subst hb
      exact ⟨[[⟨"b", true, false, some 0, [7]⟩, ⟨"b", false, true, some 1, [8, 9]⟩]], [], by decide⟩
    · refine ⟨[], [], ?_⟩
      have : chunksOf i (exXs.map unpack) = [] := by
        unfold chunksOf
        rw [List.filter_eq_nil_iff]
        intro x hx
        have : ∀ x ∈ (exXs.map unpack).flatten, x.id = "a" ∨ x.id = "b" := by decide
        rcases this x hx with h | h <;> simp [h, Ne.symm ha, Ne.symm hb]
      rw [this]
      exact ⟨rfl, by simp, .inl rfl⟩

example : exC.Valid ∧ exC.stride ≤ exC.kw := by decide
example : ((run exC exG (fun _ => none) exXs).map fun r => (collected "a" r.1, collected "b" r.1)) =
    .ok (offline exC exG [1, 2, 3, 4, 5], offline exC exG [7, 8, 9]) := by decide
example : offline exC exG [1, 2, 3, 4, 5] = [2, 24, 40] := by decide


/-! ### C51: one stream -/

theorem offline_call (c : Cfg) (hv : c.Valid) (g : List α → β) (buf : Buf α) (x : List α) (h : c.kw ≤ x.length + 2 * c.padding) :
    ∃ n, call c g false buf (.plain x.length [x]) = .ok (.plain n [offline c g x], buf) := by
  unfold call
  simp only [Bool.false_eq_true, if_false]
  unfold torchConv1d
  rw [if_neg (by omega)]
  refine ⟨(x.length + 2 * c.padding - c.kw) / c.stride + 1, ?_⟩
  simp only [map_ok', List.map_cons, List.map_nil]
  congr 4
  unfold offline
  rw [conv_eq c hv]
  have hl : (zeros c.padding ++ x ++ zeros c.padding : List α).length = x.length + 2 * c.padding := by simp [zeros_length]; omega
  rw [hl, show nOut c (x.length + 2 * c.padding) = (x.length + 2 * c.padding - c.kw) / c.stride + 1 by
    unfold nOut; rw [if_neg (by omega)]]
  rfl

/-- **C51.** A sequence fed to an online `Conv1d` in any chunking (no call raising) gives, concatenated, exactly what the same module
gives in offline mode for the whole sequence. -/
theorem C51_streaming (c : Cfg) (hv : c.Valid) (hs : c.stride ≤ c.kw) (g : List α → β) (i : String) (xs : List (ST α))
    (hx : ∀ x ∈ xs, WellPacked x ∧ Tight x.width (unpack x) ∧ ∃ y, unpack x = [y] ∧ y.id = i)
    (hc : Complete (chunksOf i (xs.map unpack)))
    (ys : List (ST β)) (buf : Buf α) (hrun : run c g (fun _ => none) xs = .ok (ys, buf)) :
    collected i ys = offline c g (collected i xs) ∧
    ∀ buf0, ∃ n, call c g false buf0 (.plain (collected i xs).length [collected i xs]) = .ok (.plain n [collected i ys], buf0) := by
  have hsch : Schedule xs := by
    refine ⟨?_, ?_⟩
    · intro x hxm
      obtain ⟨h1, h2, y, h3, h4⟩ := hx x hxm
      exact ⟨h1, by rw [h3]; exact ⟨by simp, by simp, .inl rfl⟩, h2⟩
    · intro j
      by_cases hj : j = i
      · subst hj
        exact ⟨[chunksOf j (xs.map unpack)], [], by simpa [History] using hc⟩
      · refine ⟨[], [], ?_⟩
        have : chunksOf j (xs.map unpack) = [] := by
          unfold chunksOf
          rw [List.filter_eq_nil_iff]
          intro z hz
          obtain ⟨l, hl, hzl⟩ := List.mem_flatten.1 hz
          obtain ⟨x, hxm, rfl⟩ := List.mem_map.1 hl
          obtain ⟨-, -, y, h3, h4⟩ := hx x hxm
          rw [h3] at hzl
          simp at hzl
          subst hzl
          simp [h4, Ne.symm hj]
        rw [this]
        exact ⟨rfl, by simp, .inl rfl⟩
  have h1 : collected i ys = offline c g (collected i xs) := by
    have := (C53_schedule c hv hs g xs hsch ys buf hrun).2.2 i [chunksOf i (xs.map unpack)] [] (by simp [History]; exact hc)
    rw [this.2]
    simp [due]
    rfl
  refine ⟨h1, ?_⟩
  intro buf0
  rw [h1]
  apply offline_call c hv
  cases xs with
  | nil => exact absurd rfl hc.1
  | cons x xs =>
    simp only [run] at hrun
    obtain ⟨o, ho, -⟩ := bind_ok_iff hrun
    obtain ⟨a1, a2, y, a3, a4⟩ := hx x (by simp)
    have hpk := packs_pk a1
    rw [a3] at hpk
    rw [hpk] at ho
    have hbatch : BatchOK [y] := ⟨by simp, by simp, .inl rfl⟩
    have hproto : ∀ j, ∃ done cur, History (chunksOf j ([] ++ [[y]])) done cur := by
      intro j
      have := hsch.2 j
      rw [List.map_cons, a3, ← List.singleton_append, chunksOf_append] at this
      exact history_prefix _ _ this
    have hw : ∀ z ∈ [y], z.frames.length ≤ x.width := by have := a1.2.2.2.1; rwa [a3] at this
    have hpre := inv_preOK (inv_init c g) hbatch hw hproto
    obtain ⟨w', b1, b2, b3⟩ := forward_pk c hv g (fun _ => none) x.md.chunk.isSome x.width [y] (by simp) hpre
      (.inr (.inr (.inr (Tight.reaches (by rw [← a3]; exact a2)))))
    rw [b3] at ho
    split at ho
    · simp at ho
    · split at ho
      · simp at ho
      · rename_i hk
        obtain ⟨z, hz, hzw⟩ := b2 (by rw [← a3]; exact a2)
        simp at hz
        subst hz
        rw [inp_length] at hzw
        simp only [Option.getD_none, List.length_nil] at hzw
        have hfr : z.frames.length ≤ (collected i (x :: xs)).length := by
          unfold collected
          rw [List.map_cons, a3, ← List.singleton_append, chunksOf_append, allFrames_append, ← a4,
            chunksOf_single_mem [z] (by simp) z (by simp), allFrames_single]
          simp
        split at hzw <;> split at hzw <;> omega

/-- One stream in three chunks, the second of them empty. -/
def exOne : List (ST Int) :=
  [ { md := ⟨["a"], [true], [false], [3], none⟩, width := 3, rows := [[1, 2, 3]] },
    { md := ⟨["a"], [false], [false], [1], none⟩, width := 1, rows := [[4]] },
    { md := ⟨["a"], [false], [true], [0], none⟩, width := 0, rows := [[]] } ]

example : (∀ x ∈ exOne, WellPacked x ∧ Tight x.width (unpack x) ∧ ∃ y, unpack x = [y] ∧ y.id = "a") ∧
    Complete (chunksOf "a" (exOne.map unpack)) := by
  refine ⟨?_, by decide⟩
  intro x hx
  refine ⟨(by decide : ∀ x ∈ exOne, WellPacked x) x hx, (by decide : ∀ x ∈ exOne, Tight x.width (unpack x)) x hx, ?_⟩
  simp only [exOne, List.mem_cons, List.not_mem_nil, or_false] at hx
  rcases hx with rfl | rfl | rfl
  · exact ⟨⟨"a", true, false, none, [1, 2, 3]⟩, by decide⟩
  · exact ⟨⟨"a", false, false, none, [4]⟩, by decide⟩
  · exact ⟨⟨"a", false, true, none, []⟩, by decide⟩
example : ((run ⟨2, 2, 1, 1⟩ exG (fun _ => none) exOne).map fun r => collected "a" r.1) = .ok (offline ⟨2, 2, 1, 1⟩ exG [1, 2, 3, 4]) := by decide

/-! ### C52 -/

/-- **C52 is false of the code.** With a stride beyond the kernel width (kernel 1, stride 2) feeding two frames one at a time gives
two outputs, offline gives one. -/
theorem C52_large_stride_false :
    Schedule [({ md := ⟨["a"], [true], [false], [1], none⟩, width := 1, rows := [[5]] } : ST Int),
      { md := ⟨["a"], [false], [true], [1], none⟩, width := 1, rows := [[6]] }] ∧
    ((run ⟨1, 1, 2, 0⟩ exG (fun _ => none) [({ md := ⟨["a"], [true], [false], [1], none⟩, width := 1, rows := [[5]] } : ST Int),
      { md := ⟨["a"], [false], [true], [1], none⟩, width := 1, rows := [[6]] }]).map fun r => collected "a" r.1) = .ok [5, 6] ∧
    offline ⟨1, 1, 2, 0⟩ exG [(5 : Int), 6] = [5] := by
  refine ⟨⟨by decide, ?_⟩, by decide, by decide⟩
  intro i
  by_cases ha : i = "a"
  · subst ha
    exact ⟨[[⟨"a", true, false, none, [5]⟩, ⟨"a", false, true, none, [6]⟩]], [], by decide⟩
  · refine ⟨[], [], ?_⟩
    have : chunksOf i ([({ md := ⟨["a"], [true], [false], [1], none⟩, width := 1, rows := [[5]] } : ST Int),
      { md := ⟨["a"], [false], [true], [1], none⟩, width := 1, rows := [[6]] }].map unpack) = [] := by
      unfold chunksOf
      rw [List.filter_eq_nil_iff]
      intro x hx
      have : ∀ x ∈ ([({ md := ⟨["a"], [true], [false], [1], none⟩, width := 1, rows := [[5]] } : ST Int),
        { md := ⟨["a"], [false], [true], [1], none⟩, width := 1, rows := [[6]] }].map unpack).flatten, x.id = "a" := by decide
      simp [this x hx, Ne.symm ha]
    rw [this]
    exact ⟨rfl, by simp, .inl rfl⟩

/-- C52, exactly: for every stride and schedule (no call raising), the outputs of each complete sequence are those of a convolution that starts over after
every chunk that ends inside a gap between two kernel positions; likewise for a sequence in progress.
Missing: the offline output, which would skip the frames from such a boundary to the next kernel position. -/
theorem C52_large_stride_partial (c : Cfg) (hv : c.Valid) (g : List α → β) (xs : List (ST α)) (hx : Schedule xs)
    (ys : List (ST β)) (buf : Buf α) (hrun : run c g (fun _ => none) xs = .ok (ys, buf)) (i : String) (done : List (List (Chunk α))) (cur : List (Chunk α))
    (hh : History (chunksOf i (xs.map unpack)) done cur) :
    collected i ys = (done.flatMap fun s => restarts c g (zeros c.padding) (zeros c.padding) (s.map (·.frames))) ++
      restarts c g [] (zeros c.padding) (cur.map (·.frames)) := by
  obtain ⟨doneO, curO, h1, h2, h3, -⟩ := (schedule_invG hv hx hrun).1.emitted i done cur hh
  unfold collected
  rw [h1, allFrames_append, h3]
  congr 1
  clear h1 h3 hh
  induction h2 with
  | nil => rfl
  | cons h1 _ ih => rw [List.flatten_cons, allFrames_append, ih, h1.1, List.flatMap_cons]

/-- C52, where it holds: for every stride, a complete sequence none of whose chunks (but the last) ends inside a gap gives its offline output; in particular
one that arrives in a single chunk, and every sequence if the stride is at most the kernel width.
Missing: sequences with a chunk that ends inside a gap. -/
theorem C52_clear_partial (c : Cfg) (hv : c.Valid) (g : List α → β) (xs : List (ST α)) (hx : Schedule xs)
    (ys : List (ST β)) (buf : Buf α) (hrun : run c g (fun _ => none) xs = .ok (ys, buf)) (i : String) (hc : Complete (chunksOf i (xs.map unpack)))
    (hclear : ∀ p q : List (Chunk α), chunksOf i (xs.map unpack) = p ++ q → p ≠ [] → q ≠ [] →
      ¬ ∃ k, k * c.stride + span c ≤ c.padding + (allFrames p).length ∧ c.padding + (allFrames p).length < (k + 1) * c.stride) :
    collected i ys = offline c g (collected i xs) := by
  have := C52_large_stride_partial c hv g xs hx ys buf hrun i [chunksOf i (xs.map unpack)] [] ⟨by simp, by simpa using hc, .inl rfl⟩
  rw [this]
  simp only [List.flatMap_cons, List.flatMap_nil, List.map_nil, restarts, List.append_nil]
  exact restarts_offline hclear hc.1 g

theorem conv_same (c : Cfg) (hv : c.Valid) (g : List α → β) (a b : List α) (h : nOut c (a ++ b).length = nOut c a.length) : conv c g (a ++ b) = conv c g a := by
  rw [conv_eq c hv, conv_eq c hv, h]
  apply List.map_congr_left
  intro j hj
  have hj := (lt_nOut c hv _ _).1 (List.mem_range.1 hj)
  apply at'_congr c hv
  intro t ht
  exact getD_append_left' a b _ (by omega)

theorem conv_gap (c : Cfg) (hv : c.Valid) (g : List α → β) (a b : List α) (k : Nat) (hn : nOut c a.length = k + 1) (hk : a.length < (k + 1) * c.stride) :
    conv c g (a ++ b) = conv c g a ++ conv c g (b.drop ((k + 1) * c.stride - a.length)) := by
  have hkw := kw_pos c hv
  have same : ∀ x : List α, a.length + x.length ≤ (k + 1) * c.stride → nOut c (a ++ x).length = k + 1 := by
    intro x hx
    have h1 := (lt_nOut c hv (a ++ x).length k).2 (by
      have := (lt_nOut c hv a.length k).1 (by omega)
      rw [List.length_append]; omega)
    have h2 : ¬ k + 1 < nOut c (a ++ x).length := by
      rw [lt_nOut c hv, List.length_append]; omega
    omega
  by_cases hd : b.length ≤ (k + 1) * c.stride - a.length
  · rw [List.drop_eq_nil_of_le hd, conv_same c hv g a b (by rw [same b (by omega), hn])]
    have : conv c g ([] : List α) = [] := by
      apply List.length_eq_zero_iff.1
      rw [conv_length c hv]
      unfold nOut
      rw [if_pos (by simp only [List.length_nil]; omega)]
    rw [this, List.append_nil]
  · have ht : (b.take ((k + 1) * c.stride - a.length)).length = (k + 1) * c.stride - a.length := by rw [List.length_take]; omega
    have hs := same (b.take ((k + 1) * c.stride - a.length)) (by omega)
    have hl : (a ++ b.take ((k + 1) * c.stride - a.length)).length = (k + 1) * c.stride := by rw [List.length_append, ht]; omega
    conv_lhs => rw [← List.take_append_drop ((k + 1) * c.stride - a.length) b, ← List.append_assoc]
    rw [conv_append c hv g _ _ (by rw [hs, hl]), hs, List.drop_eq_nil_of_le (by omega), List.nil_append, conv_same c hv g a _ (by rw [hs, hn])]

/-- C52, the failure in closed form: when the one chunk that ends inside a gap is followed by the rest of the sequence, the outputs after it are those of the
rest alone, while offline the frames up to the next kernel position are skipped first. Missing: the equality with the offline output, which fails as described. -/
theorem C52_gap_partial (c : Cfg) (hv : c.Valid) (g : List α → β) (xs : List (ST α)) (hx : Schedule xs)
    (ys : List (ST β)) (buf : Buf α) (hrun : run c g (fun _ => none) xs = .ok (ys, buf)) (i : String) (a b : Chunk α)
    (hc : chunksOf i (xs.map unpack) = [a, b]) (ha : a.sos = true ∧ a.eos = false) (hb : b.sos = false ∧ b.eos = true) (k : Nat)
    (hk : k * c.stride + span c ≤ c.padding + a.frames.length ∧ c.padding + a.frames.length < (k + 1) * c.stride) :
    collected i ys = conv c g (zeros c.padding ++ a.frames) ++ conv c g (b.frames ++ zeros c.padding) ∧
    offline c g (collected i xs) = conv c g (zeros c.padding ++ a.frames) ++
      conv c g ((b.frames ++ zeros c.padding).drop ((k + 1) * c.stride - (c.padding + a.frames.length))) := by
  have hcomp : Complete [a, b] := by
    refine ⟨by simp, ?_, ?_⟩
    · intro j y hj
      match j with
      | 0 => simp at hj; subst hj; simp [ha.1]
      | 1 => simp at hj; subst hj; simp [hb.1]
      | j + 2 => simp at hj
    · intro j y hj
      match j with
      | 0 => simp at hj; subst hj; simp [ha.2]
      | 1 => simp at hj; subst hj; simp [hb.2]
      | j + 2 => simp at hj
  have hlen : (zeros c.padding ++ a.frames : List α).length = c.padding + a.frames.length := by simp [zeros_length]
  have hgap : Gap c (zeros c.padding ++ a.frames : List α).length := by rw [hlen]; exact ⟨k, hk⟩
  constructor
  · have := C52_large_stride_partial c hv g xs hx ys buf hrun i [[a, b]] [] ⟨by simp [hc], by simpa using hcomp, .inl rfl⟩
    rw [this]
    simp only [List.flatMap_cons, List.flatMap_nil, List.map_nil, List.map_cons, restarts, List.append_nil, if_pos hgap, List.nil_append]
  · have hf : collected i xs = a.frames ++ b.frames := by unfold collected; rw [hc]; simp [allFrames]
    have hn : nOut c (zeros c.padding ++ a.frames : List α).length = k + 1 := by
      have h1 := (lt_nOut c hv (zeros c.padding ++ a.frames : List α).length k).2 (by rw [← span_eq c hv, hlen]; exact hk.1)
      have h2 : ¬ k + 1 < nOut c (zeros c.padding ++ a.frames : List α).length := by
        rw [lt_nOut c hv]; omega
      omega
    rw [hf]
    unfold offline
    rw [show (zeros c.padding ++ (a.frames ++ b.frames) ++ zeros c.padding : List α) = (zeros c.padding ++ a.frames) ++ (b.frames ++ zeros c.padding) by simp,
      conv_gap c hv g _ _ k hn (by omega), hlen]

/-- One stream in two chunks of four frames. With kernel 2 and stride 3 the first chunk ends inside a window, with stride 5 inside a gap. -/
def exTwo : List (ST Int) :=
  [ { md := ⟨["a"], [true], [false], [4], none⟩, width := 4, rows := [[1, 2, 3, 4]] },
    { md := ⟨["a"], [false], [true], [4], none⟩, width := 4, rows := [[5, 6, 7, 8]] } ]

theorem exTwo_schedule : Schedule exTwo := by
  refine ⟨by decide, fun i => ?_⟩
  by_cases ha : i = "a"
  · subst ha
    exact ⟨[[⟨"a", true, false, none, [1, 2, 3, 4]⟩, ⟨"a", false, true, none, [5, 6, 7, 8]⟩]], [], by decide⟩
  · refine ⟨[], [], ?_⟩
    have : chunksOf i (exTwo.map unpack) = [] := by
      unfold chunksOf
      rw [List.filter_eq_nil_iff]
      intro x hx
      have : ∀ x ∈ (exTwo.map unpack).flatten, x.id = "a" := by decide
      simp [this x hx, Ne.symm ha]
    rw [this]
    exact ⟨rfl, by simp, .inl rfl⟩

example : Complete (chunksOf "a" (exTwo.map unpack)) ∧
    ((run ⟨2, 1, 3, 0⟩ exG (fun _ => none) exTwo).map fun r => collected "a" r.1) = .ok [12, 45, 78] ∧ offline ⟨2, 1, 3, 0⟩ exG (collected "a" exTwo) = [12, 45, 78] ∧
    ((run ⟨2, 1, 5, 0⟩ exG (fun _ => none) exTwo).map fun r => collected "a" r.1) = .ok [12, 56] ∧ offline ⟨2, 1, 5, 0⟩ exG (collected "a" exTwo) = [12, 67] := by decide
example : (chunksOf "a" (exTwo.map unpack) = [⟨"a", true, false, none, [1, 2, 3, 4]⟩, ⟨"a", false, true, none, [5, 6, 7, 8]⟩]) ∧
    (0 * 5 + span ⟨2, 1, 5, 0⟩ ≤ 0 + 4 ∧ 0 + 4 < (0 + 1) * 5) ∧
    ∀ k, ¬ (k * 3 + span ⟨2, 1, 3, 0⟩ ≤ 0 + 4 ∧ 0 + 4 < (k + 1) * 3) := by
  refine ⟨by decide, by decide, fun k => ?_⟩
  rw [show span ⟨2, 1, 3, 0⟩ = 2 by decide]
  omega

/-! ### C54 -/

/-- **C54.** After any prefix of a stream the outputs emitted so far are exactly the offline outputs (of the sequence however it
continues) at those kernel positions that lie within the start padding and the frames received so far. -/
theorem C54_earliest (c : Cfg) (hv : c.Valid) (hs : c.stride ≤ c.kw) (g : List α → β) (xs : List (ST α)) (hx : Schedule xs)
    (ys : List (ST β)) (buf : Buf α) (hrun : run c g (fun _ => none) xs = .ok (ys, buf)) (i : String)
    (hopen : Open (chunksOf i (xs.map unpack))) (rest : List α) :
    collected i ys = (fits c (c.padding + (collected i xs).length)).map fun k =>
        at' c g (zeros c.padding ++ (collected i xs ++ rest) ++ zeros c.padding) (k * c.stride) := by
  have h := ((C53_schedule c hv hs g xs hx ys buf hrun).2.2 i [] (chunksOf i (xs.map unpack)) ⟨by simp, by simp, .inr hopen⟩).2
  rw [h]
  simp only [List.flatMap_nil, List.nil_append, due, if_neg hopen.1]
  unfold conv
  have hl : (zeros c.padding ++ allFrames (chunksOf i (xs.map unpack)) : List α).length = c.padding + (collected i xs).length := by
    simp [zeros_length, collected]
  rw [hl]
  apply List.map_congr_left
  intro k hk
  rw [fits_eq c hv] at hk
  have hk := (lt_nOut c hv _ _).1 (List.mem_range.1 hk)
  apply at'_congr c hv
  intro j hj
  have : (zeros c.padding ++ (collected i xs ++ rest) ++ zeros c.padding : List α) =
      (zeros c.padding ++ allFrames (chunksOf i (xs.map unpack))) ++ (rest ++ zeros c.padding) := by simp [collected]
  rw [this, getD_append_left' (zeros c.padding ++ allFrames (chunksOf i (xs.map unpack))) _ _ (by rw [hl]; omega)]

example : Open (chunksOf "a" ((exXs.take 1).map unpack)) ∧
    ((run exC exG (fun _ => none) (exXs.take 1)).map fun r => collected "a" r.1) = .ok [2] := by decide

/-! ### C55 -/

/-- **C55.** Whatever an online convolution is fed with, each buffer is shorter than the kernel. -/
theorem C55_buffer_small (c : Cfg) (hv : c.Valid) (g : List α → β) (xs : List (ST α)) (ys : List (ST β)) (buf : Buf α)
    (hrun : run c g (fun _ => none) xs = .ok (ys, buf)) (i : String) (f : List α) (hf : buf i = some f) : f.length < c.kw := by
  have hkw := kw_pos c hv
  have hitem : ∀ (ids : List String) (es : List Bool) (ls : List Int) (rs : List (List α)), ∀ kv ∈ bufItems c ids es ls rs, kv.2.length < c.kw := by
    intro ids
    induction ids with
    | nil => intro es ls rs kv h; simp [bufItems] at h
    | cons id ids ih =>
      intro es ls rs kv h
      cases es with
      | nil => simp [bufItems] at h
      | cons e es =>
        cases ls with
        | nil => simp [bufItems] at h
        | cons l ls =>
          cases rs with
          | nil => simp [bufItems] at h
          | cons r rs =>
            simp only [bufItems, List.mem_append] at h
            rcases h with h | h
            · unfold bufItem at h
              cases e with
              | true => simp at h
              | false =>
                simp only [Bool.false_eq_true, if_false, Option.toList_some, List.mem_singleton] at h
                subst h
                simp only [List.length_drop, List.length_take]
                have h1 : min l.toNat r.length ≤ l.toNat := Nat.min_le_left _ _
                have h2 := leftover_lt c hv l.toNat
                by_cases hl : l ≤ 0
                · omega
                · have h3 : outLen c l = (nOut c l.toNat : Int) := by
                    rw [← outLen_eq c hv]; congr 1; omega
                  rw [h3, show ((nOut c l.toNat : Int) * (c.stride : Int)).toNat = nOut c l.toNat * c.stride by
                    rw [← Int.natCast_mul]; exact Int.toNat_natCast _]
                  omega
            · exact ih es ls rs kv h
  have hstep : ∀ (buf : Buf α) (x : ST α) (o : Out α β), (∀ i f, buf i = some f → f.length < c.kw) → forward c g buf x = .ok o →
      ∀ i f, o.buf i = some f → f.length < c.kw := by
    intro buf x o hbuf ho
    unfold forward at ho
    obtain ⟨⟨x', sh⟩, -, ho⟩ := bind_ok_iff ho
    obtain ⟨⟨y, its⟩, hc1, ho⟩ := bind_ok_iff ho
    simp only [Except.ok.injEq] at ho
    subst ho
    have hits : ∀ kv ∈ its, kv.2.length < c.kw := by
      unfold conv1d at hc1
      obtain ⟨⟨m, p, w, rows⟩, -, hc1⟩ := bind_ok_iff hc1
      obtain ⟨⟨n, yy⟩, -, hc1⟩ := bind_ok_iff hc1
      simp only [Except.ok.injEq, Prod.mk.injEq] at hc1
      rw [← hc1.2]
      unfold tempBuffer
      split
      · exact hitem _ _ _ _
      · simp
    have hup : ∀ (its : List (String × List α)) (buf : Buf α), (∀ kv ∈ its, kv.2.length < c.kw) → (∀ i f, buf i = some f → f.length < c.kw) →
        ∀ i f, update buf its i = some f → f.length < c.kw := by
      intro its
      induction its with
      | nil => intro buf _ h; exact h
      | cons kv its ih =>
        intro buf h1 h2
        apply ih _ (fun k hk => h1 k (by simp [hk]))
        intro i f hif
        simp only at hif
        split at hif
        · simp only [Option.some.injEq] at hif
          subst hif
          exact h1 kv (by simp)
        · exact h2 i f hif
    intro i f hif
    simp only [postHook] at hif
    split at hif
    · unfold dropEnded at hif
      rw [dropEnded_go] at hif
      split at hif
      · simp at hif
      · exact hup its buf hits hbuf i f hif
    · exact hup its buf hits hbuf i f hif
  have hall : ∀ (xs : List (ST α)) (buf : Buf α) (ys : List (ST β)) (buf' : Buf α), (∀ i f, buf i = some f → f.length < c.kw) →
      run c g buf xs = .ok (ys, buf') → ∀ i f, buf' i = some f → f.length < c.kw := by
    intro xs
    induction xs with
    | nil =>
      intro buf ys buf' hb hr
      simp only [run, Except.ok.injEq, Prod.mk.injEq] at hr
      rw [← hr.2]; exact hb
    | cons x xs ih =>
      intro buf ys buf' hb hr
      simp only [run] at hr
      obtain ⟨o, ho, hr⟩ := bind_ok_iff hr
      obtain ⟨⟨ys', b'⟩, hr', hr⟩ := bind_ok_iff hr
      simp only [Except.ok.injEq, Prod.mk.injEq] at hr
      rw [← hr.2]
      exact ih o.buf ys' b' (hstep buf x o hb ho) hr'
  exact hall xs (fun _ => none) ys buf (by simp) hrun i f hf

example : ((run ⟨2, 2, 1, 1⟩ exG (fun _ => none) (exXs.take 2)).map fun r => (r.2 "a", r.2 "b")) = .ok (none, some [0, 7]) := by decide

/-! ### C56 -/

theorem history_last {cs : List (Chunk α)} {done : List (List (Chunk α))} {cur : List (Chunk α)} (h : History cs done cur) :
    cur ≠ [] ↔ ∃ x, cs.getLast? = some x ∧ x.eos = false := by
  rcases List.eq_nil_or_concat cs with hc | ⟨cs', x, hc⟩
  · subst hc
    obtain ⟨-, rfl⟩ := history_nil h
    simp
  · rw [List.concat_eq_append] at hc
    subst hc
    obtain ⟨d', c', -, -, hcase⟩ := history_concat h
    rcases hcase with ⟨he, -, hcu⟩ | ⟨he, -, hcu⟩
    · simp [hcu, he]
    · simp [hcu, he]

/-- **C56.** After any schedule a `Conv1d` with kernel width > 1 holds a buffer for exactly those ids whose latest chunk was not the
last one of its sequence. -/
theorem C56_open_streams (c : Cfg) (hv : c.Valid) (hk : c.kw > 1) (g : List α → β) (xs : List (ST α)) (hx : Schedule xs)
    (ys : List (ST β)) (buf : Buf α) (hrun : run c g (fun _ => none) xs = .ok (ys, buf)) (i : String) :
    (buf i).isSome = true ↔ ∃ x, (chunksOf i (xs.map unpack)).getLast? = some x ∧ x.eos = false := by
  obtain ⟨hinv, -⟩ := schedule_invG hv hx hrun
  obtain ⟨done, cur, h⟩ := hx.2 i
  rw [← history_last h]
  constructor
  · intro hb hc
    rw [hinv.closed i done cur h hc] at hb
    simp at hb
  · intro hc
    exact (hinv.opened i done cur h hc).2 hk

example : exC.kw > 1 ∧ ((run exC exG (fun _ => none) (exXs.take 2)).map fun r => ((r.2 "a").isSome, (r.2 "b").isSome, (r.2 "c").isSome)) =
    .ok (false, true, false) := by decide

/-! ### C57 -/

/-- **C57**, zeros: at and beyond a row's output length the output is zero, for every input and module state. -/
theorem C57_zero (c : Cfg) (g : List α → β) (buf : Buf α) (x : ST α) (o : Out α β) (ho : forward c g buf x = .ok o)
    (k j : Nat) (l : Int) (r : List β) (v : β) (hl : o.y.md.lengths[k]? = some l) (hr : o.y.rows[k]? = some r) (hv : r[j]? = some v)
    (hj : l ≤ j) : v = 0 := by
  unfold forward at ho
  obtain ⟨⟨x', sh⟩, -, ho⟩ := bind_ok_iff ho
  obtain ⟨⟨y, its⟩, hc1, ho⟩ := bind_ok_iff ho
  simp only [Except.ok.injEq] at ho
  subst ho
  unfold conv1d at hc1
  obtain ⟨⟨m, p, w, rows⟩, -, hc1⟩ := bind_ok_iff hc1
  obtain ⟨⟨n, yy⟩, -, hc1⟩ := bind_ok_iff hc1
  simp only [Except.ok.injEq, Prod.mk.injEq] at hc1
  obtain ⟨rfl, -⟩ := hc1
  simp only at hl hr
  rw [List.getElem?_zipWith, hl] at hr
  cases hy : yy[k]? with
  | none => simp [hy] at hr
  | some r0 =>
    simp [hy] at hr
    subst hr
    rw [maskRow_get] at hv
    cases h0 : r0[j]? with
    | none => simp [h0] at hv
    | some v0 =>
      simp [h0] at hv
      rw [← hv, if_neg (by omega)]

/-- **C57**, lengths: for a zero-padded batch in any schedule, each row's output length is the number of kernel positions that fit in
what the kernel sees of it (start padding or buffered frames, the chunk, end padding), and its valid outputs are the kernel at these positions. -/
theorem C57_lengths (c : Cfg) (hv : c.Valid) (g : List α → β) (xs : List (ST α)) (x : ST α) (hx : Schedule (xs ++ [x]))
    (ys : List (ST β)) (buf : Buf α) (hrun : run c g (fun _ => none) xs = .ok (ys, buf)) (o : Out α β) (ho : forward c g buf x = .ok o) :
    o.y.md.lengths = (unpack x).map (fun y => ((fits c (inp c buf y).length).length : Int)) ∧
    (unpack o.y).map (·.frames) = (unpack x).map fun y => (fits c (inp c buf y).length).map fun k => at' c g (inp c buf y) (k * c.stride) := by
  have hx' : Schedule xs := by
    refine ⟨fun z hz => hx.1 z (by simp [hz]), fun i => ?_⟩
    have := hx.2 i
    rw [List.map_append, chunksOf_append] at this
    exact history_prefix _ _ this
  obtain ⟨hinv, -⟩ := schedule_invG hv hx' hrun
  obtain ⟨a1, a2, a3⟩ := hx.1 x (by simp)
  have hpre := inv_preOK hinv a2 a1.2.2.2.1 (by simpa using hx.2)
  rw [packs_pk a1] at ho
  obtain ⟨b', w', h1, hb', h2, -⟩ := forward_ok c hv g _ _ _ _ a2.1 hpre (.inr (.inr (.inr a3.reaches))) a2.2.1 o ho
  rw [h1]
  constructor
  · rw [pk_lengths, List.map_map]
    apply List.map_congr_left
    intro y _
    simp [Chunk.set, conv]
  · rw [unpack_pk]
    · rw [List.map_map]
      rfl
    · intro z hz
      obtain ⟨y, hy, rfl⟩ := List.mem_map.1 hz
      have hidx := packs_index a1 y hy
      simp only [Chunk.set]
      cases hbb : b' with
      | false => simp
      | true =>
        rw [hbb] at hb'
        have := (Bool.and_eq_true _ _ ▸ hb'.symm : _ ∧ _).1
        simp [hidx, this]

example : ((run exC exG (fun _ => none) exXs).map fun r => r.1.map fun y => (y.md.lengths, y.rows)) =
    .ok [([1], [[2]]), ([2, 0], [[24, 40], [0, 0]]), ([2], [[8, 80]])] := by decide

end
end DS.Conv
