import Verif.Props.Collector
/-! C97: online convolution followed by the output collector. -/

namespace DS.Coll
open Meta Conv

section
variable {α β : Type} [Zero α] [Zero β]

/-- **C97 is false of the code.** A schedule that runs through without an exception, but where the first output of `b` is empty: the
collector skips it and then refuses the rest of `b`. -/
theorem C97_collect_false :
    Schedule [({ md := ⟨["a", "b"], [true, true], [true, false], [3, 1], none⟩, width := 3, rows := [[1, 2, 3], [7, 0, 0]] } : ST Int),
      { md := ⟨["b"], [false], [true], [2], none⟩, width := 2, rows := [[8, 9]] }] ∧
    ((run ⟨2, 1, 1, 0⟩ exG (fun _ => none) [({ md := ⟨["a", "b"], [true, true], [true, false], [3, 1], none⟩, width := 3, rows := [[1, 2, 3], [7, 0, 0]] } : ST Int),
      { md := ⟨["b"], [false], [true], [2], none⟩, width := 2, rows := [[8, 9]] }]).map fun r =>
        ((update Coll.new (r.1.map Item.batch)).2, (update Coll.new (r.1.map Item.batch)).1.entries "b")) = .ok (some .valueError, none) ∧
    offline ⟨2, 1, 1, 0⟩ exG [(7 : Int), 8, 9] = [78, 89] := by
  refine ⟨⟨by decide, ?_⟩, by decide, by decide⟩
  intro i
  by_cases ha : i = "a"
  · subst ha
    exact ⟨[[⟨"a", true, true, none, [1, 2, 3]⟩]], [], by decide⟩
  · by_cases hb : i = "b"
    · subst hb
      exact ⟨[[⟨"b", true, false, none, [7]⟩, ⟨"b", false, true, none, [8, 9]⟩]], [], by decide⟩
    · refine ⟨[], [], ?_⟩
      have : chunksOf i ([({ md := ⟨["a", "b"], [true, true], [true, false], [3, 1], none⟩, width := 3, rows := [[1, 2, 3], [7, 0, 0]] } : ST Int),
          { md := ⟨["b"], [false], [true], [2], none⟩, width := 2, rows := [[8, 9]] }].map unpack) = [] := by
        unfold chunksOf
        rw [List.filter_eq_nil_iff]
        intro x hx
        have : ∀ x ∈ ([({ md := ⟨["a", "b"], [true, true], [true, false], [3, 1], none⟩, width := 3, rows := [[1, 2, 3], [7, 0, 0]] } : ST Int),
          { md := ⟨["b"], [false], [true], [2], none⟩, width := 2, rows := [[8, 9]] }].map unpack).flatten, x.id = "a" ∨ x.id = "b" := by decide
        rcases this x hx with h | h <;> simp [h, Ne.symm ha, Ne.symm hb]
      rw [this]
      exact ⟨rfl, by simp, .inl rfl⟩

theorem chunksOf_flags {a : List (List (Chunk α))} {b : List (List (Chunk β))} (h : a.map (·.map Chunk.flags) = b.map (·.map Chunk.flags)) (i : String) :
    (chunksOf i a).map Chunk.flags = (chunksOf i b).map Chunk.flags := by
  have h1 : a.flatten.map Chunk.flags = b.flatten.map Chunk.flags := by
    rw [List.map_flatten, List.map_flatten, h]
  have h2 : ∀ {γ : Type} (l : List (Chunk γ)), (l.filter fun c => decide (c.id = i)).map Chunk.flags =
      (l.map Chunk.flags).filter fun f => decide (f.1 = i) := by
    intro γ l
    rw [List.filter_map]
    rfl
  unfold chunksOf
  rw [h2, h2, h1]

theorem stream_flags {a : List (Chunk α)} {b : List (Chunk β)} (h : b.map Chunk.flags = a.map Chunk.flags)
    (hs : StartsOnce a) (he : ∀ k c, a[k]? = some c → c.eos = true → k + 1 = a.length) (hi : ∀ c ∈ b, c.index.isSome = false) : Stream b := by
  have hl : b.length = a.length := by simpa using congrArg List.length h
  have hk : ∀ (k : Nat) (c : Chunk β), b[k]? = some c → ∃ c' : Chunk α, a[k]? = some c' ∧ c'.sos = c.sos ∧ c'.eos = c.eos := by
    intro k c hc
    have h1 := congrArg (·[k]?) h
    simp only [List.getElem?_map, hc, Option.map_some] at h1
    cases hy : a[k]? with
    | none => simp [hy] at h1
    | some y =>
      simp only [hy, Option.map_some, Option.some.injEq, Chunk.flags, Prod.mk.injEq] at h1
      exact ⟨y, rfl, h1.2.1.symm, h1.2.2.symm⟩
  refine ⟨?_, ?_, .inr hi⟩
  · intro k c hc
    obtain ⟨c', h1, h2, -⟩ := hk k c hc
    rw [← h2]
    exact hs k c' h1
  · intro k c hc hce
    obtain ⟨c', h1, -, h2⟩ := hk k c hc
    rw [hl]
    exact he k c' h1 (by rw [h2]; exact hce)

theorem run_chunk_none {c : Cfg} {g : List α → β} {xs : List (ST α)} {buf : Buf α} {ys : List (ST β)} {b : Buf α}
    (h : run c g buf xs = .ok (ys, b)) (hx : ∀ x ∈ xs, x.md.chunk = none) : ∀ y ∈ ys, y.md.chunk = none := by
  induction xs generalizing buf ys b with
  | nil =>
    simp only [run, Except.ok.injEq, Prod.mk.injEq] at h
    rw [← h.1]; simp
  | cons x xs ih =>
    simp only [run] at h
    obtain ⟨o, ho, h⟩ := bind_ok_iff h
    obtain ⟨⟨ys', b'⟩, h', h⟩ := bind_ok_iff h
    simp only [Except.ok.injEq, Prod.mk.injEq] at h
    rw [← h.1]
    intro y hy
    rcases List.mem_cons.1 hy with rfl | hy
    · unfold forward at ho
      obtain ⟨⟨x', s⟩, h1, ho⟩ := bind_ok_iff ho
      obtain ⟨⟨y, its⟩, h2, ho⟩ := bind_ok_iff ho
      simp only [Except.ok.injEq] at ho
      subst ho
      obtain ⟨p1, p2, -⟩ := preHook_md h1
      simp only [(conv1d_md h2).2.2.2]
      by_cases hc : c.kw > 1 ∧ x.md.allStarting = false ∧ sameLengths (x.md.ids.map buf) = false
      · exact p2 hc
      · rw [(p1 hc).2.2.2]
        exact hx x (by simp)
    · exact ih h' (fun z hz => hx z (by simp [hz])) y hy

/-- The outputs of such a run are well-formed streams in zero-padded batches. -/
theorem run_streams {c : Cfg} (hv : c.Valid) {g : List α → β} {xs : List (ST α)} (hx : Schedule xs)
    (hidx : ∀ x ∈ xs, x.md.chunk = none) (hone : ∀ i, chunksOf i (xs.map unpack) ≠ [] → Complete (chunksOf i (xs.map unpack)))
    {ys : List (ST β)} {buf : Buf α} (hrun : run c g (fun _ => none) xs = .ok (ys, buf)) :
    List.Forall₂ Carries (ys.map Item.batch) (ys.map unpack) ∧ (∀ i, Stream (chunksOf i (ys.map unpack))) ∧
      ((ys.map unpack).map (·.map Chunk.flags) = (xs.map unpack).map (·.map Chunk.flags)) := by
  obtain ⟨hinv, hwp, hfl, htight⟩ := schedule_invG hv hx hrun
  have hcn := run_chunk_none hrun hidx
  have hflags : (ys.map unpack).map (·.map Chunk.flags) = (xs.map unpack).map (·.map Chunk.flags) := by
    rw [List.map_map, List.map_map]; exact hfl
  have hcar : List.Forall₂ Carries (ys.map Item.batch) (ys.map unpack) := by
    have hne : ∀ y ∈ ys, unpack y ≠ [] := by
      intro y hy hn
      obtain ⟨u, hu, -⟩ := htight y hy
      rw [hn] at hu
      simp at hu
    clear hrun hcn hflags hfl htight hinv
    induction ys with
    | nil => exact .nil
    | cons y ys ih => exact .cons ⟨hne y (by simp), hwp y (by simp)⟩ (ih (fun z hz => hwp z (by simp [hz])) (fun z hz => hne z (by simp [hz])))
  have hst : ∀ i, Stream (chunksOf i (ys.map unpack)) := by
    intro i
    have hi : ∀ y ∈ chunksOf i (ys.map unpack), y.index.isSome = false := by
      intro y hy
      obtain ⟨l, hl, hyl⟩ := List.mem_flatten.1 (List.mem_filter.1 hy).1
      obtain ⟨z, hz, rfl⟩ := List.mem_map.1 hl
      rw [packs_index (hwp z hz) y hyl, hcn z hz]
      rfl
    by_cases hn : chunksOf i (xs.map unpack) = []
    · have := chunksOf_flags hflags i
      rw [hn, List.map_nil, List.map_eq_nil_iff] at this
      rw [this]
      exact ⟨by intro k c hc; simp at hc, by intro k c hc; simp at hc, .inl (by simp)⟩
    · have hc := hone i hn
      exact stream_flags (chunksOf_flags hflags i) hc.2.1 (fun k c' hk he => (hc.2.2 k c' hk).1 he) hi
  exact ⟨hcar, hst, hflags⟩

/-- C97, what holds: over any schedule of batches without chunk indices in which every stream is one complete sequence, if no convolution call
raises and each stream's first output is not empty, the collector accepts everything. For each stream it then holds the offline output if the stride is at most the
kernel width or if no chunk but the last ends inside a gap; in general it holds the convolution that starts over after each chunk that ends inside a gap.
Missing: empty first outputs (C70), chunk indices (`C97_indices_partial`), convolution calls that raise (C58, C59). -/
theorem C97_collect_partial (c : Cfg) (hv : c.Valid) (g : List α → β) (xs : List (ST α)) (hx : Schedule xs)
    (hidx : ∀ x ∈ xs, x.md.chunk = none) (hone : ∀ i, chunksOf i (xs.map unpack) ≠ [] → Complete (chunksOf i (xs.map unpack)))
    (ys : List (ST β)) (buf : Buf α) (hrun : run c g (fun _ => none) xs = .ok (ys, buf))
    (hfirst : ∀ i y, (chunksOf i (ys.map unpack)).head? = some y → y.frames ≠ []) :
    ∃ s, update Coll.new (ys.map Item.batch) = (s, none) ∧ ∀ i, chunksOf i (xs.map unpack) ≠ [] →
      ∃ e, s.entries i = some e ∧ e.frames = restarts c g (zeros c.padding) (zeros c.padding) ((chunksOf i (xs.map unpack)).map (·.frames)) ∧
        (c.stride ≤ span c ∨ Clear c (chunksOf i (xs.map unpack)) → e.frames = offline c g (collected i xs)) := by
  obtain ⟨hcar, hst, hflags⟩ := run_streams hv hx hidx hone hrun
  obtain ⟨s, h1, h2⟩ := C67_reassemble _ _ hcar hst hfirst
  refine ⟨s, h1, ?_⟩
  intro i hn
  have hne : chunksOf i (ys.map unpack) ≠ [] := by
    intro hy
    have := chunksOf_flags hflags i
    rw [hy, List.map_nil] at this
    exact hn (List.map_eq_nil_iff.1 this.symm)
  obtain ⟨e, h3, h4, -⟩ := (h2 i).2 hne
  have h5 := C52_large_stride_partial c hv g xs hx ys buf hrun i [chunksOf i (xs.map unpack)] [] (by simpa [History] using hone i hn)
  simp only [List.flatMap_cons, List.flatMap_nil, List.map_nil, restarts, List.append_nil] at h5
  have h6 : e.frames = collected i ys := h4
  refine ⟨e, h3, h6.trans h5, fun h => ?_⟩
  rw [h6, h5]
  refine restarts_offline ?_ hn g
  rcases h with h | h
  · rw [span_eq c hv] at h
    exact clear_of_le c hv h _
  · exact h

/-- C97, exactly: over any schedule of batches without chunk indices in which every stream is one complete sequence, if no convolution call
raises, the collector accepts the outputs if and only if the first output of every stream has frames or none of its outputs has; otherwise it
raises a ValueError. If it accepts, it holds for each stream the convolution that starts over after each chunk that ends inside a gap (the
offline output if the stride is at most the kernel width or no chunk but the last ends inside a gap), or nothing if that has no frames.
Missing: runs refused by the collector, chunk indices (`C97_indices_partial`), convolution calls that raise (C58, C59),
for which the property fails. -/
theorem C97_exact_partial (c : Cfg) (hv : c.Valid) (g : List α → β) (xs : List (ST α)) (hx : Schedule xs)
    (hidx : ∀ x ∈ xs, x.md.chunk = none) (hone : ∀ i, chunksOf i (xs.map unpack) ≠ [] → Complete (chunksOf i (xs.map unpack)))
    (ys : List (ST β)) (buf : Buf α) (hrun : run c g (fun _ => none) xs = .ok (ys, buf)) :
    ((update Coll.new (ys.map Item.batch)).2 = none ↔
      ∀ i y, (chunksOf i (ys.map unpack)).head? = some y → y.frames ≠ [] ∨ collected i ys = []) ∧
    ((update Coll.new (ys.map Item.batch)).2 ≠ none → (update Coll.new (ys.map Item.batch)).2 = some .valueError) ∧
    ((update Coll.new (ys.map Item.batch)).2 = none → ∀ i, chunksOf i (xs.map unpack) ≠ [] →
      (((update Coll.new (ys.map Item.batch)).1.entries i).map (·.frames)).getD [] =
        restarts c g (zeros c.padding) (zeros c.padding) ((chunksOf i (xs.map unpack)).map (·.frames)) ∧
      (c.stride ≤ span c ∨ Clear c (chunksOf i (xs.map unpack)) →
        (((update Coll.new (ys.map Item.batch)).1.entries i).map (·.frames)).getD [] = offline c g (collected i xs))) := by
  obtain ⟨hcar, hst, -⟩ := run_streams hv hx hidx hone hrun
  have hcar' : List.Forall₂ (fun y cs => cs ≠ [] ∧ Packs y y.width cs) ys (ys.map unpack) := by
    clear hrun hst
    induction ys with
    | nil => exact .nil
    | cons y ys ih =>
      cases hcar with
      | cons h t => exact .cons h (ih t)
  obtain ⟨h1, h2, h3⟩ := C70_exact_partial ys _ hcar' hst
  refine ⟨h1, h2, fun hn i hne => ?_⟩
  have h5 := C52_large_stride_partial c hv g xs hx ys buf hrun i [chunksOf i (xs.map unpack)] [] (by simpa [History] using hone i hne)
  simp only [List.flatMap_cons, List.flatMap_nil, List.map_nil, restarts, List.append_nil] at h5
  have h6 : (((update Coll.new (ys.map Item.batch)).1.entries i).map (·.frames)).getD [] = collected i ys := by
    obtain ⟨e1, e2⟩ := h3 hn i
    by_cases ha : allFrames (chunksOf i (ys.map unpack)) = []
    · rw [e1 ha]
      exact ha.symm
    · obtain ⟨e, e3, e4⟩ := e2 ha
      rw [e3]
      exact e4
  refine ⟨h6.trans h5, fun h => ?_⟩
  rw [h6, h5]
  refine restarts_offline ?_ hne g
  rcases h with h | h
  · rw [span_eq c hv] at h
    exact clear_of_le c hv h _
  · exact h

/-- The example schedule without chunk indices, longer chunks of `b`. -/
def exColl : List (ST Int) :=
  [ { md := ⟨["a"], [true], [false], [3], none⟩, width := 3, rows := [[1, 2, 3]] },
    { md := ⟨["a", "b"], [false, true], [true, false], [2, 2], none⟩, width := 2, rows := [[4, 5], [7, 6]] },
    { md := ⟨["b"], [false], [true], [2], none⟩, width := 2, rows := [[8, 9]] } ]

example : (∀ x ∈ exColl, WellPacked x ∧ BatchOK (unpack x) ∧ Tight x.width (unpack x) ∧ x.md.chunk = none) ∧
    Complete (chunksOf "a" (exColl.map unpack)) ∧ Complete (chunksOf "b" (exColl.map unpack)) ∧
    ((run exC exG (fun _ => none) exColl).map fun r =>
      (((update Coll.new (r.1.map Item.batch)).1.entries "a").map (·.frames), ((update Coll.new (r.1.map Item.batch)).1.entries "b").map (·.frames))) =
      .ok (some (offline exC exG [1, 2, 3, 4, 5]), some (offline exC exG [7, 6, 8, 9])) := by decide

/-- `c` is shorter than the kernel and has no output at all; `b` has none for its first chunk only. -/
def exShort : List (ST Int) :=
  [ { md := ⟨["a", "c"], [true, true], [false, true], [4, 1], none⟩, width := 4, rows := [[1, 2, 3, 4], [5, 0, 0, 0]] },
    { md := ⟨["a", "b"], [false, true], [true, false], [3, 1], none⟩, width := 3, rows := [[5, 6, 7], [7, 0, 0]] },
    { md := ⟨["b"], [false], [true], [3], none⟩, width := 3, rows := [[8, 9, 6]] } ]

example : (∀ x ∈ exShort, WellPacked x ∧ BatchOK (unpack x) ∧ Tight x.width (unpack x) ∧ x.md.chunk = none) ∧
    Complete (chunksOf "a" (exShort.map unpack)) ∧ Complete (chunksOf "b" (exShort.map unpack)) ∧ Complete (chunksOf "c" (exShort.map unpack)) ∧
    ((run ⟨2, 2, 2, 0⟩ exG (fun _ => none) exShort).map fun r => ((update Coll.new (r.1.map Item.batch)).2, (update Coll.new ((r.1.take 2).map Item.batch)).2,
      ((update Coll.new ((r.1.take 2).map Item.batch)).1.entries "a").map (·.frames))) =
      .ok (some .valueError, none, some (offline ⟨2, 2, 2, 0⟩ exG [1, 2, 3, 4, 5, 6, 7])) := by decide

end
end DS.Coll
