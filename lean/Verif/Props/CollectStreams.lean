import Verif.Props.ConvCollect
/-!
# C68, C97: exactly which chunks a collector accepts, with or without chunk indices
-/

namespace DS.Coll
open Meta Conv

section
variable {α : Type} [Zero α]

theorem of_stream' {cs : List (Chunk α)} (h : Stream' cs) : Stream cs := by
  obtain ⟨h1, h2, h3⟩ := h
  rw [List.pairwise_iff_getElem] at h2
  refine ⟨?_, ?_, h3⟩
  · intro k c hk
    obtain ⟨hl, rfl⟩ := List.getElem?_eq_some_iff.1 hk
    constructor
    · intro hs
      by_contra h0
      have := (h2 0 k (by omega) hl (by omega)).2
      rw [hs] at this
      cases this
    · intro h0
      subst h0
      exact h1 _ (by rw [List.head?_eq_getElem?]; exact hk)
  · intro k c hk he
    obtain ⟨hl, rfl⟩ := List.getElem?_eq_some_iff.1 hk
    by_contra h0
    have := (h2 k (k + 1) hl (by omega) (by omega)).1
    rw [he] at this
    cases this

/-- Chunks in any order are collected exactly if those of every id form a stream; otherwise the error is a ValueError. -/
theorem feed_iff (cs : List (Chunk α)) {s : Coll α} {P : List (Chunk α)} (h : After s P) (hP : ∀ i, Stream' (chunksOf i [P])) :
    ((feed s cs).2 = none ↔ ∀ i, Stream' (chunksOf i [P ++ cs])) ∧ ((feed s cs).2 ≠ none → (feed s cs).2 = some .valueError) := by
  induction cs generalizing s P with
  | nil => exact ⟨⟨fun _ i => by simpa using hP i, fun _ => rfl⟩, fun hn => absurd rfl hn⟩
  | cons x xs ih =>
    by_cases hx : Stream' (chunksOf x.id [P ++ [x]])
    · have hst : ∀ i, Stream' (chunksOf i [P ++ [x]]) := by
        intro i
        by_cases hi : x.id = i
        · subst hi; exact hx
        · rw [chunksOf_snoc, if_neg hi, List.append_nil]
          exact hP i
      obtain ⟨s1, e1, e2⟩ := after_step h hx
      have := ih e2 hst
      rw [List.append_assoc] at this
      simp only [feed, e1]
      exact this
    · have hno : ¬ ∀ i, Stream' (chunksOf i [P ++ x :: xs]) := by
        intro hall
        apply hx
        have := hall x.id
        rw [show P ++ x :: xs = (P ++ [x]) ++ xs by simp, chunksOf_one_append] at this
        exact stream'_prefix this
      have hu : ∃ s', updateUnary s (mk x) = (s', some .valueError) := by
        cases hcl : s.closed x.id with
        | true => exact ⟨_, unary_closed s x hcl⟩
        | false =>
          by_cases hn : chunksOf x.id [P] = []
          · rw [unary_new s x hcl ((h x.id).1 hn).1]
            cases hs : x.sos with
            | false => exact ⟨_, rfl⟩
            | true =>
              exfalso
              apply hx
              rw [chunksOf_snoc, hn, if_pos rfl]
              refine ⟨by simpa using hs, by simp, ?_⟩
              cases hi : x.index.isSome with
              | true => exact .inl (by simpa using hi)
              | false => exact .inr (by simpa using hi)
          · obtain ⟨e1, e2⟩ := (h x.id).2 hn
            rw [unary_known (after_good h) x _ hcl e1]
            by_cases hc : x.sos = false ∧ (joined x.id (chunksOf x.id [P])).index.isSome = x.index.isSome
            · exfalso
              apply hx
              rw [chunksOf_snoc, if_pos rfl]
              obtain ⟨p1, p2, p3⟩ := hP x.id
              obtain ⟨l, a, hla⟩ : ∃ l a, chunksOf x.id [P] = l ++ [a] := by
                rcases List.eq_nil_or_concat (chunksOf x.id [P]) with h0 | ⟨l, a, h0⟩
                · exact absurd h0 hn
                · exact ⟨l, a, by rw [h0, List.concat_eq_append]⟩
              rw [e2] at hcl
              rw [hla] at p1 p2 p3 hc hcl ⊢
              simp only [joined, List.getLast?_append, List.getLast?_singleton, Option.some_or, Option.map_some, Option.getD_some] at hc hcl
              refine ⟨?_, ?_, ?_⟩
              · intro c hh
                apply p1 c
                rw [List.head?_append] at hh ⊢
                cases l with
                | nil => simpa using hh
                | cons y ys => simpa using hh
              · rw [List.pairwise_append]
                refine ⟨p2, by simp, ?_⟩
                intro y hy z hz
                rw [List.mem_singleton] at hz
                subst hz
                refine ⟨?_, hc.1⟩
                rcases List.mem_append.1 hy with hy | hy
                · exact ((List.pairwise_append.1 p2).2.2 y hy a (by simp)).1
                · rw [List.mem_singleton.1 hy]; exact hcl
              · rcases p3 with p3 | p3
                · left
                  intro c hcm
                  rcases List.mem_append.1 hcm with hcm | hcm
                  · exact p3 c hcm
                  · rw [List.mem_singleton.1 hcm, ← hc.2]
                    exact p3 a (by simp)
                · right
                  intro c hcm
                  rcases List.mem_append.1 hcm with hcm | hcm
                  · exact p3 c hcm
                  · rw [List.mem_singleton.1 hcm, ← hc.2]
                    exact p3 a (by simp)
            · rw [if_neg hc]
              exact ⟨_, rfl⟩
      obtain ⟨s', hu⟩ := hu
      simp only [feed, hu]
      exact ⟨⟨fun hn => by simp at hn, fun hall => absurd hall hno⟩, fun _ => trivial⟩

theorem chunksOf_filled (i : String) (css : List (List (Chunk α))) : chunksOf i [nonEmpty css.flatten] = nonEmpty (chunksOf i css) := by
  simp only [chunksOf, nonEmpty, List.flatten_cons, List.flatten_nil, List.append_nil, List.filter_filter]
  congr 1
  funext c
  exact Bool.and_comm ..

theorem frames_nonEmpty (l : List (Chunk α)) : allFrames (nonEmpty l) = allFrames l := by
  induction l with
  | nil => rfl
  | cons c l ih =>
    simp only [nonEmpty, List.filter_cons, allFrames] at ih ⊢
    by_cases hc : c.frames = []
    · simp [hc, ih]
    · rw [if_pos (by simpa [List.length_pos_iff] using hc), List.flatMap_cons, List.flatMap_cons, ih]

/-- **C68 (streams).** Any zero-padded batches at all, with or without chunk indices, fed to a new collector one after the other: it accepts all of them if and only if for every id the chunks that have frames are a stream (the first of them and no other has the start flag,
only the last may have the end flag, and all or none have chunk indices); otherwise it raises a ValueError. If it accepts, it holds for every id all its frames in order, in one chunk with the start flag of the first chunk that has frames and the end flag and index of the last
one that has. -/
theorem C68_streams (ys : List (ST α)) (css : List (List (Chunk α))) (h : List.Forall₂ (fun y cs => cs ≠ [] ∧ Packs y y.width cs) ys css) :
    ((update Coll.new (ys.map Item.batch)).2 = none ↔ ∀ i, Stream (nonEmpty (chunksOf i css))) ∧
    ((update Coll.new (ys.map Item.batch)).2 ≠ none → (update Coll.new (ys.map Item.batch)).2 = some .valueError) ∧
    ((update Coll.new (ys.map Item.batch)).2 = none → ∀ i,
      (allFrames (chunksOf i css) = [] → (update Coll.new (ys.map Item.batch)).1.entries i = none) ∧
      (allFrames (chunksOf i css) ≠ [] → ∃ e, (update Coll.new (ys.map Item.batch)).1.entries i = some e ∧ e.frames = allFrames (chunksOf i css) ∧
        IsChunk e (joined i (nonEmpty (chunksOf i css))))) := by
  have hcar : List.Forall₂ Carries (ys.map Item.batch) css := by
    induction h with
    | nil => exact .nil
    | cons hc _ ih => exact .cons hc ih
  have hk : (List.zipWith kept (ys.map Item.batch) css).flatten = nonEmpty css.flatten := by
    clear hcar
    induction h with
    | nil => rfl
    | cons hc _ ih => simp only [List.map_cons, List.zipWith_cons_cons, kept, List.flatten_cons, ih, nonEmpty, List.filter_append]
  have hnew : After (Coll.new : Coll α) [] := by
    intro i
    simp [chunksOf, Coll.new]
  obtain ⟨f1, f2⟩ := feed_iff (nonEmpty css.flatten) hnew (fun i => by simp [chunksOf, Stream'])
  rw [List.nil_append] at f1
  rw [update_kept _ _ hcar, hk]
  refine ⟨f1.trans ⟨fun hh i => ?_, fun hh i => ?_⟩, f2, ?_⟩
  · rw [← chunksOf_filled]
    exact of_stream' (hh i)
  · rw [chunksOf_filled]
    exact stream'_of (hh i)
  · intro hn i
    obtain ⟨s, h1, h2⟩ := after_feed (nonEmpty css.flatten) hnew (fun i => by rw [List.nil_append]; exact f1.1 hn i)
    rw [List.nil_append] at h2
    obtain ⟨e1, e2⟩ := h2 i
    rw [chunksOf_filled] at e1 e2
    rw [h1]
    have hall : nonEmpty (chunksOf i css) = [] ↔ allFrames (chunksOf i css) = [] := by
      simp [nonEmpty, allFrames]
    constructor
    · intro ha
      exact (e1 (hall.2 ha)).1
    · intro ha
      refine ⟨_, (e2 fun hh => ha (hall.1 hh)).1, ?_, mk_isChunk _⟩
      simp only [mk, joined]
      exact frames_nonEmpty _

-- `a` ends and `b` starts in one batch; then a chunk of `b` without an index
example : List.Forall₂ (fun y cs => cs ≠ [] ∧ Packs y y.width cs) (exXs.take 2) ((exXs.take 2).map unpack) ∧ Stream (nonEmpty (chunksOf "a" ((exXs.take 2).map unpack))) ∧
    (update Coll.new ((exXs.take 2).map Item.batch)).2 = none ∧
    (update Coll.new ((exXs.take 2 ++ [({ md := ⟨["b"], [false], [true], [2], none⟩, width := 2, rows := [[8, 9]] } : ST Int)]).map Item.batch)).2 = some .valueError := by
  refine ⟨.cons ⟨by decide, by decide⟩ (.cons ⟨by decide, by decide⟩ .nil), of_stream' ⟨by decide, by decide, by decide⟩, by decide, by decide⟩

/-- Chunks with the flags of a stream, some of them empty: those that have frames are a stream exactly if the first chunk is one of them (or there are none) and all or none of them have indices. -/
theorem stream_nonEmpty {cs : List (Chunk α)} (hs : StartsOnce cs) (he : ∀ k c, cs[k]? = some c → c.eos = true → k + 1 = cs.length) :
    Stream (nonEmpty cs) ↔ (∀ c, cs.head? = some c → c.frames ≠ [] ∨ allFrames cs = []) ∧
      ((∀ c ∈ cs, c.frames ≠ [] → c.index.isSome = true) ∨ (∀ c ∈ cs, c.frames ≠ [] → c.index.isSome = false)) := by
  have hmem : ∀ c, c ∈ nonEmpty cs ↔ c ∈ cs ∧ c.frames ≠ [] := by
    intro c
    simp [nonEmpty, List.length_pos_iff]
  have hall : nonEmpty cs = [] ↔ allFrames cs = [] := by
    simp [nonEmpty, allFrames]
  have hpw : cs.Pairwise (fun a b => a.eos = false ∧ b.sos = false) := by
    rw [List.pairwise_iff_getElem]
    intro i j hi hj hij
    constructor
    · cases h : cs[i].eos with
      | false => rfl
      | true =>
        have := he i _ (List.getElem?_eq_getElem hi) h
        omega
    · cases h : cs[j].sos with
      | false => rfl
      | true =>
        have := (hs j _ (List.getElem?_eq_getElem hj)).1 h
        omega
  constructor
  · intro h
    obtain ⟨h1, h2, h3⟩ := stream'_of h
    refine ⟨?_, ?_⟩
    · intro c hc
      by_cases hf : c.frames = []
      · right
        rw [← hall]
        cases hcs : cs with
        | nil => rfl
        | cons c' tl =>
          rw [hcs, List.head?_cons, Option.some.injEq] at hc
          subst hc
          have hne : nonEmpty (c' :: tl) = nonEmpty tl := by simp [nonEmpty, hf]
          cases hn : nonEmpty tl with
          | nil => rw [hne, hn]
          | cons d ds =>
            exfalso
            have hd : d ∈ tl := (List.mem_filter.1 (show d ∈ nonEmpty tl by rw [hn]; simp)).1
            have h4 := h1 d (by rw [hcs, hne, hn]; rfl)
            rw [hcs, List.pairwise_cons] at hpw
            rw [(hpw.1 d hd).2] at h4
            cases h4
      · exact .inl hf
    · rcases h3 with h3 | h3
      · exact .inl fun c hc hf => h3 c ((hmem c).2 ⟨hc, hf⟩)
      · exact .inr fun c hc hf => h3 c ((hmem c).2 ⟨hc, hf⟩)
  · rintro ⟨h1, h2⟩
    apply of_stream'
    refine ⟨?_, hpw.sublist List.filter_sublist, ?_⟩
    · intro c hc
      cases hcs : cs with
      | nil => rw [hcs] at hc; simp [nonEmpty] at hc
      | cons c' tl =>
        rcases h1 c' (by rw [hcs]; rfl) with hf | hf
        · rw [hcs, nonEmpty, List.filter_cons, if_pos (by simpa [List.length_pos_iff] using hf), List.head?_cons, Option.some.injEq] at hc
          subst hc
          exact (hs 0 c' (by rw [hcs]; rfl)).2 rfl
        · rw [hall.2 hf] at hc
          cases hc
    · rcases h2 with h2 | h2
      · exact .inl fun c hc => h2 c ((hmem c).1 hc).1 ((hmem c).1 hc).2
      · exact .inr fun c hc => h2 c ((hmem c).1 hc).1 ((hmem c).1 hc).2

section
variable {β : Type} [Zero β]

/-- The schedule `exColl` with chunk indices. -/
def exIndexed : List (ST Int) :=
  [ { md := ⟨["a"], [true], [false], [3], some [0]⟩, width := 3, rows := [[1, 2, 3]] },
    { md := ⟨["a", "b"], [false, true], [true, false], [2, 2], some [1, 0]⟩, width := 2, rows := [[4, 5], [7, 6]] },
    { md := ⟨["b"], [false], [true], [2], some [1]⟩, width := 2, rows := [[8, 9]] } ]

/-- **C97 is false of the code**, with chunk indices, as the datasets give them: the schedule has an index on every chunk and no call raises, but the output of the mixed batch has lost its indices (C90), and the collector refuses to append it to the output before. Without the
indices the same schedule is collected. -/
theorem C97_indices_false : Schedule exIndexed ∧ (∀ x ∈ exIndexed, x.md.chunk.isSome = true) ∧ Complete (chunksOf "a" (exIndexed.map unpack)) ∧ Complete (chunksOf "b" (exIndexed.map unpack)) ∧
    ((run exC exG (fun _ => none) exIndexed).map fun r => (update Coll.new (r.1.map Item.batch)).2) = .ok (some .valueError) ∧
    (exIndexed.map fun x => ({ x with md := { x.md with chunk := none } } : ST Int)) = exColl ∧
    ((run exC exG (fun _ => none) exColl).map fun r =>
      ((update Coll.new (r.1.map Item.batch)).2, ((update Coll.new (r.1.map Item.batch)).1.entries "a").map (·.frames))) = .ok (none, some (offline exC exG [1, 2, 3, 4, 5])) := by
  refine ⟨⟨by decide, ?_⟩, by decide, by decide, by decide, by decide, rfl, by decide⟩
  intro i
  by_cases ha : i = "a"
  · subst ha
    exact ⟨[[⟨"a", true, false, some 0, [1, 2, 3]⟩, ⟨"a", false, true, some 1, [4, 5]⟩]], [], by decide⟩
  · by_cases hb : i = "b"
    · subst hb
      exact ⟨[[⟨"b", true, false, some 0, [7, 6]⟩, ⟨"b", false, true, some 1, [8, 9]⟩]], [], by decide⟩
    · refine ⟨[], [], ?_⟩
      have : chunksOf i (exIndexed.map unpack) = [] := by
        unfold chunksOf
        rw [List.filter_eq_nil_iff]
        intro x hx
        have : ∀ x ∈ (exIndexed.map unpack).flatten, x.id = "a" ∨ x.id = "b" := by decide
        rcases this x hx with h | h <;> simp [h, Ne.symm ha, Ne.symm hb]
      rw [this]
      exact ⟨rfl, by simp, .inl rfl⟩

/-- C97, exactly, with or without chunk indices: over any schedule in which every stream is one complete sequence, if no convolution call raises, the collector accepts the outputs if and only if for every stream the first output has frames or none of its outputs has, and of its
outputs that have frames all or none have chunk indices; otherwise it raises a ValueError. If it accepts, it holds for each stream the convolution that starts over after each chunk that ends inside a gap (the offline output if the stride is at most the kernel width or no
chunk but the last ends inside a gap). Missing: runs refused by the collector (`C97_indices_false`), convolution calls that raise (C58, C59). -/
theorem C97_indices_partial (c : Cfg) (hv : c.Valid) (g : List α → β) (xs : List (ST α)) (hx : Schedule xs)
    (hone : ∀ i, chunksOf i (xs.map unpack) ≠ [] → Complete (chunksOf i (xs.map unpack)))
    (ys : List (ST β)) (buf : Buf α) (hrun : run c g (fun _ => none) xs = .ok (ys, buf)) :
    ((update Coll.new (ys.map Item.batch)).2 = none ↔
      ∀ i, (∀ y, (chunksOf i (ys.map unpack)).head? = some y → y.frames ≠ [] ∨ collected i ys = []) ∧
        ((∀ y ∈ chunksOf i (ys.map unpack), y.frames ≠ [] → y.index.isSome = true) ∨ (∀ y ∈ chunksOf i (ys.map unpack), y.frames ≠ [] → y.index.isSome = false))) ∧
    ((update Coll.new (ys.map Item.batch)).2 ≠ none → (update Coll.new (ys.map Item.batch)).2 = some .valueError) ∧
    ((update Coll.new (ys.map Item.batch)).2 = none → ∀ i, chunksOf i (xs.map unpack) ≠ [] →
      (((update Coll.new (ys.map Item.batch)).1.entries i).map (·.frames)).getD [] =
        restarts c g (zeros c.padding) (zeros c.padding) ((chunksOf i (xs.map unpack)).map (·.frames)) ∧
      (c.stride ≤ span c ∨ Clear c (chunksOf i (xs.map unpack)) →
        (((update Coll.new (ys.map Item.batch)).1.entries i).map (·.frames)).getD [] = offline c g (collected i xs))) := by
  obtain ⟨-, hwp, hfl, htight⟩ := schedule_invG hv hx hrun
  have hflags : (ys.map unpack).map (·.map Chunk.flags) = (xs.map unpack).map (·.map Chunk.flags) := by
    rw [List.map_map, List.map_map]; exact hfl
  have hcar : List.Forall₂ (fun y cs => cs ≠ [] ∧ Packs y y.width cs) ys (ys.map unpack) := by
    have hne : ∀ y ∈ ys, unpack y ≠ [] := by
      intro y hy hn
      obtain ⟨u, hu, -⟩ := htight y hy
      rw [hn] at hu
      simp at hu
    clear hrun hflags hfl htight
    induction ys with
    | nil => exact .nil
    | cons y ys ih => exact .cons ⟨hne y (by simp), hwp y (by simp)⟩ (ih (fun z hz => hwp z (by simp [hz])) (fun z hz => hne z (by simp [hz])))
  have hst : ∀ i, StartsOnce (chunksOf i (ys.map unpack)) ∧ ∀ k y, (chunksOf i (ys.map unpack))[k]? = some y → y.eos = true → k + 1 = (chunksOf i (ys.map unpack)).length := by
    intro i
    have hi := chunksOf_flags hflags i
    have hl : (chunksOf i (ys.map unpack)).length = (chunksOf i (xs.map unpack)).length := by simpa using congrArg List.length hi
    have hk : ∀ (k : Nat) (y : Chunk β), (chunksOf i (ys.map unpack))[k]? = some y → ∃ x, (chunksOf i (xs.map unpack))[k]? = some x ∧ x.sos = y.sos ∧ x.eos = y.eos := by
      intro k y hy
      have h1 := congrArg (·[k]?) hi
      simp only [List.getElem?_map, hy, Option.map_some] at h1
      cases hx : (chunksOf i (xs.map unpack))[k]? with
      | none => simp [hx] at h1
      | some x =>
        simp only [hx, Option.map_some, Option.some.injEq, Chunk.flags, Prod.mk.injEq] at h1
        exact ⟨x, rfl, h1.2.1.symm, h1.2.2.symm⟩
    constructor
    · intro k y hy
      obtain ⟨x, h1, h2, -⟩ := hk k y hy
      rw [← h2]
      exact (hone i (by intro h0; rw [h0] at h1; simp at h1)).2.1 k x h1
    · intro k y hy he
      obtain ⟨x, h1, -, h2⟩ := hk k y hy
      rw [hl]
      exact ((hone i (by intro h0; rw [h0] at h1; simp at h1)).2.2 k x h1).1 (by rw [h2]; exact he)
  obtain ⟨h1, h2, h3⟩ := C68_streams ys _ hcar
  refine ⟨h1.trans ⟨fun h i => (stream_nonEmpty (hst i).1 (hst i).2).1 (h i), fun h i => (stream_nonEmpty (hst i).1 (hst i).2).2 (h i)⟩, h2, fun hn i hne => ?_⟩
  have h5 := C52_large_stride_partial c hv g xs hx ys buf hrun i [chunksOf i (xs.map unpack)] [] (by simpa [History] using hone i hne)
  simp only [List.flatMap_cons, List.flatMap_nil, List.map_nil, restarts, List.append_nil] at h5
  have h6 : (((update Coll.new (ys.map Item.batch)).1.entries i).map (·.frames)).getD [] = collected i ys := by
    obtain ⟨e1, e2⟩ := h3 hn i
    by_cases ha : allFrames (chunksOf i (ys.map unpack)) = []
    · rw [e1 ha]
      exact ha.symm
    · obtain ⟨e, e3, e4, -⟩ := e2 ha
      rw [e3]
      exact e4
  refine ⟨h6.trans h5, fun h => ?_⟩
  rw [h6, h5]
  refine restarts_offline ?_ hne g
  rcases h with h | h
  · rw [span_eq c hv] at h
    exact clear_of_le c hv h _
  · exact h

end

/-- `a` and `b` in step, so that the buffers are equally long and no index is lost. -/
def exStep : List (ST Int) :=
  [ { md := ⟨["a", "b"], [true, true], [false, false], [3, 3], some [0, 0]⟩, width := 3, rows := [[1, 2, 3], [5, 6, 7]] },
    { md := ⟨["a", "b"], [false, false], [true, true], [2, 1], some [1, 1]⟩, width := 2, rows := [[4, 5], [8, 0]] } ]

example : (∀ x ∈ exStep, WellPacked x ∧ BatchOK (unpack x) ∧ Tight x.width (unpack x)) ∧ Complete (chunksOf "a" (exStep.map unpack)) ∧ Complete (chunksOf "b" (exStep.map unpack)) ∧
    ((run exC exG (fun _ => none) exStep).map fun r => ((update Coll.new (r.1.map Item.batch)).2, ((update Coll.new (r.1.map Item.batch)).1.entries "b").map (·.frames))) =
      .ok (none, some (offline exC exG [5, 6, 7, 8])) := by decide

end
end DS.Coll
