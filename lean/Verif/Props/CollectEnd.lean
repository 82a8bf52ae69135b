import Verif.Props.Collector
import Verif.Props.ConvCollect
/-! # C220: which collected streams are marked as ended -/

namespace DS.Coll
open Meta Conv

section
variable {α : Type} [Zero α]

/-- Two streams: four frames, of which a convolution of width 3 and stride 2 needs three, and three frames. -/
def exOdd : List (ST Int) :=
  [{ md := ⟨["a"], [true], [false], [3], none⟩, width := 3, rows := [[1, 2, 3]] },
   { md := ⟨["a", "b"], [false, true], [true, true], [1, 3], none⟩, width := 3, rows := [[4, 0, 0], [7, 8, 9]] }]

/-- **C220 is false of the code.** A stream of four frames goes through a convolution of width 3 and stride 2, in chunks of three frames and one. All batches are accepted by the
module and by the collector, the entry holds the whole output, but it is not marked as ended and its id is not closed: the last output is empty and was skipped. -/
theorem C220_marked_false :
    Schedule exOdd ∧
    ((run ⟨3, 1, 2, 0⟩ exG (fun _ => none) exOdd).map fun r =>
      ((update Coll.new (r.1.map Item.batch)).2, (update Coll.new (r.1.map Item.batch)).1.entries "a", (update Coll.new (r.1.map Item.batch)).1.closed "a")) =
        .ok (none, some ⟨⟨["a"], [true], [false], [1], none⟩, offline ⟨3, 1, 2, 0⟩ exG [(1 : Int), 2, 3, 4]⟩, false) := by
  refine ⟨⟨by decide, ?_⟩, by decide⟩
  intro i
  by_cases ha : i = "a"
  · subst ha
    exact ⟨[[⟨"a", true, false, none, [1, 2, 3]⟩, ⟨"a", false, true, none, [4]⟩]], [], by decide⟩
  · by_cases hb : i = "b"
    · subst hb
      exact ⟨[[⟨"b", true, true, none, [7, 8, 9]⟩]], [], by decide⟩
    · refine ⟨[], [], ?_⟩
      have : chunksOf i (exOdd.map unpack) = [] := by
        unfold chunksOf
        rw [List.filter_eq_nil_iff]
        intro x hx
        have : ∀ x ∈ (exOdd.map unpack).flatten, x.id = "a" ∨ x.id = "b" := by decide
        rcases this x hx with h | h <;> simp [h, Ne.symm ha, Ne.symm hb]
      rw [this]
      exact ⟨rfl, by simp, .inl rfl⟩

/-- **C220 is false of the code**, the consequence: a chunk of that stream that comes after its end is not refused but appended. -/
theorem C220_late_false :
    ((run ⟨3, 1, 2, 0⟩ exG (fun _ => none) exOdd).map fun r =>
      ((update Coll.new (r.1.map Item.batch ++ [.single ⟨⟨["a"], [false], [false], [1], none⟩, [99]⟩])).2,
        ((update Coll.new (r.1.map Item.batch ++ [.single ⟨⟨["a"], [false], [false], [1], none⟩, [99]⟩])).1.entries "a").map (·.frames))) =
        .ok (none, some [123, 99]) := by decide

omit [Zero α] in
theorem chunksOf_nonEmpty (i : String) (css : List (List (Chunk α))) : chunksOf i [nonEmpty css.flatten] = nonEmpty (chunksOf i css) := by
  simp only [chunksOf, nonEmpty, List.flatten_cons, List.flatten_nil, List.append_nil, List.filter_filter]
  congr 1
  funext c
  exact Bool.and_comm _ _

omit [Zero α] in
theorem zip_kept (ys : List (ST α)) (css : List (List (Chunk α))) (h : ys.length = css.length) :
    (List.zipWith kept (ys.map Item.batch) css).flatten = nonEmpty css.flatten := by
  induction ys generalizing css with
  | nil => cases css with
    | nil => rfl
    | cons c cs => simp at h
  | cons y ys ih => cases css with
    | nil => simp at h
    | cons c cs =>
      simp only [List.map_cons, List.zipWith_cons_cons, List.flatten_cons, ih cs (by simpa using h), nonEmpty, List.filter_append, kept]

omit [Zero α] in
theorem last_nonEmpty (L : List (Chunk α)) (hs : Stream' L) (c : Chunk α) (hc : L.getLast? = some c) :
    ((nonEmpty L).getLast?.map (·.eos)).getD false = (c.eos && !c.frames.isEmpty) := by
  obtain ⟨I, rfl⟩ : ∃ I, L = I ++ [c] := by
    have hne : L ≠ [] := by rintro rfl; simp at hc
    refine ⟨L.dropLast, ?_⟩
    rw [List.getLast?_eq_getLast_of_ne_nil hne] at hc
    simp only [Option.some.injEq] at hc
    rw [← hc]
    exact (List.dropLast_append_getLast hne).symm
  simp only [nonEmpty, List.filter_append]
  cases hf : c.frames with
  | cons a r =>
    have : List.filter (fun c : Chunk α => decide (c.frames.length > 0)) [c] = [c] := by simp [hf]
    rw [this]
    simp
  | nil =>
    have : List.filter (fun c : Chunk α => decide (c.frames.length > 0)) [c] = [] := by simp [hf]
    rw [this, List.append_nil]
    simp only [List.isEmpty_nil, Bool.not_true, Bool.and_false]
    cases hl : (List.filter (fun c : Chunk α => decide (c.frames.length > 0)) I).getLast? with
    | none => rfl
    | some d =>
      have hd : d ∈ I := (List.mem_filter.1 (List.mem_of_getLast? hl)).1
      have := (List.pairwise_append.1 hs.2.1).2.2 d hd c (by simp)
      simpa using this.1

/-- C220, batches: when a program has collected batches of streams without an exception, the entry of a stream is marked as ended, and its id closed, exactly if the last chunk collected is marked
as end and is not empty. Missing: streams whose last chunk is empty. -/
theorem C220_batches_partial (ys : List (ST α)) (css : List (List (Chunk α))) (h : List.Forall₂ (fun y cs => cs ≠ [] ∧ Packs y y.width cs) ys css)
    (hst : ∀ i, Stream (chunksOf i css)) (hok : (update Coll.new (ys.map Item.batch)).2 = none) (i : String) (c : Chunk α)
    (hc : (chunksOf i css).getLast? = some c) (hne : allFrames (chunksOf i css) ≠ []) :
    ∃ e, (update Coll.new (ys.map Item.batch)).1.entries i = some e ∧ e.md.eos = [c.eos && !c.frames.isEmpty] ∧
      (update Coll.new (ys.map Item.batch)).1.closed i = (c.eos && !c.frames.isEmpty) := by
  have hcar : List.Forall₂ Carries (ys.map Item.batch) css := by
    clear hst hok hc hne
    induction h with
    | nil => exact .nil
    | cons h1 _ ih => exact .cons h1 ih
  have hfirst := (C70_exact_partial ys css h hst).1.1 hok
  have hlen : ys.length = css.length := h.length_eq
  have hstream : ∀ i, Stream' (chunksOf i [nonEmpty css.flatten]) := by
    intro i
    rw [chunksOf_nonEmpty]
    have hd : Drops (nonEmpty (chunksOf i css)) (chunksOf i css) := kept_drops (Item.batch ⟨⟨[], [], [], [], none⟩, 0, []⟩) _
    by_cases ha : allFrames (chunksOf i css) = []
    · have : nonEmpty (chunksOf i css) = [] := by
        simp only [nonEmpty, List.filter_eq_nil_iff]
        intro d hd
        simp only [allFrames, List.flatMap_eq_nil_iff] at ha
        simp [ha d hd]
      rw [this]
      exact ⟨by simp, .nil, .inl (by simp)⟩
    · refine hd.stream (fun d hd' => ?_) (stream'_of (hst i))
      exact (hfirst i d hd').resolve_right ha
  have hnew : After (Coll.new : Coll α) [] := by
    intro i
    simp [chunksOf, Coll.new]
  obtain ⟨s, h1, h2⟩ := after_feed (nonEmpty css.flatten) hnew (by simpa using hstream)
  have hup : update Coll.new (ys.map Item.batch) = (s, none) := by rw [update_kept _ css hcar, zip_kept ys css hlen, h1]
  rw [hup]
  rw [List.nil_append] at h2
  have hn : chunksOf i [nonEmpty css.flatten] ≠ [] := by
    rw [chunksOf_nonEmpty]
    intro he
    refine hne ?_
    simp only [allFrames, List.flatMap_eq_nil_iff]
    intro d hd
    simp only [nonEmpty, List.filter_eq_nil_iff] at he
    have := he d hd
    simpa using this
  obtain ⟨e3, e4⟩ := (h2 i).2 hn
  rw [chunksOf_nonEmpty] at e3 e4
  have hl := last_nonEmpty _ (stream'_of (hst i)) c hc
  refine ⟨_, e3, ?_, by rw [e4, hl]⟩
  simp only [mk, joined, ofRows, List.map_cons, List.map_nil, Chunk.row]
  rw [hl]

/-- C220, StreamTensors without batch axis: entries are marked as ended, and ids closed, exactly if the last chunk collected is marked as end, empty or not. -/
theorem C220_single (es : List (Entry α)) (cs : List (Chunk α)) (h : List.Forall₂ IsChunk es cs) (hst : ∀ i, Stream (chunksOf i [cs])) (i : String) (c : Chunk α)
    (hc : (chunksOf i [cs]).getLast? = some c) :
    ∃ e, (update Coll.new (es.map Item.single)).1.entries i = some e ∧ e.md.eos = [c.eos] ∧ (update Coll.new (es.map Item.single)).1.closed i = c.eos := by
  have hcar : List.Forall₂ Carries (es.map Item.single) (cs.map fun c => [c]) := by
    clear hst hc
    induction h with
    | nil => exact .nil
    | cons hc _ ih => exact .cons ⟨_, rfl, hc⟩ ih
  have hk : (List.zipWith kept (es.map Item.single) (cs.map fun c => [c])).flatten = cs := by
    clear hst hcar hc
    induction h with
    | nil => rfl
    | cons _ _ ih => simp only [List.map_cons, List.zipWith_cons_cons, List.flatten_cons, kept, ih]; rfl
  have hnew : After (Coll.new : Coll α) [] := by
    intro i
    simp [chunksOf, Coll.new]
  obtain ⟨s, h1, h2⟩ := after_feed cs hnew (fun i => by simpa using stream'_of (hst i))
  have hup : update Coll.new (es.map Item.single) = (s, none) := by rw [update_kept _ _ hcar, hk, h1]
  rw [hup]
  rw [List.nil_append] at h2
  have hn : chunksOf i [cs] ≠ [] := by
    intro he; rw [he] at hc; simp at hc
  obtain ⟨e3, e4⟩ := (h2 i).2 hn
  refine ⟨_, e3, ?_, by rw [e4, hc]; rfl⟩
  simp only [mk, joined, ofRows, List.map_cons, List.map_nil, Chunk.row]
  rw [hc]
  rfl

example : List.Forall₂ (fun y cs => cs ≠ [] ∧ Packs y y.width cs) exOdd (exOdd.map unpack) ∧ (chunksOf "a" (exOdd.map unpack)).getLast?.map (·.eos) = some true ∧
    (update Coll.new (exOdd.map Item.batch)).2 = none ∧ (update Coll.new (exOdd.map Item.batch)).1.closed "a" = true := by
  refine ⟨.cons ⟨by decide, by decide⟩ (.cons ⟨by decide, by decide⟩ .nil), by decide, by decide, by decide⟩
example : List.Forall₂ IsChunk [exA1, exA2] [⟨"a", true, false, none, [1, 2]⟩, ⟨"a", false, true, none, [3]⟩] := .cons (by decide) (.cons (by decide) .nil)

end
end DS.Coll
