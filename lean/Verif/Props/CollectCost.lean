import Verif.Model.CollectCost
import Verif.Props.Collector
/-! # C221: the work of collecting -/

namespace DS.Coll
open Meta Conv

section
variable {α : Type} [Zero α]

theorem written_after {s : Coll α} {P : List (Chunk α)} {x : Chunk α} (h : After s P) (hst : Stream' (chunksOf x.id [P ++ [x]])) :
    written s (mk x) = if (chunksOf x.id [P ++ [x]]).length < 2 then 0 else (allFrames (chunksOf x.id [P ++ [x]])).length := by
  obtain ⟨s', h1, -⟩ := after_step h hst
  have h2 : (updateItem s (.single (mk x))).2 = none := by
    rw [update_single s (mk x) x (mk_isChunk x), h1]
  unfold written
  rw [if_pos h2]
  have hid : (mk x).md.ids.headD "" = x.id := by simp [mk, ofRows, Chunk.row]
  rw [hid]
  have hsn : chunksOf x.id [P ++ [x]] = chunksOf x.id [P] ++ [x] := by rw [chunksOf_snoc, if_pos rfl]
  rw [hsn]
  by_cases hc : chunksOf x.id [P] = []
  · rw [((h x.id).1 hc).1, hc]
    simp
  · rw [((h x.id).2 hc).1, if_neg]
    · simp [mk, joined, allFrames]
    · have := List.length_pos_iff.2 hc
      simp; omega

/-- Which frames the collector has written after the chunks `cs`, given that it had collected `P` before. -/
theorem writtenAll_after (cs : List (Chunk α)) (es : List (Entry α)) (he : List.Forall₂ IsChunk es cs) {s : Coll α} {P : List (Chunk α)} (h : After s P)
    (hst : ∀ i, Stream' (chunksOf i [P ++ cs])) :
    writtenAll s es = ((List.range cs.length).map fun k =>
      let p := chunksOf ((cs[k]?.map (·.id)).getD "") [P ++ cs.take (k + 1)]
      if p.length < 2 then 0 else (allFrames p).length).sum := by
  induction he generalizing s P with
  | nil => rfl
  | @cons e x es cs hx _ ih =>
    have hpre : Stream' (chunksOf x.id [P ++ [x]]) := stream'_prefix (b := chunksOf x.id [cs]) (by
      rw [← chunksOf_one_append, List.append_assoc]; exact hst x.id)
    obtain ⟨s', h1, h2⟩ := after_step h hpre
    have h3 : (updateItem s (.single e)).1 = s' := by rw [update_single s e x hx, h1]
    have h4 := written_after h hpre
    rw [← isChunk_mk hx] at h4
    have h5 := ih h2 (fun i => by rw [List.append_assoc]; exact hst i)
    simp only [writtenAll, h3, h4, h5, List.length_cons, List.range_succ_eq_map, List.map_cons, List.sum_cons, List.map_map]
    congr 1
    congr 1
    refine List.map_congr_left ?_
    intro k _
    simp [Function.comp_apply, List.append_assoc]
    rfl

/-- C221, exactly: collecting well-formed streams, interleaved as they may be, writes with every chunk that is not the first of its stream all frames of that stream so far.
Missing: the bound claimed, see `C221_linear_false`. -/
theorem C221_exact_partial (es : List (Entry α)) (cs : List (Chunk α)) (h : List.Forall₂ IsChunk es cs) (hst : ∀ i, Stream (chunksOf i [cs])) :
    writtenAll Coll.new es = ((List.range cs.length).map fun k =>
      let p := chunksOf ((cs[k]?.map (·.id)).getD "") [cs.take (k + 1)]
      if p.length < 2 then 0 else (allFrames p).length).sum := by
  have hnew : After (Coll.new : Coll α) [] := by
    intro i
    simp [chunksOf, Coll.new]
  have := writtenAll_after cs es h hnew (fun i => by simpa using stream'_of (hst i))
  simpa using this

omit [Zero α] in
theorem sublist_frames {a b : List (Chunk α)} (h : a.Sublist b) : (allFrames a).length ≤ (allFrames b).length := by
  induction h with
  | slnil => exact Nat.le_refl _
  | cons x _ ih => simp only [allFrames, List.flatMap_cons, List.length_append] at ih ⊢; omega
  | cons_cons x _ ih => simp only [allFrames, List.flatMap_cons, List.length_append] at ih ⊢; omega

/-- C221, a bound: never more than the number of chunks times the frames collected. Missing: a bound proportional to the frames alone. -/
theorem C221_bound_partial (es : List (Entry α)) (cs : List (Chunk α)) (h : List.Forall₂ IsChunk es cs) (hst : ∀ i, Stream (chunksOf i [cs])) :
    writtenAll Coll.new es ≤ cs.length * (allFrames cs).length := by
  rw [C221_exact_partial es cs h hst]
  have key : ∀ (ks : List Nat) (f : Nat → Nat) (b : Nat), (∀ k ∈ ks, f k ≤ b) → (ks.map f).sum ≤ ks.length * b := by
    intro ks f b
    induction ks with
    | nil => simp
    | cons k ks ih =>
      intro hk
      simp only [List.map_cons, List.sum_cons, List.length_cons, Nat.succ_mul]
      have h1 := ih fun k hk' => hk k (by simp [hk'])
      have h2 := hk k (by simp)
      omega
  have := key (List.range cs.length) (fun k =>
      let p := chunksOf ((cs[k]?.map (·.id)).getD "") [cs.take (k + 1)]
      if p.length < 2 then 0 else (allFrames p).length) (allFrames cs).length (by
    intro k _
    simp only
    split
    · exact Nat.zero_le _
    · have hsub : (chunksOf ((cs[k]?.map (·.id)).getD "") [cs.take (k + 1)]).Sublist cs := by
        simp only [chunksOf, List.flatten_cons, List.flatten_nil, List.append_nil]
        exact (List.filter_sublist).trans (List.take_sublist _ _)
      exact sublist_frames hsub)
  simpa using this

end

/-- One stream of `n` chunks of one frame. -/
def oneByOne (n : Nat) : List (Chunk Int) := (List.range n).map fun k => ⟨"a", decide (k = 0), decide (k + 1 = n), none, [0]⟩

theorem oneByOne_stream (n : Nat) (i : String) : Stream (chunksOf i [oneByOne n]) := by
  by_cases hi : i = "a"
  · subst hi
    have : chunksOf "a" [oneByOne n] = oneByOne n := by
      simp only [chunksOf, List.flatten_cons, List.flatten_nil, List.append_nil, List.filter_eq_self]
      intro c hc
      simp only [oneByOne, List.mem_map] at hc
      obtain ⟨k, -, rfl⟩ := hc
      simp
    rw [this]
    refine ⟨?_, ?_, .inr ?_⟩
    · intro k c hc
      simp only [oneByOne, List.getElem?_map, Option.map_eq_some_iff] at hc
      obtain ⟨j, hj, rfl⟩ := hc
      rw [List.getElem?_eq_some_iff] at hj
      obtain ⟨_, hj⟩ := hj
      simp at hj
      simp [hj]
    · intro k c hc he
      simp only [oneByOne, List.getElem?_map, Option.map_eq_some_iff] at hc
      obtain ⟨j, hj, rfl⟩ := hc
      rw [List.getElem?_eq_some_iff] at hj
      obtain ⟨_, hj⟩ := hj
      simp at hj
      simp at he
      simp [oneByOne, hj, he]
    · intro c hc
      simp only [oneByOne, List.mem_map] at hc
      obtain ⟨k, -, rfl⟩ := hc
      rfl
  · have : chunksOf i [oneByOne n] = [] := by
      simp only [chunksOf, List.flatten_cons, List.flatten_nil, List.append_nil, List.filter_eq_nil_iff]
      intro c hc
      simp only [oneByOne, List.mem_map] at hc
      obtain ⟨k, -, rfl⟩ := hc
      simp [Ne.symm hi]
    rw [this]
    exact ⟨by intro k c hc; simp at hc, by intro k c hc; simp at hc, .inl (by simp)⟩

theorem oneByOne_written (n : Nat) : 2 * writtenAll Coll.new ((oneByOne n).map mk) + 2 ≥ n * (n + 1) := by
  have hall : ∀ cs : List (Chunk Int), List.Forall₂ IsChunk (cs.map mk) cs := by
    intro cs
    induction cs with
    | nil => exact .nil
    | cons c cs ih => exact .cons (mk_isChunk c) ih
  rw [C221_exact_partial _ _ (hall _) (oneByOne_stream n)]
  have hterm : ∀ k ∈ List.range (oneByOne n).length, (let p := chunksOf (((oneByOne n)[k]?.map (·.id)).getD "") [(oneByOne n).take (k + 1)]
      if p.length < 2 then 0 else (allFrames p).length) = if k = 0 then 0 else k + 1 := by
    intro k hk
    have hk' : k < n := by simpa [oneByOne] using hk
    have hid : ((oneByOne n)[k]?.map (·.id)).getD "" = "a" := by simp [oneByOne, hk']
    rw [hid]
    have hc : chunksOf "a" [(oneByOne n).take (k + 1)] = (oneByOne n).take (k + 1) := by
      simp only [chunksOf, List.flatten_cons, List.flatten_nil, List.append_nil, List.filter_eq_self]
      intro c hc
      have := List.mem_of_mem_take hc
      simp only [oneByOne, List.mem_map] at this
      obtain ⟨k, -, rfl⟩ := this
      simp
    have hl : ((oneByOne n).take (k + 1)).length = k + 1 := by simp [oneByOne]; omega
    have hf : ∀ cs : List (Chunk Int), (∀ c ∈ cs, c.frames.length = 1) → (allFrames cs).length = cs.length := by
      intro cs
      induction cs with
      | nil => intro _; rfl
      | cons c cs ih =>
        intro h
        have := ih fun c hc => h c (by simp [hc])
        simp only [allFrames, List.flatMap_cons, List.length_append, List.length_cons] at this ⊢
        rw [this, h c (by simp)]; omega
    simp only [hc, hl]
    rw [hf _ (by
      intro c hc
      have := List.mem_of_mem_take hc
      simp only [oneByOne, List.mem_map] at this
      obtain ⟨k, -, rfl⟩ := this
      rfl), hl]
    by_cases h0 : k = 0
    · simp [h0]
    · rw [if_neg h0, if_neg (by omega)]
  rw [List.map_congr_left hterm]
  have hlen : (oneByOne n).length = n := by simp [oneByOne]
  rw [hlen]
  clear hterm hlen hall
  induction n with
  | zero => simp
  | succ n ih =>
    rw [List.range_succ, List.map_append, List.sum_append]
    simp only [List.map_cons, List.map_nil, List.sum_cons, List.sum_nil]
    by_cases h0 : n = 0
    · subst h0; decide
    · rw [if_neg h0]
      have : (n + 1) * (n + 1 + 1) = n * (n + 1) + 2 * (n + 1) := by
        rw [Nat.mul_comm (n + 1) (n + 1 + 1), Nat.add_mul (n+1) 1, Nat.add_mul n 1]; omega
      omega

/-- **C221 is false of the code.** Every chunk is appended by copying all that was collected before: whatever the factor `k`, some stream makes the collector write more than `k` times the
frames collected. -/
theorem C221_linear_false (k : Nat) : ∃ (es : List (Entry Int)) (cs : List (Chunk Int)), List.Forall₂ IsChunk es cs ∧ (∀ i, Stream (chunksOf i [cs])) ∧
    k * (allFrames cs).length < writtenAll Coll.new es := by
  have hall : ∀ cs : List (Chunk Int), List.Forall₂ IsChunk (cs.map mk) cs := by
    intro cs
    induction cs with
    | nil => exact .nil
    | cons c cs ih => exact .cons (mk_isChunk c) ih
  refine ⟨_, oneByOne (2 * k + 2), hall _, oneByOne_stream _, ?_⟩
  have h1 := oneByOne_written (2 * k + 2)
  have h2 : (allFrames (oneByOne (2 * k + 2))).length = 2 * k + 2 := by
    simp [allFrames, oneByOne, List.flatMap_map]
  rw [h2]
  have h3 : (2 * k + 2) * (2 * k + 2 + 1) = 2 * (k * (2 * k + 2)) + 3 * (2 * k + 2) := by
    rw [← Nat.mul_assoc, ← Nat.add_mul, Nat.mul_comm]
  omega

example : List.Forall₂ IsChunk [exA1, exA2] [⟨"a", true, false, none, [1, 2]⟩, ⟨"a", false, true, none, [3]⟩] ∧ writtenAll Coll.new [exA1, exA2] = 3 :=
  ⟨.cons (by decide) (.cons (by decide) .nil), by decide⟩

end DS.Coll
