import Verif.Spec.CollectorDict
import Verif.Props.Collector
/-!
# Taking outputs out of a collector (C193)
-/

namespace DS.Coll
open Meta Conv

variable {α : Type} [Zero α]

theorem act_collect (s : Coll α) {e : Entry α} {c : Chunk α} (h : IsChunk e c) : s.act (.collect e) = updateUnary s (mk c) := update_single s e c h

theorem isChunk_eq {e : Entry α} {c d : Chunk α} (hc : IsChunk e c) (hd : IsChunk e d) : c.id = d.id ∧ c.eos = d.eos ∧ c.sos = d.sos := by
  have h : c.row = d.row := by
    have := hc.2.1.symm.trans hd.2.1
    simpa using this
  exact ⟨congrArg Row.id h, congrArg Row.eos h, congrArg Row.sos h⟩

theorem unary_closed_iff (s : Coll α) (x : Chunk α) (i : String) : (updateUnary s (mk x)).1.closed i = true ↔ s.closed i = true ∨ x.id = i ∧ x.eos = true := by
  rw [updateUnary_mk]
  split
  · rename_i h
    constructor
    · exact .inl
    · rintro (h' | ⟨rfl, -⟩)
      · exact h'
      · exact h
  · have : ∀ (t : Coll α) b e, (store t x.id b e).1.closed = t.closed := by
      intro t b e
      unfold store
      split
      · split
        · rfl
        · split <;> rfl
      · split <;> rfl
    rw [this]
    cases he : x.eos with
    | false => simp
    | true =>
      simp only [if_true, Coll.close, and_true]
      by_cases hi : i = x.id
      · simp [hi]
      · rw [if_neg hi]
        constructor
        · exact .inl
        · rintro (h | h)
          · exact h
          · exact absurd h.symm hi

theorem acts_closed (as : List (Act α)) (h : Chunks as) (s : Coll α) (i : String) : (s.acts as).closed i = true ↔ s.closed i = true ∨ Ended as i := by
  induction as generalizing s with
  | nil => simp [Coll.acts, Ended]
  | cons a as ih =>
    rw [Coll.acts, ih (fun e he => h e (List.mem_cons_of_mem _ he))]
    cases a with
    | collect e =>
      obtain ⟨c, hc⟩ := h e (by simp)
      rw [act_collect s hc, unary_closed_iff]
      constructor
      · rintro ((h1 | ⟨h1, h2⟩) | ⟨e', c', h1, h2⟩)
        · exact .inl h1
        · exact .inr ⟨e, c, by simp, hc, h1, h2⟩
        · exact .inr ⟨e', c', by simp [h1], h2⟩
      · rintro (h1 | ⟨e', c', h1, h2, h3, h4⟩)
        · exact .inl (.inl h1)
        · rcases List.mem_cons.1 h1 with h1 | h1
          · injection h1 with h1
            subst h1
            obtain ⟨g1, g2, -⟩ := isChunk_eq hc h2
            exact .inl (.inr ⟨g1.trans h3, g2.trans h4⟩)
          · exact .inr ⟨e', c', h1, h2, h3, h4⟩
    | pop j =>
      have : (s.act (.pop j)).1.closed = s.closed := by
        simp only [Coll.act, Coll.pop]
        split <;> rfl
      rw [this]
      refine or_congr Iff.rfl ⟨?_, ?_⟩
      · rintro ⟨e, c, h1, h2⟩; exact ⟨e, c, by simp [h1], h2⟩
      · rintro ⟨e, c, h1, h2⟩; exact ⟨e, c, by simpa using h1, h2⟩
    | clear =>
      have : (s.act .clear).1.closed = s.closed := rfl
      rw [this]
      refine or_congr Iff.rfl ⟨?_, ?_⟩
      · rintro ⟨e, c, h1, h2⟩; exact ⟨e, c, by simp [h1], h2⟩
      · rintro ⟨e, c, h1, h2⟩; exact ⟨e, c, by simpa using h1, h2⟩

theorem acts_append (as bs : List (Act α)) (s : Coll α) : s.acts (as ++ bs) = (s.acts as).acts bs := by
  induction as generalizing s with
  | nil => rfl
  | cons a as ih => exact ih _

theorem unary_other (s : Coll α) (x : Chunk α) (i : String) (h : x.id ≠ i) : (updateUnary s (mk x)).1.entries i = s.entries i := by
  rw [updateUnary_mk]
  split
  · rfl
  · unfold store
    rw [entries_state]
    have hp : ∀ (t : Coll α) e, (t.put x.id e).entries i = t.entries i := fun t e => by simp [Coll.put, Ne.symm h]
    split
    · split
      · rw [entries_state]
      · split
        · rw [hp, entries_state]
        · rw [entries_state]
    · split
      · rw [hp, entries_state]
      · rw [entries_state]

theorem acts_none (as : List (Act α)) (h : Chunks as) (s : Coll α) (i : String) (hi : s.entries i = none) (ha : ∀ e c, Act.collect e ∈ as → IsChunk e c → c.id ≠ i) :
    (s.acts as).entries i = none := by
  induction as generalizing s with
  | nil => exact hi
  | cons a as ih =>
    refine ih (fun e he => h e (List.mem_cons_of_mem _ he)) _ ?_ fun e c he => ha e c (List.mem_cons_of_mem _ he)
    cases a with
    | collect e =>
      obtain ⟨c, hc⟩ := h e (by simp)
      rw [act_collect s hc, unary_other _ _ _ (ha e c (by simp) hc)]
      exact hi
    | pop j =>
      simp only [Coll.act, Coll.pop]
      split
      · simp only
        split
        · rfl
        · exact hi
      · exact hi
    | clear => rfl

theorem absent_none {as : List (Act α)} (h : Chunks as) {i : String} (ha : Absent as i) : ((Coll.new : Coll α).acts as).entries i = none := by
  obtain ⟨as₁, as₂, rfl, h1, h2⟩ := ha
  rw [acts_append]
  refine acts_none as₂ (fun e he => h e (List.mem_append_right _ he)) _ i ?_ h2
  rcases h1 with rfl | ⟨as₀, rfl | rfl⟩
  · rfl
  · rw [acts_append]; rfl
  · rw [acts_append]
    simp only [Coll.acts, Coll.act, Coll.pop]
    split
    · simp
    · rename_i hn
      exact hn

/-- **C193 (partial, exact).** A program collects chunks and takes outputs out of the collector (`pop`, `del`, `clear`), in any order. When nothing is held for an id, the next chunk of it is collected, as the first one of a
new output, if and only if it is marked as start and no chunk of this id that was marked as end has been seen; otherwise it is refused with a ValueError.
Missing: new streams with the id of one that was finished (`C193_taken_false`). -/
theorem C193_taken_partial (as : List (Act α)) (h : Chunks as) (e : Entry α) (c : Chunk α) (hc : IsChunk e c) (ha : Absent as c.id) :
    ((((Coll.new : Coll α).acts as).act (.collect e)).2 = none ↔ c.sos = true ∧ ¬ Ended as c.id) ∧
    (c.sos = true → ¬ Ended as c.id → (((Coll.new : Coll α).acts as).act (.collect e)).1.entries c.id = some e) ∧
    (∀ err, (((Coll.new : Coll α).acts as).act (.collect e)).2 = some err → err = .valueError) ∧
    ∀ j, j ≠ c.id → (((Coll.new : Coll α).acts as).act (.collect e)).1.entries j = ((Coll.new : Coll α).acts as).entries j := by
  have hn := absent_none h ha
  have hcl := acts_closed as h Coll.new c.id
  simp only [Coll.new, Bool.false_eq_true, false_or] at hcl
  change ((Coll.new : Coll α).acts as).closed c.id = true ↔ _ at hcl
  obtain rfl := isChunk_mk hc
  rw [act_collect _ hc]
  by_cases hen : Ended as c.id
  · rw [unary_closed _ _ (hcl.2 hen)]
    exact ⟨⟨fun h => (by cases h), fun h => absurd hen h.2⟩, fun _ h => absurd hen h, fun err he => by injection he with he; exact he.symm, fun j _ => rfl⟩
  · have hcf : ((Coll.new : Coll α).acts as).closed c.id = false := by
      cases hb : ((Coll.new : Coll α).acts as).closed c.id with
      | false => rfl
      | true => exact absurd (hcl.1 hb) hen
    refine ⟨?_, ?_, ?_, fun j hj => unary_other _ _ _ (Ne.symm hj)⟩
    · rw [unary_new _ _ hcf hn]
      cases hs : c.sos <;> simp [hen]
    · intro hs _
      rw [unary_new _ _ hcf hn, hs]
      simp [Coll.put]
    · intro err
      rw [unary_new _ _ hcf hn]
      cases hs : c.sos
      · simp only [Bool.false_eq_true, if_false]
        intro he; injection he with he; exact he.symm
      · simp

/-- A complete stream of one chunk. -/
def exDone : Entry Int := ⟨⟨["a"], [true], [true], [2], none⟩, [1, 2]⟩

theorem exDone_chunk : IsChunk exDone ⟨"a", true, true, none, [1, 2]⟩ := by decide

/-- The first chunk of a stream. -/
def exOpen : Entry Int := ⟨⟨["a"], [true], [false], [2], none⟩, [1, 2]⟩

theorem exOpen_chunk : IsChunk exOpen ⟨"a", true, false, none, [1, 2]⟩ := by decide

/-- **C193 (false).** A finished output is taken out of the collector; a new stream with the same id is refused all the same, and so it is after `clear()`. -/
theorem C193_taken_false :
    (((Coll.new : Coll Int).acts [.collect exDone, .pop "a"]).entries "a" = none) ∧
    (((Coll.new : Coll Int).acts [.collect exDone, .pop "a"]).act (.collect exOpen)).2 = some .valueError ∧
    (((Coll.new : Coll Int).acts [.collect exDone, .clear]).act (.collect exOpen)).2 = some .valueError ∧
    (((Coll.new : Coll Int).acts [.collect exOpen, .pop "a"]).act (.collect exOpen)).2 = none := by
  refine ⟨rfl, rfl, rfl, rfl⟩

example : Chunks [Act.collect exOpen, .pop "a"] ∧ Absent [Act.collect exOpen, .pop "a"] "a" ∧ ¬ Ended [Act.collect exOpen, .pop "a"] "a" := by
  refine ⟨fun e he => ?_, ⟨[.collect exOpen, .pop "a"], [], rfl, .inr ⟨[.collect exOpen], .inr rfl⟩, by simp⟩, ?_⟩
  · simp at he
    subst he
    exact ⟨_, exOpen_chunk⟩
  · rintro ⟨e, c, he, hc, -, h⟩
    simp at he
    subst he
    rw [(isChunk_eq hc exOpen_chunk).2.1] at h
    cases h

end DS.Coll
