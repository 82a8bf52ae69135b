import Verif.Props.Threads
import Verif.Props.Collector
/-!
# Several threads that collect outputs (C195)
-/

namespace DS.Conc
open DS.Coll DS.Conv

section
variable {α ρ : Type}

theorem held_put (s : Coll α) (i : String) (e : Entry α) : (held s).set (false, i) (some (some e)) = held (s.put i e) := by
  funext ⟨b, j⟩
  cases b <;> simp only [held, Store.set, Coll.put, Prod.mk.injEq, true_and, false_and, if_false, if_true, Bool.false_eq_true, reduceCtorEq]
  · split <;> rfl
  · rfl

theorem held_close (s : Coll α) (i : String) : (held s).set (true, i) (some none) = held (s.close i) := by
  funext ⟨b, j⟩
  cases b <;> simp only [held, Store.set, Coll.close, Prod.mk.injEq, true_and, false_and, if_false, if_true, Bool.false_eq_true, reduceCtorEq]
  split <;> simp

/-- Where `update` goes on. -/
def next (fail : PyErr → Prog CKey (CVal α) ρ) (k : Prog CKey (CVal α) ρ) : Option PyErr → Prog CKey (CVal α) ρ
  | some e => fail e
  | none => k

theorem storeP_alone (i : String) (sos : Bool) (x : Entry α) (fail : PyErr → Prog CKey (CVal α) ρ) (k : Prog CKey (CVal α) ρ) (s : Coll α) :
    Reach (held s, storeP i sos x fail k) (held (store s i sos x).1, next fail k (store s i sos x).2) := by
  unfold storeP store
  rcases h : s.entries i with _ | a
  · refine .has none (by simp [held, h]) ?_
    cases sos with
    | false => exact Reach.refl _
    | true =>
      refine Reach.cons ?_
      simp only [Option.isSome_none, Bool.false_eq_true, if_false, if_true, Prog.step, held_put]
      exact Reach.refl _
  · refine .has (some (some a)) (by simp [held, h]) ?_
    cases sos with
    | true => exact .refl _
    | false =>
      refine .get (some (some a)) (by simp [held, h]) ?_
      simp only
      rcases catEntry a x with e | y
      · exact .refl _
      · refine .cons ?_
        simp only [Prog.step, held_put]
        exact .refl _

theorem updateP_alone (x : Entry α) (fail : PyErr → Prog CKey (CVal α) ρ) (k : Prog CKey (CVal α) ρ) (s : Coll α) :
    Reach (held s, updateP x fail k) (held (updateUnary s x).1, next fail k (updateUnary s x).2) := by
  unfold updateP updateUnary
  rcases pyGet x.md.ids 0 with e | i
  · exact .refl _
  · simp only
    cases hc : s.closed i with
    | true =>
      refine .has (some none) (by simp [held, hc]) ?_
      exact .refl _
    | false =>
      refine .has none (by simp [held, hc]) ?_
      simp only [Option.isSome_none, Bool.false_eq_true, if_false]
      rcases item x.md.eos with e | eos
      · exact .refl _
      · rcases item x.md.sos with e | sos
        · exact .refl _
        · cases eos with
          | false => exact storeP_alone i sos x fail k s
          | true =>
            refine .cons ?_
            simp only [if_true, Prog.step, held_close]
            exact storeP_alone i sos x fail k (s.close i)

theorem rowsP_alone (xs : List (Entry α)) (fail : PyErr → Prog CKey (CVal α) ρ) (k : Prog CKey (CVal α) ρ) (s : Coll α) :
    Reach (held s, rowsP fail k xs) (held (updateRows s xs).1, next fail k (updateRows s xs).2) := by
  induction xs generalizing s with
  | nil => exact .refl _
  | cons x xs ih =>
    unfold rowsP updateRows
    rcases x.md.maxLength with e | ml
    · exact .refl _
    · simp only
      split
      · refine (updateP_alone x fail _ s).trans ?_
        rcases updateUnary s x with ⟨s', _ | e⟩
        · exact ih s'
        · exact .refl _
      · exact ih s

theorem itemP_alone (x : Item α) (fail : PyErr → Prog CKey (CVal α) ρ) (k : Prog CKey (CVal α) ρ) (s : Coll α) :
    Reach (held s, itemP fail k x) (held (updateItem s x).1, next fail k (updateItem s x).2) := by
  cases x with
  | batch x =>
    unfold itemP updateItem
    simp only
    rcases unpad x with e | rows
    · exact .refl _
    · exact rowsP_alone rows fail k s
  | single x =>
    unfold itemP updateItem
    simp only
    split
    · exact updateP_alone x fail k s
    · exact .refl _

theorem collecting_alone (xs : List (Item α)) (acc : List (Option PyErr)) (s : Coll α) : Reach (held s, collecting acc xs) (held (tries s xs).2, .done (acc ++ (tries s xs).1)) := by
  induction xs generalizing acc s with
  | nil =>
    simp only [tries, collecting, List.append_nil]
    exact .refl _
  | cons x xs ih =>
    refine (itemP_alone x _ _ s).trans ?_
    have : next (fun e => collecting (acc ++ [some e]) xs) (collecting (acc ++ [none]) xs) (updateItem s x).2 = collecting (acc ++ [(updateItem s x).2]) xs := by
      rcases (updateItem s x).2 with _ | e <;> rfl
    rw [this]
    simpa [tries] using ih (acc ++ [(updateItem s x).2]) (updateItem s x).1

theorem updateP_within {own : CKey → Prop} {x : Entry α} (hx : ∀ i ∈ x.md.ids, ∀ b, own (b, i)) {fail : PyErr → Prog CKey (CVal α) ρ} (hf : ∀ e, Within own (fail e)) {k : Prog CKey (CVal α) ρ} (hk : Within own k) :
    Within own (updateP x fail k) := by
  unfold updateP
  rcases h : pyGet x.md.ids 0 with e | i
  · exact hf e
  · have hi : ∀ b, own (b, i) := by
      apply hx
      revert h
      cases x.md.ids with
      | nil => intro h; cases h
      | cons j js =>
        intro h
        have : i = j := by
          have h : (Except.ok j : Py String) = .ok i := h
          injection h with h
          exact h.symm
        simp [this]
    have hs : ∀ sos, Within own (storeP i sos x fail k) := by
      intro sos
      refine ⟨hi false, fun known => ?_⟩
      cases known with
      | false =>
        cases sos with
        | false => exact hf _
        | true => exact ⟨hi false, hk⟩
      | true =>
        cases sos with
        | true => exact hf _
        | false =>
          refine ⟨hi false, fun v => ?_⟩
          rcases v with _ | _ | a
          · exact hf _
          · exact hf _
          · simp only
            rcases catEntry a x with e | y
            · exact hf e
            · exact ⟨hi false, hk⟩
    refine ⟨hi true, fun closed => ?_⟩
    cases closed with
    | true => exact hf _
    | false =>
      simp only [Bool.false_eq_true, if_false]
      rcases item x.md.eos with e | eos
      · exact hf _
      · rcases item x.md.sos with e | sos
        · exact hf _
        · cases eos with
          | false => exact hs sos
          | true => exact ⟨hi true, hs sos⟩

theorem rowsP_within {own : CKey → Prop} {xs : List (Entry α)} (hx : ∀ x ∈ xs, ∀ i ∈ x.md.ids, ∀ b, own (b, i)) {fail : PyErr → Prog CKey (CVal α) ρ} (hf : ∀ e, Within own (fail e)) {k : Prog CKey (CVal α) ρ} (hk : Within own k) :
    Within own (rowsP fail k xs) := by
  induction xs with
  | nil => exact hk
  | cons x xs ih =>
    have ih := ih fun y hy => hx y (by simp [hy])
    unfold rowsP
    rcases x.md.maxLength with e | ml
    · exact hf e
    · simp only
      split
      · exact updateP_within (hx x (by simp)) hf ih
      · exact ih

end

section
variable {α ρ : Type} [Zero α]

theorem itemP_within {own : CKey → Prop} {x : Item α} {cs : List (Chunk α)} (hx : Carries x cs) (ho : ∀ c ∈ cs, ∀ b, own (b, c.id)) {fail : PyErr → Prog CKey (CVal α) ρ} (hf : ∀ e, Within own (fail e))
    {k : Prog CKey (CVal α) ρ} (hk : Within own k) : Within own (itemP fail k x) := by
  cases x with
  | batch x =>
    unfold itemP
    simp only [unpad_batch x cs hx.1 hx.2]
    refine rowsP_within (fun y hy i hi b => ?_) hf hk
    obtain ⟨c, hc, rfl⟩ := List.mem_map.1 hy
    have : i = c.id := by simpa [Meta.ofRows] using hi
    subst this
    exact ho c hc b
  | single e =>
    obtain ⟨c, rfl, hc⟩ := hx
    unfold itemP
    simp only
    split
    · refine updateP_within (fun i hi b => ?_) hf hk
      have : i = c.id := by
        rw [isChunk_mk hc] at hi
        simpa [mk, Chunk.row, Meta.ofRows] using hi
      subst this
      exact ho c (by simp) b
    · exact hf _

theorem collecting_within {own : CKey → Prop} {xs : List (Item α)} {css : List (List (Chunk α))} (h : List.Forall₂ Carries xs css) (ho : ∀ cs ∈ css, ∀ c ∈ cs, ∀ b, own (b, c.id)) (acc : List (Option PyErr)) :
    Within own (collecting acc xs) := by
  induction h generalizing acc with
  | nil => trivial
  | cons h _ ih =>
    have ih := ih fun cs hcs => ho cs (by simp [hcs])
    exact itemP_within h (ho _ (by simp)) (fun e => ih _) (ih _)

/-- **C195.** Any number of threads put outputs into one collector, each its own ones, one call of `update` after the other, catching exceptions; no stream is used by two threads. Then, for every interleaving of their operations on the dictionary and on the set of closed ids, every
thread ends after a number of its own operations that does not depend on the others; its calls have the outcomes, and for its streams the collector holds the outputs and has the closed ids, as when the thread runs alone. Other streams are as before. -/
theorem C195_collecting (s : Coll α) (own : Nat → String → Prop) (disj : ∀ t u i, own t i → own u i → t = u) (xs : Nat → List (Item α)) (css : Nat → List (List (Chunk α)))
    (h : ∀ t, List.Forall₂ Carries (xs t) (css t)) (ho : ∀ t, ∀ cs ∈ css t, ∀ c ∈ cs, own t c.id) :
    (∀ t, ∃ N, ∀ ts, (N ≤ ts.count t → ∃ r, (sched (held s) (fun u => collecting [] (xs u)) ts).2 t = .done r) ∧
      ∀ r, (sched (held s) (fun u => collecting [] (xs u)) ts).2 t = .done r →
        r = (tries s (xs t)).1 ∧ ∀ b i, own t i → (sched (held s) (fun u => collecting [] (xs u)) ts).1 (b, i) = held (tries s (xs t)).2 (b, i)) ∧
    ∀ ts b i, (∀ t, ¬ own t i) → (sched (held s) (fun u => collecting [] (xs u)) ts).1 (b, i) = held s (b, i) := by
  have hw : ∀ t, Within (fun k : CKey => own t k.2) (collecting [] (xs t)) := fun t => collecting_within (h t) (fun cs hcs c hc _ => ho t cs hcs c hc) []
  constructor
  · intro t
    obtain ⟨N, hN⟩ := sched_result (fun t (k : CKey) => own t k.2) (fun t u k => disj t u k.2) t (held s) (fun u => collecting [] (xs u)) hw _ _ (collecting_alone (xs t) [] s)
    refine ⟨N, fun ts => ⟨fun hle => ⟨_, (hN ts).1 hle⟩, fun r hr => ?_⟩⟩
    obtain ⟨h3, h4⟩ := (hN ts).2 r hr
    exact ⟨by simpa using h3, fun b i hi => h4 (b, i) hi⟩
  · intro ts b i hi
    exact sched_other (fun t (k : CKey) => own t k.2) ts (held s) _ hw (b, i) hi

/-- Two threads with the streams `a` and `b`. -/
def exItems : Nat → List (Item Int)
  | 0 => [.single ⟨⟨["a"], [true], [false], [2], none⟩, [1, 2]⟩, .batch { md := ⟨["a"], [false], [true], [1], none⟩, width := 2, rows := [[3, 0]] }]
  | 1 => [.single ⟨⟨["b"], [true], [true], [1], none⟩, [5]⟩, .single ⟨⟨["b"], [false], [true], [1], none⟩, [6]⟩]
  | _ => []

def exChunks : Nat → List (List (Chunk Int))
  | 0 => [[⟨"a", true, false, none, [1, 2]⟩], [⟨"a", false, true, none, [3]⟩]]
  | 1 => [[⟨"b", true, true, none, [5]⟩], [⟨"b", false, true, none, [6]⟩]]
  | _ => []

example : (∀ t, List.Forall₂ Carries (exItems t) (exChunks t)) ∧ ∀ t, ∀ cs ∈ exChunks t, ∀ c ∈ cs, exOwn t c.id := by
  constructor
  · intro t
    match t with
    | 0 => exact .cons ⟨_, rfl, by decide⟩ (.cons ⟨by simp, by decide⟩ .nil)
    | 1 => exact .cons ⟨_, rfl, by decide⟩ (.cons ⟨_, rfl, by decide⟩ .nil)
    | _ + 2 => exact .nil
  · intro t
    match t with
    | 0 => decide
    | 1 => decide
    | _ + 2 => intro cs hcs; simp [exChunks] at hcs

example :
    let o := sched (held Coll.new) (fun t => collecting [] (exItems t)) [0, 1, 1, 0, 0, 1, 0, 1, 1, 0, 0, 1, 0, 1, 0]
    (o.2 0).result? = some [none, none] ∧ (o.2 1).result? = some [none, some .valueError] ∧ (o.1 (false, "a")).map (·.map fun e => e.frames) = some (some [1, 2, 3]) ∧
      (o.1 (false, "b")).map (·.map fun e => e.frames) = some (some [5]) ∧ (o.1 (true, "a")).isSome = true ∧ (o.1 (true, "b")).isSome = true := by decide

end
end DS.Conc
