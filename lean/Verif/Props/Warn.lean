import Verif.Model.Warn
/-! # C152, C153: `suppress_warnings` -/

namespace DS.Warn

/-- A warning of dreamstream: a `TorchStreamWarning` or a `TorchStreamFallbackWarning`. -/
def OfStreams (w : Warning) : Prop := w.cat = .stream ∨ w.cat = .fallback

instance (w : Warning) : Decidable (OfStreams w) := by unfold OfStreams; infer_instance

/-- No event changes the filters. -/
def Quiet (es : List Event) : Prop := ∀ e ∈ es, ∃ w, e = .warn w

theorem seen_version (s : State) (es : List Event) (h : ∀ x ∈ s.seen, x.2 ≤ s.version) : ∀ x ∈ (play s es).2.seen, x.2 ≤ (play s es).2.version := by
  induction es generalizing s with
  | nil => exact h
  | cons e es ih =>
    cases e with
    | suppress b => exact ih _ fun x hx => Nat.le_succ_of_le (h x hx)
    | filter a c => exact ih _ fun x hx => Nat.le_succ_of_le (h x hx)
    | warn w =>
      simp only [play]
      apply ih
      unfold emit
      split
      · exact h
      · split <;> try exact h
        intro x hx
        rcases List.mem_cons.1 hx with rfl | hx
        · exact Nat.le_refl _
        · exact h x hx

theorem emit_keeps (w : Warning) (s : State) : (emit w s).2.filters = s.filters ∧ (emit w s).2.version = s.version := by
  unfold emit
  split
  · exact ⟨rfl, rfl⟩
  · split <;> exact ⟨rfl, rfl⟩

theorem play_append (s : State) (a b : List Event) : play s (a ++ b) = ((play s a).1 ++ (play (play s a).2 b).1, (play (play s a).2 b).2) := by
  induction a generalizing s with
  | nil => rfl
  | cons e a ih => cases e <;> simp [play, ih]

theorem stream_first (w : Warning) (hw : OfStreams w) (a : Action) (fs : List (Action × Cat)) : actionOf ((a, .stream) :: fs) w.cat = a := by
  unfold actionOf
  rcases hw with h | h <;> rw [h] <;> rfl

theorem ignored (s : State) (fs : List (Action × Cat)) (hs : s.filters = (.ignore, .stream) :: fs) (es : List Event) (hq : Quiet es)
    (w : Warning) (hw : OfStreams w) (x : Effect) (hx : (w, x) ∈ (play s es).1) : x = .silent := by
  induction es generalizing s with
  | nil => simp [play] at hx
  | cons e es ih =>
    obtain ⟨v, rfl⟩ := hq e (by simp)
    simp only [play, List.mem_cons] at hx
    rcases hx with hx | hx
    · obtain ⟨rfl, rfl⟩ := Prod.mk.inj hx
      unfold emit
      split
      · rfl
      · rw [hs, stream_first w hw]
    · exact ih _ (by rw [(emit_keeps v s).1, hs]) (fun e he => hq e (by simp [he])) hx

/-- **C152.** After any history, `suppress_warnings(True)` silences every warning of dreamstream until the filters are changed again: none is shown and none is raised as an
exception, whatever filters were set before. -/
theorem C152_suppress (s : State) (before after : List Event) (hq : Quiet after) (w : Warning) (hw : OfStreams w) (x : Effect)
    (hx : (w, x) ∈ (play (play s (before ++ [.suppress true])).2 after).1) : x = .silent := by
  refine ignored _ (((play s before).2.filters).erase (.ignore, .stream)) ?_ after hq w hw x hx
  rw [play_append]
  rfl

/-- `-W error`, then `suppress_warnings(True)`: the fallback warning of `flatten` is an exception before and silent afterwards; other warnings stay exceptions. -/
example :
    let w : Warning := ⟨"overrides", 818, "flatten", .fallback⟩
    let v : Warning := ⟨"user", 1, "old", .other "DeprecationWarning"⟩
    (play ⟨[], 0, []⟩ [.filter .error .warning, .warn w, .suppress true, .warn w, .warn v]).1 = [(w, .raised), (w, .silent), (v, .raised)] := by decide

/-- C152, other warnings: `suppress_warnings` never changes what the filters say about a category that is no stream category. -/
theorem C152_others (s : State) (b : Bool) (n : String) : actionOf (suppressWarnings b s).filters (.other n) = actionOf s.filters (.other n) ∧
    actionOf (suppressWarnings b s).filters .runtime = actionOf s.filters .runtime := by
  have key : ∀ (c : Cat) (a : Action) (fs : List (Action × Cat)), c.sub .stream = false → actionOf ((a, .stream) :: fs.erase (a, .stream)) c = actionOf fs c := by
    intro c a fs hc
    unfold actionOf
    rw [List.find?_cons_of_neg (by simpa using hc)]
    suffices h : (fs.erase (a, .stream)).find? (fun f => c.sub f.2) = fs.find? (fun f => c.sub f.2) by rw [h]
    induction fs with
    | nil => rfl
    | cons f fs ih =>
      by_cases hf : f = (a, .stream)
      · subst hf
        rw [List.erase_cons_head, List.find?_cons_of_neg (by simpa using hc)]
      · rw [List.erase_cons_tail (by simpa using hf)]
        by_cases h2 : c.sub f.2 = true
        · simp [List.find?_cons, h2]
        · simp [List.find?_cons, h2, ih]
  exact ⟨key _ _ _ (by simp [Cat.sub]), key _ _ _ (by decide)⟩

example : actionOf (suppressWarnings true ⟨[(.ignore, .other "DeprecationWarning"), (.error, .warning)], 3, []⟩).filters (.other "DeprecationWarning") = .ignore ∧
    actionOf (suppressWarnings true ⟨[(.ignore, .other "DeprecationWarning"), (.error, .warning)], 3, []⟩).filters .runtime = .error := by decide

/-- The effects of the warning `w` in a list of effects, in order. -/
def effectsOf (w : Warning) (l : List (Warning × Effect)) : List Effect := (l.filter fun p => decide (p.1 = w)).map (·.2)

theorem effectsOf_cons (w v : Warning) (x : Effect) (l : List (Warning × Effect)) :
    effectsOf w ((v, x) :: l) = if v = w then x :: effectsOf w l else effectsOf w l := by
  unfold effectsOf
  by_cases h : v = w <;> simp [h]

theorem silent_again (s : State) (es : List Event) (hq : Quiet es) (w : Warning) (h : (w, s.version) ∈ s.seen) :
    ∀ x ∈ effectsOf w (play s es).1, x = .silent := by
  induction es generalizing s with
  | nil => simp [play, effectsOf]
  | cons e es ih =>
    obtain ⟨v, rfl⟩ := hq e (by simp)
    simp only [play, effectsOf_cons]
    have hk := emit_keeps v s
    have hs : (w, (emit v s).2.version) ∈ (emit v s).2.seen := by
      rw [hk.2]
      unfold emit
      split
      · exact h
      · split <;> simp [h]
    have := ih _ (fun e he => hq e (by simp [he])) hs
    split
    · rename_i hv; subst hv
      intro x hx
      rcases List.mem_cons.1 hx with rfl | hx
      · simp [emit, h]
      · exact this x hx
    · exact this

theorem shown_once (s : State) (fs : List (Action × Cat)) (hs : s.filters = (.default, .stream) :: fs) (es : List Event) (hq : Quiet es)
    (w : Warning) (hw : OfStreams w) (hm : .warn w ∈ es) (hn : (w, s.version) ∉ s.seen) :
    ∃ rest, effectsOf w (play s es).1 = .shown :: rest ∧ ∀ x ∈ rest, x = .silent := by
  induction es generalizing s with
  | nil => simp at hm
  | cons e es ih =>
    obtain ⟨v, rfl⟩ := hq e (by simp)
    have hq' : Quiet es := fun e he => hq e (by simp [he])
    have hk := emit_keeps v s
    simp only [play, effectsOf_cons]
    by_cases hv : v = w
    · subst hv
      have he : emit v s = (.shown, { s with seen := (v, s.version) :: s.seen }) := by
        unfold emit
        rw [if_neg hn, hs, stream_first v hw]
      rw [if_pos rfl, he]
      exact ⟨_, rfl, silent_again _ es hq' v (by simp)⟩
    · rw [if_neg hv]
      have hm' : Event.warn w ∈ es := by
        rcases List.mem_cons.1 hm with h | h
        · injection h with h; exact absurd h.symm hv
        · exact h
      refine ih _ (by rw [hk.1, hs]) hq' hm' ?_
      rw [hk.2]
      unfold emit
      split
      · exact hn
      · split <;> simp [hn, Ne.symm hv]

/-- C153 is false of the code. `suppress_warnings(True)` followed by `suppress_warnings(False)` does not restore what was set before: if warnings were to be shown every time, or to be
raised as exceptions, they are shown once afterwards. -/
theorem C153_restore_false :
    let w : Warning := ⟨"overrides", 818, "flatten", .fallback⟩
    (play ⟨[], 0, []⟩ [.filter .always .runtime, .warn w, .warn w, .suppress true, .suppress false, .warn w, .warn w]).1 =
      [(w, .shown), (w, .shown), (w, .shown), (w, .silent)] ∧
    (play ⟨[], 0, []⟩ [.filter .error .warning, .warn w, .suppress true, .suppress false, .warn w]).1 = [(w, .raised), (w, .shown)] := by decide

/-- C153, the part that holds. After any history (from any filters, nothing having been shown before the history), `suppress_warnings(False)` turns the warnings of dreamstream on: until the filters are changed again, each of them is
shown the first time it is given, even if it had been shown before, and not shown again. So if nobody had set a filter for them, everything is as at the start. Missing: other settings. -/
theorem C153_restore_partial (filters : List (Action × Cat)) (before after : List Event) (hq : Quiet after) (w : Warning) (hw : OfStreams w) (hm : .warn w ∈ after) :
    ∃ rest, effectsOf w (play (play ⟨filters, 0, []⟩ (before ++ [.suppress false])).2 after).1 = .shown :: rest ∧ ∀ x ∈ rest, x = .silent := by
  rw [play_append]
  refine shown_once _ (((play ⟨filters, 0, []⟩ before).2.filters).erase (.default, .stream)) rfl after hq w hw hm ?_
  intro hc
  have := seen_version ⟨filters, 0, []⟩ before (by simp) _ hc
  have h2 : ((play ⟨filters, 0, []⟩ before).2.version + 1) ≤ (play ⟨filters, 0, []⟩ before).2.version := this
  omega

example :
    let w : Warning := ⟨"overrides", 818, "flatten", .fallback⟩
    let v : Warning := ⟨"tensor", 809, "sum", .stream⟩
    (play ⟨[], 0, []⟩ [.warn w, .warn w, .suppress true, .warn w, .suppress false, .warn v, .warn w, .warn w, .warn v]).1 =
      [(w, .shown), (w, .silent), (w, .silent), (v, .shown), (w, .shown), (w, .silent), (v, .silent)] := by decide

end DS.Warn
