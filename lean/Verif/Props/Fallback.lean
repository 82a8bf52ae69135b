import Verif.Spec.Fallback
import Verif.Props.MaskIndex
/-! # C211: a stream is not lost silently -/

namespace DS.Fall
open Tn Warn

variable {α : Type}

theorem map_bind' {β γ δ : Type} (x : Py β) (f : β → Py γ) (g : γ → δ) : (x >>= f).map g = x >>= fun a => (f a).map g := by
  cases x <;> rfl

theorem getitemW_value (junk : Int) (x : STen α) (top : MTop) : (getitemW junk x top).map Prod.fst = getitemM junk x top := by
  unfold getitemW getitemM
  simp only [map_bind']
  refine congrArg _ (funext fun out => congrArg _ (funext fun d => congrArg _ (funext fun b => congrArg _ (funext fun l => ?_))))
  split
  · simp only [map_bind']; rfl
  · cases findMask 0 d.indices d.affected with
    | none => simp only [map_bind']; rfl
    | some r =>
      obtain ⟨i, dims, m⟩ := r
      by_cases h : b ∈ dims ∧ l ∈ dims
      · simp only [if_pos h]; rfl
      · simp only [if_neg h, map_bind']; rfl

theorem flattenW_value (x : STen α) (s e : Int) : (flattenW x s e).map Prod.fst = Tn.flatten x s e := by
  unfold flattenW Tn.flatten
  simp only [map_bind']
  refine congrArg _ (funext fun out => congrArg _ (funext fun d => ?_))
  split
  · rfl
  · simp only [map_bind']; rfl

theorem scatterW_value (w v : Warning) (args : List (STen α)) (dim : Int) (res : Py (Ten α)) : (scatterW w v args dim res).map Prod.fst = scatter args dim res := by
  unfold scatterW scatter
  simp only [map_bind']
  refine congrArg _ (funext fun out => ?_)
  cases args with
  | nil => rfl
  | cons x xs =>
    simp only [map_bind']
    refine congrArg _ (funext fun b => ?_)
    split
    · rfl
    · simp only [map_bind']
      refine congrArg _ (funext fun l => ?_)
      split
      · rfl
      · simp only [map_bind']
        refine congrArg _ (funext fun q => ?_)
        split
        · simp only [map_bind']; rfl
        · rfl

/-- What the functions give is what the other properties say of them. -/
theorem run_value (c : Call α) : c.run.map Prod.fst = c.value := by
  cases c with
  | getitem junk x top => exact getitemW_value junk x top
  | flatten x s e => exact flattenW_value x s e
  | maskedSelect x mask =>
    simp only [Call.run, Call.value, maskedSelectW, Tn.maskedSelect, map_bind']
    cases inner maskedSelectTen x.t.unnamed mask <;> rfl
  | scatterAdd args dim res => exact scatterW_value _ _ args dim res
  | scatterReduce args dim res => exact scatterW_value _ _ args dim res
  | decoupled res => cases res <;> rfl

theorem value_of_run (c : Call α) (o : Opd α) (ws : List Warning) (e : c.run = .ok (o, ws)) : c.value = .ok o ∧ c.warnings = ws := by
  refine ⟨?_, by simp [Call.warnings, e]⟩
  rw [← run_value, e]
  rfl

/-- A result without a warning is a stream, one with a warning a plain tensor. -/
def Fair (o : Opd α) (ws : List Warning) : Prop :=
  (∃ y, o = .stream y ∧ ws = []) ∨ ∃ t w, o = .plain t ∧ ws = [w] ∧ w.cat = .fallback

theorem getitemW_fair (junk : Int) (x : STen α) (top : MTop) (o : Opd α) (ws : List Warning) (e : getitemW junk x top = .ok (o, ws)) : Fair o ws := by
  unfold getitemW at e
  obtain ⟨out, -, e⟩ := ok_of_bind e
  obtain ⟨d, -, e⟩ := ok_of_bind e
  obtain ⟨b, -, e⟩ := ok_of_bind e
  obtain ⟨l, -, e⟩ := ok_of_bind e
  split at e
  · obtain ⟨u, -, e⟩ := ok_of_bind e
    cases e
    exact .inl ⟨_, rfl, rfl⟩
  · split at e
    · split at e
      · cases e
        exact .inr ⟨_, _, rfl, rfl, rfl⟩
      · obtain ⟨u, -, e⟩ := ok_of_bind e
        obtain ⟨m, -, e⟩ := ok_of_bind e
        cases e
        exact .inl ⟨_, rfl, rfl⟩
    · obtain ⟨u, -, e⟩ := ok_of_bind e
      obtain ⟨m, -, e⟩ := ok_of_bind e
      cases e
      exact .inl ⟨_, rfl, rfl⟩

theorem flattenW_fair (x : STen α) (s t : Int) (o : Opd α) (ws : List Warning) (e : flattenW x s t = .ok (o, ws)) : Fair o ws := by
  unfold flattenW at e
  obtain ⟨out, -, e⟩ := ok_of_bind e
  obtain ⟨a, -, e⟩ := ok_of_bind e
  split at e
  · cases e
    exact .inr ⟨_, _, rfl, rfl, rfl⟩
  · obtain ⟨j, -, e⟩ := ok_of_bind e
    obtain ⟨p, -, e⟩ := ok_of_bind e
    obtain ⟨q, -, e⟩ := ok_of_bind e
    obtain ⟨u, -, e⟩ := ok_of_bind e
    cases e
    exact .inl ⟨_, rfl, rfl⟩

theorem scatterW_fair (w v : Warning) (hw : w.cat = .fallback) (hv : v.cat = .fallback) (args : List (STen α)) (dim : Int) (res : Py (Ten α)) (o : Opd α) (ws : List Warning)
    (e : scatterW w v args dim res = .ok (o, ws)) : Fair o ws := by
  unfold scatterW at e
  obtain ⟨out, -, e⟩ := ok_of_bind e
  cases args with
  | nil => simp at e
  | cons x xs =>
    obtain ⟨b, -, e⟩ := ok_of_bind e
    split at e
    · cases e
      exact .inr ⟨_, _, rfl, rfl, hw⟩
    · obtain ⟨l, -, e⟩ := ok_of_bind e
      split at e
      · cases e
        exact .inr ⟨_, _, rfl, rfl, hw⟩
      · obtain ⟨q, -, e⟩ := ok_of_bind e
        split at e
        · obtain ⟨u, -, e⟩ := ok_of_bind e
          cases e
          exact .inl ⟨_, rfl, rfl⟩
        · cases e
          exact .inr ⟨_, _, rfl, rfl, hv⟩

theorem run_fair (c : Call α) (hd : ¬ c.Decoupled) (o : Opd α) (ws : List Warning) (e : c.run = .ok (o, ws)) : Fair o ws := by
  cases c with
  | getitem junk x top => exact getitemW_fair junk x top o ws e
  | flatten x s t => exact flattenW_fair x s t o ws e
  | maskedSelect x mask =>
    simp only [Call.run, maskedSelectW] at e
    obtain ⟨out, -, e⟩ := ok_of_bind e
    cases e
    exact .inr ⟨_, _, rfl, rfl, rfl⟩
  | scatterAdd args dim res => exact scatterW_fair _ _ rfl rfl args dim res o ws e
  | scatterReduce args dim res => exact scatterW_fair _ _ rfl rfl args dim res o ws e
  | decoupled res => exact absurd ⟨res, rfl⟩ hd

/-- **C211, the warnings that are given.** Indexing, `flatten`, `masked_select`, `scatter_add` and `scatter_reduce` give exactly one warning, a fallback warning, if they give a tensor without metadata, and none otherwise (also if they raise).
Missing: functions that are decoupled and quantisation, which give a tensor without metadata and no warning (`C211_decoupled_partial`). -/
theorem C211_warns_partial (c : Call α) (hd : ¬ c.Decoupled) :
    (c.Loses → ∃ w, c.warnings = [w] ∧ w.cat = .fallback) ∧ (¬ c.Loses → c.warnings = []) := by
  cases hr : c.run with
  | error x =>
    have hv : c.value = .error x := by rw [← run_value, hr]; rfl
    refine ⟨fun ⟨t, ht⟩ => ?_, fun _ => by simp [Call.warnings, hr]⟩
    rw [hv] at ht
    simp at ht
  | ok r =>
    obtain ⟨hv, hw⟩ := value_of_run c r.1 r.2 hr
    rw [hw]
    rcases run_fair c hd r.1 r.2 hr with ⟨y, h1, h2⟩ | ⟨t, w, h1, h2, h3⟩
    · refine ⟨fun ⟨t, ht⟩ => ?_, fun _ => h2⟩
      rw [hv, h1] at ht
      simp at ht
    · exact ⟨fun _ => ⟨w, h2, h3⟩, fun hn => absurd ⟨t, by rw [hv, h1]⟩ hn⟩

/-- A `(B, L, F)` tensor of the examples. -/
def exLost : STen (List Nat) := ⟨exT [2, 3, 4] [some "B", some "L", some "F"], exM2⟩

/-- A mask over batch and length, `flatten` over all axes and `scatter_add` along the batch axis lose the stream and warn; indexing one row does neither. -/
example : (Call.getitem 0 exLost (.bare (.mask (exMask 2 3)))).warnings = [indexWarning] ∧ (Call.flatten exLost 0 1).warnings = [flattenWarning] ∧
    (Call.scatterAdd [exLost] 0 (.ok exLost.t.unnamed)).warnings = [addAxisWarning] ∧ (Call.scatterReduce [⟨exLost.t, { exM2 with chunk := some [0, 1] }⟩, ⟨exLost.t, { exM2' with chunk := some [0, 1] }⟩] 2 (.ok exLost.t.unnamed)).warnings = [reduceMetaWarning] ∧
    (Call.getitem 0 exLost (.tup [.one (.int 1)])).warnings = [] ∧ (Call.flatten exLost 1 2).warnings = [flattenWarning] := by
  refine ⟨rfl, rfl, rfl, by decide +kernel, rfl, rfl⟩

/-- C211, decoupled functions: they never warn. Missing: the warning. -/
theorem C211_decoupled_partial (c : Call α) (hd : c.Decoupled) : c.warnings = [] := by
  obtain ⟨res, rfl⟩ := hd
  cases res <;> rfl

example : (Call.decoupled (.ok exLost.t.unnamed)).Decoupled ∧ (Call.decoupled (.ok exLost.t.unnamed)).Loses := ⟨⟨_, rfl⟩, ⟨_, rfl⟩⟩

/-- C211 is false of the code. `torch.argmax(x)` (a decoupled function) loses the stream without a warning. And of two calls of `flatten` that lose the stream, on different tensors and at different places of the program, only the first is
reported: the warning is attributed to overrides.py and not to the place of the call. -/
theorem C211_silent_false :
    let a : Call (List Nat) := .decoupled (.ok exLost.t.unnamed)
    let f : Call (List Nat) := .flatten exLost 0 1
    let g : Call (List Nat) := .flatten ⟨exT [2, 3] [some "B", some "L"], exM2⟩ 0 1
    a.Loses ∧ f.Loses ∧ g.Loses ∧ (program ⟨[], 0, []⟩ [a, f, g]).map (·.2) = [[], [.shown], [.silent]] := by
  refine ⟨⟨_, rfl⟩, ⟨_, rfl⟩, ⟨_, rfl⟩, ?_⟩
  simp only [program, List.map_cons, List.map_nil]
  refine congrArg₂ List.cons rfl (congrArg₂ List.cons ?_ (congrArg₂ List.cons ?_ rfl))
  · decide +kernel
  · decide +kernel

theorem run_small (c : Call α) (o : Opd α) (ws : List Warning) (e : c.run = .ok (o, ws)) : ws = [] ∨ ∃ w, ws = [w] ∧ w.cat = .fallback := by
  by_cases hd : c.Decoupled
  · have := C211_decoupled_partial c hd
    rw [(value_of_run c o ws e).2] at this
    exact .inl this
  · rcases run_fair c hd o ws e with ⟨y, h1, h2⟩ | ⟨t, w, h1, h2, h3⟩
    · exact .inl h2
    · exact .inr ⟨w, h2, h3⟩

theorem outcome_of_run (c : Call α) (o : Opd α) (ws : List Warning) (e : c.run = .ok (o, ws)) : c.outcome = .gives o := by
  simp [Call.outcome, (value_of_run c o ws e).1]

/-- A call under the state `s`. -/
theorem callStep_eq (s : Warn.State) (c : Call α) :
    (c.warnings = [] ∧ callStep s c = (c.outcome, [], s)) ∨
    ∃ w, c.warnings = [w] ∧ w.cat = .fallback ∧
      callStep s c = (if (emit w s).1 = .raised then .warningRaised else c.outcome, [(emit w s).1], (emit w s).2) := by
  cases hr : c.run with
  | error x =>
    have hv : c.value = .error x := by rw [← run_value, hr]; rfl
    exact .inl ⟨by simp [Call.warnings, hr], by simp [callStep, hr, Call.outcome, hv]⟩
  | ok r =>
    obtain ⟨o, ws⟩ := r
    have ho := outcome_of_run c o ws hr
    have hw := (value_of_run c o ws hr).2
    rcases run_small c o ws hr with rfl | ⟨w, rfl, hc⟩
    · exact .inl ⟨hw, by simp [callStep, hr, emitAll, ho]⟩
    · refine .inr ⟨w, hw, hc, ?_⟩
      cases he : emit w s with
      | mk f s' => cases f <;> simp [callStep, hr, emitAll, he, ho]

theorem program_length (s : Warn.State) (cs : List (Call α)) : (program s cs).length = cs.length := by
  induction cs generalizing s with
  | nil => rfl
  | cons c cs ih => simp [program, ih]

theorem shown_gen (s : Warn.State) (hs : actionOf s.filters .fallback = .default) (cs : List (Call α)) (k : Nat) (c : Call α) (hk : cs[k]? = some c) :
    (program s cs)[k]? = some (c.outcome, c.warnings.map fun w =>
      if (w, s.version) ∈ s.seen ∨ ∃ j : Nat, j < k ∧ ∃ c', cs[j]? = some c' ∧ w ∈ c'.warnings then Effect.silent else .shown) := by
  induction cs generalizing s k with
  | nil => simp at hk
  | cons d cs ih =>
    cases k with
    | zero =>
      simp only [List.getElem?_cons_zero, Option.some.injEq] at hk
      subst hk
      simp only [program, List.getElem?_cons_zero, Option.some.injEq]
      rcases callStep_eq s d with ⟨hw, e⟩ | ⟨w, hw, hc, e⟩
      · rw [e, hw]; rfl
      · rw [e, hw]
        by_cases hm : (w, s.version) ∈ s.seen
        · simp [emit, hm]
        · simp [emit, hm, hc, hs]
    | succ k =>
      simp only [List.getElem?_cons_succ] at hk
      have key : ∀ s' : Warn.State, s'.filters = s.filters → s'.version = s.version →
          (∀ w : Warning, (w, s.version) ∈ s'.seen ↔ (w, s.version) ∈ s.seen ∨ w ∈ d.warnings) → (callStep s d).2.2 = s' →
          (program s (d :: cs))[k + 1]? = some (c.outcome, c.warnings.map fun w =>
            if (w, s.version) ∈ s.seen ∨ ∃ j : Nat, j < k + 1 ∧ ∃ c', (d :: cs)[j]? = some c' ∧ w ∈ c'.warnings then Effect.silent else .shown) := by
        intro s' hf hv hm he
        simp only [program, List.getElem?_cons_succ]
        rw [he, ih s' (by rw [hf, hs]) k hk, hv]
        congr 3
        funext w
        refine if_congr ?_ rfl rfl
        rw [hm]
        constructor
        · rintro ((h | h) | ⟨j, hj, c', hc', hw⟩)
          · exact .inl h
          · exact .inr ⟨0, by omega, d, rfl, h⟩
          · exact .inr ⟨j + 1, by omega, c', hc', hw⟩
        · rintro (h | ⟨j, hj, c', hc', hw⟩)
          · exact .inl (.inl h)
          · cases j with
            | zero => simp only [List.getElem?_cons_zero, Option.some.injEq] at hc'; subst hc'; exact .inl (.inr hw)
            | succ j => exact .inr ⟨j, by omega, c', hc', hw⟩
      rcases callStep_eq s d with ⟨hw, e⟩ | ⟨w, hw, hc, e⟩
      · exact key s rfl rfl (by simp [hw]) (by rw [e])
      · by_cases hm : (w, s.version) ∈ s.seen
        · refine key s rfl rfl (fun v => ?_) (by rw [e]; simp [emit, hm])
          rw [hw, List.mem_singleton]
          exact ⟨.inl, by rintro (h | rfl) <;> assumption⟩
        · refine key { s with seen := (w, s.version) :: s.seen } rfl rfl (fun v => ?_) (by rw [e]; simp [emit, hm, hc, hs])
          rw [hw, List.mem_singleton]
          simp only [List.mem_cons, Prod.mk.injEq, and_true]
          exact or_comm

/-- **C211, what the user sees, by default.** In a new session (no filter says anything about these warnings), a program of calls does what the functions do; the warning of a call that loses the stream is shown
if and only if no earlier call gave the same one. Missing: later losses with the same warning, wherever in the program they happen, and decoupled functions (`C211_silent_false`). -/
theorem C211_shown_partial (filters : List (Action × Cat)) (hs : actionOf filters .fallback = .default) (cs : List (Call α)) (k : Nat) (c : Call α) (hk : cs[k]? = some c) :
    (program ⟨filters, 0, []⟩ cs)[k]? = some (c.outcome, c.warnings.map fun w =>
      if ∃ j : Nat, j < k ∧ ∃ c', cs[j]? = some c' ∧ w ∈ c'.warnings then Effect.silent else .shown) := by
  rw [shown_gen ⟨filters, 0, []⟩ hs cs k c hk]
  simp

/-- Two losses by `flatten` with one by `masked_select` in between; only warnings of other categories are filtered. -/
example : actionOf [(.ignore, .other "DeprecationWarning")] .fallback = .default ∧
    (program ⟨[(.ignore, .other "DeprecationWarning")], 0, []⟩ [.flatten exLost 0 1, .maskedSelect exLost (.plain (exMask 3 4)), .flatten exLost 1 2]).map (·.2) = [[.shown], [.shown], [.silent]] := by
  refine ⟨by decide, ?_⟩
  decide +kernel

/-- C211, what the user sees under a filter "always", "error" or "ignore" for these warnings: every warning is shown; every call that would give one raises it; or no warning is shown. Missing: the losses that give no warning (`C211_decoupled_partial`). -/
theorem C211_filters_partial (s : Warn.State) (hn : s.seen = []) (a : Action) (ha : a ≠ .default) (hs : actionOf s.filters .fallback = a) (cs : List (Call α)) (k : Nat) (c : Call α)
    (hk : cs[k]? = some c) :
    (program s cs)[k]? = some (if a = .error ∧ c.warnings ≠ [] then .warningRaised else c.outcome,
      c.warnings.map fun _ => if a = .always then .shown else if a = .error then .raised else Effect.silent) := by
  have same : ∀ d : Call α, (callStep s d) = (if a = .error ∧ d.warnings ≠ [] then .warningRaised else d.outcome,
      d.warnings.map fun _ => if a = .always then .shown else if a = .error then .raised else Effect.silent, s) := by
    intro d
    rcases callStep_eq s d with ⟨hw, e⟩ | ⟨w, hw, hc, e⟩
    · rw [e, hw]; simp
    · rw [e, hw]
      cases a <;> simp_all [emit]
  induction cs generalizing k with
  | nil => simp at hk
  | cons d cs ih =>
    cases k with
    | zero =>
      simp only [List.getElem?_cons_zero, Option.some.injEq] at hk
      subst hk
      simp [program, same]
    | succ k =>
      simp only [List.getElem?_cons_succ] at hk
      simp only [program, same, List.getElem?_cons_succ]
      exact ih k hk

example : (program ⟨[(.always, .runtime)], 0, []⟩ [.flatten exLost 0 1, .flatten exLost 0 1]).map (·.2) = [[.shown], [.shown]] ∧
    (program ⟨[(.error, .stream)], 0, []⟩ [.flatten exLost 0 1, .flatten exLost 0 1]).map (·.2) = [[.raised], [.raised]] ∧
    actionOf [(.always, .runtime)] .fallback = .always ∧ actionOf [(.error, .stream)] .fallback = .error := by
  refine ⟨by decide +kernel, by decide +kernel, by decide, by decide⟩

theorem getitemW_warns (junk : Int) (x : STen α) (top : MTop) (o : Opd α) (ws : List Warning) (e : getitemW junk x top = .ok (o, ws)) : ∀ w ∈ ws, w = indexWarning := by
  unfold getitemW at e
  obtain ⟨out, -, e⟩ := ok_of_bind e
  obtain ⟨d, -, e⟩ := ok_of_bind e
  obtain ⟨b, -, e⟩ := ok_of_bind e
  obtain ⟨l, -, e⟩ := ok_of_bind e
  split at e
  · obtain ⟨u, -, e⟩ := ok_of_bind e
    cases e
    simp
  · split at e
    · split at e
      · cases e
        simp
      · obtain ⟨u, -, e⟩ := ok_of_bind e
        obtain ⟨m, -, e⟩ := ok_of_bind e
        cases e
        simp
    · obtain ⟨u, -, e⟩ := ok_of_bind e
      obtain ⟨m, -, e⟩ := ok_of_bind e
      cases e
      simp

theorem flattenW_warns (x : STen α) (s t : Int) (o : Opd α) (ws : List Warning) (e : flattenW x s t = .ok (o, ws)) : ∀ w ∈ ws, w = flattenWarning := by
  unfold flattenW at e
  obtain ⟨out, -, e⟩ := ok_of_bind e
  obtain ⟨a, -, e⟩ := ok_of_bind e
  split at e
  · cases e
    simp
  · obtain ⟨j, -, e⟩ := ok_of_bind e
    obtain ⟨p, -, e⟩ := ok_of_bind e
    obtain ⟨q, -, e⟩ := ok_of_bind e
    obtain ⟨u, -, e⟩ := ok_of_bind e
    cases e
    simp

theorem nameIndex_idx {names : List (Option String)} {n : Option String} {k : Nat} (h : nameIndex names n = .ok k) : k = names.idxOf n := by
  unfold nameIndex at h
  split at h
  · cases h; rfl
  · cases h

theorem scatterW_warns (a b : Warning) (args : List (STen α)) (dim : Int) (res : Py (Ten α)) (o : Opd α) (ws : List Warning)
    (e : scatterW a b args dim res = .ok (o, ws)) (w : Warning) (hw : w ∈ ws) : (AlongStream args dim ∧ w = a) ∨ (¬ AlongStream args dim ∧ w = b) := by
  unfold scatterW at e
  obtain ⟨out, -, e⟩ := ok_of_bind e
  cases args with
  | nil => simp at e
  | cons x xs =>
    obtain ⟨p, hp, e⟩ := ok_of_bind e
    have hp := nameIndex_idx hp
    split at e
    · rename_i hd
      cases e
      exact .inl ⟨⟨x, rfl, .inl (by rw [hd, hp])⟩, by simpa using hw⟩
    · rename_i hd
      obtain ⟨l, hl, e⟩ := ok_of_bind e
      have hl := nameIndex_idx hl
      split at e
      · rename_i hd'
        cases e
        exact .inl ⟨⟨x, rfl, .inr (by rw [hd', hl])⟩, by simpa using hw⟩
      · rename_i hd'
        obtain ⟨q, -, e⟩ := ok_of_bind e
        split at e
        · obtain ⟨u, -, e⟩ := ok_of_bind e
          cases e
          simp at hw
        · cases e
          refine .inr ⟨?_, by simpa using hw⟩
          rintro ⟨y, hy, h⟩
          simp only [List.head?_cons, Option.some.injEq] at hy
          subst hy
          rcases h with h | h
          · exact hd (by rw [h, hp])
          · exact hd' (by rw [h, hl])

/-- **C211, where and what.** The warning of a call names the function that was called and is attributed to the line of overrides.py that gives it: one line for each function, and for the two scatters one for each reason. So calls of
different functions never hide each other's warnings. Missing: calls of the same function, and decoupled functions. -/
theorem C211_named_partial (c : Call α) (w : Warning) (hw : w ∈ c.warnings) :
    w.module = "dreamstream.overrides" ∧ w.line = c.place.1 ∧ ∃ why, w.text = c.place.2 ++ " " ++ why := by
  cases hr : c.run with
  | error x => simp [Call.warnings, hr] at hw
  | ok r =>
    obtain ⟨-, hws⟩ := value_of_run c r.1 r.2 hr
    rw [hws] at hw
    cases c with
    | getitem junk x top => rw [getitemW_warns junk x top r.1 r.2 hr w hw]; exact ⟨rfl, rfl, _, rfl⟩
    | flatten x s e => rw [flattenW_warns x s e r.1 r.2 hr w hw]; exact ⟨rfl, rfl, _, rfl⟩
    | maskedSelect x mask =>
      simp only [Call.run, maskedSelectW] at hr
      obtain ⟨out, -, e⟩ := ok_of_bind hr
      cases e
      simp only [List.mem_singleton] at hw
      rw [hw]; exact ⟨rfl, rfl, _, rfl⟩
    | scatterAdd args dim res =>
      rcases scatterW_warns _ _ args dim res r.1 r.2 hr w hw with ⟨h, rfl⟩ | ⟨h, rfl⟩
      · exact ⟨rfl, by simp only [Call.place, if_pos h]; rfl, _, rfl⟩
      · exact ⟨rfl, by simp only [Call.place, if_neg h]; rfl, _, rfl⟩
    | scatterReduce args dim res =>
      rcases scatterW_warns _ _ args dim res r.1 r.2 hr w hw with ⟨h, rfl⟩ | ⟨h, rfl⟩
      · exact ⟨rfl, by simp only [Call.place, if_pos h]; rfl, _, rfl⟩
      · exact ⟨rfl, by simp only [Call.place, if_neg h]; rfl, _, rfl⟩
    | decoupled res =>
      cases res with
      | error e => simp [Call.run, Except.map] at hr
      | ok t => cases hr; simp at hw

/-- A scatter along batch and one along a feature axis with other metadata. -/
example : (Call.scatterAdd [exLost] 0 (.ok exLost.t.unnamed)).warnings.map (·.line) = [753] ∧
    (Call.scatterReduce [⟨exLost.t, { exM2 with chunk := some [0, 1] }⟩, ⟨exLost.t, { exM2' with chunk := some [0, 1] }⟩] 2 (.ok exLost.t.unnamed)).warnings.map (·.line) = [793] := by
  refine ⟨rfl, by decide +kernel⟩

end DS.Fall
