import Verif.Spec.EmptyBatch
import Verif.Lemmas.Conv
import Verif.Lemmas.Tensor
import Verif.Model.Collector
import Verif.Props.ConvChain
/-!
# C213: a batch without sequences
-/

namespace DS.Conv

section
variable {α : Type} [Zero α]

theorem forward_noRows (c : Cfg) (hv : c.Valid) (g : List α → α) (buf : Buf α) (x : ST α) (hx : NoRows x) :
    forward c g buf x = if span c ≤ x.width + 2 * c.padding then .ok ⟨{ x with width := (fits c (x.width + 2 * c.padding)).length }, buf, x.md⟩ else .error .runtimeError := by
  obtain ⟨⟨ids, sos, eos, lengths, chunk⟩, w, rows⟩ := x
  obtain ⟨h1, h2, h3, h4, h5⟩ := hx
  simp only at h1 h2 h3 h4 h5
  subst h1 h2 h3 h4 h5
  have hpre : preHook c buf (⟨⟨[], [], [], [], chunk⟩, w, []⟩ : ST α) = .ok (⟨⟨[], [], [], [], chunk⟩, w, []⟩, true) := by
    unfold preHook
    rw [if_neg (by simp [Meta.allStarting])]
  have happ : applyPadding c (⟨⟨[], [], [], [], chunk⟩, w, []⟩ : ST α) = .ok (⟨[], [], [], [], chunk⟩, c.padding, w, []) := by
    unfold applyPadding
    by_cases hp : c.padding > 0
    · rw [if_pos hp]
      simp [padLengths, Meta.allStarting, Meta.allEnding]
    · rw [if_neg hp, show c.padding = 0 by omega]
  unfold forward conv1d
  rw [hpre]
  simp only [Except.bind_ok', happ, torchConv1d]
  rw [← span_eq c hv]
  by_cases hf : span c ≤ w + 2 * c.padding
  · rw [if_neg (by omega), if_pos hf]
    rw [fits_eq c hv, List.length_range, nOut, if_neg (by rw [← span_eq c hv]; omega), ← span_eq c hv]
    simp [Except.bind_ok', postHook, tempBuffer, Meta.anyEnding, update, Meta.allEnding]
  · rw [if_pos (by omega), if_neg hf]
    rfl

/-- **C213.** A batch without sequences passes through an online stack exactly when an ordinary tensor of its width passes through the ordinary one; what comes out is a batch without sequences of that width, with the
metadata that came in, and all buffers are as before. Otherwise a RuntimeError is raised, as by the ordinary stack. -/
theorem C213_empty (s : List (Layer α × Buf α)) (hv : ∀ e ∈ s, e.1.OK) (x : ST α) (hx : NoRows x) :
    (∀ w, widthAfter (s.map Prod.fst) x.width = some w → chainStep s x = .ok ({ x with width := w }, s)) ∧
    (widthAfter (s.map Prod.fst) x.width = none → chainStep s x = .error .runtimeError) := by
  induction s generalizing x with
  | nil =>
    refine ⟨fun w hw => ?_, fun h => by simp [widthAfter] at h⟩
    simp only [List.map_nil, widthAfter, Option.some.injEq] at hw
    subst hw
    rfl
  | cons e s ih =>
    obtain ⟨l, b⟩ := e
    have hvs : ∀ e ∈ s, e.1.OK := fun e he => hv e (by simp [he])
    cases l with
    | act f =>
      have hstep : (Layer.act f).step b x = .ok (x, b) := by
        obtain ⟨m, w, r⟩ := x
        obtain ⟨h1, _⟩ := hx
        simp only at h1
        subst h1
        rfl
      obtain ⟨h1, h2⟩ := ih hvs x hx
      refine ⟨fun w hw => ?_, fun hn => ?_⟩
      · unfold chainStep
        rw [hstep, Except.bind_ok']
        simp only
        rw [h1 w hw, Except.bind_ok']
      · unfold chainStep
        rw [hstep, Except.bind_ok']
        simp only
        rw [h2 hn]
        rfl
    | conv c g =>
      have hc : c.Valid := hv (.conv c g, b) (by simp)
      have hf := forward_noRows c hc g b x hx
      have hx' : NoRows { x with width := (fits c (x.width + 2 * c.padding)).length } := hx
      obtain ⟨h1, h2⟩ := ih hvs _ hx'
      by_cases hs : span c ≤ x.width + 2 * c.padding
      · rw [if_pos hs] at hf
        have hstep : (Layer.conv c g).step b x = .ok ({ x with width := (fits c (x.width + 2 * c.padding)).length }, b) := by
          show (forward c g b x).map _ = _
          rw [hf]
          rfl
        refine ⟨fun w hw => ?_, fun hn => ?_⟩
        · simp only [List.map_cons, widthAfter, if_pos hs] at hw
          unfold chainStep
          rw [hstep, Except.bind_ok']
          simp only
          rw [h1 w hw, Except.bind_ok']
        · simp only [List.map_cons, widthAfter, if_pos hs] at hn
          unfold chainStep
          rw [hstep, Except.bind_ok']
          simp only
          rw [h2 hn]
          rfl
      · rw [if_neg hs] at hf
        refine ⟨fun w hw => by simp [widthAfter, hs] at hw, fun _ => ?_⟩
        unfold chainStep
        have hstep : (Layer.conv c g).step b x = .error .runtimeError := by
          show (forward c g b x).map _ = _
          rw [hf]
          rfl
        rw [hstep]
        rfl

theorem chainStep_layers (s : List (Layer α × Buf α)) (x y : ST α) (s' : List (Layer α × Buf α)) (h : chainStep s x = .ok (y, s')) : s'.map Prod.fst = s.map Prod.fst := by
  induction s generalizing x y s' with
  | nil => cases h; rfl
  | cons e s ih =>
    obtain ⟨l, b⟩ := e
    unfold chainStep at h
    obtain ⟨⟨z, b'⟩, h1, h⟩ := ok_of_bind h
    obtain ⟨⟨z', s1⟩, h2, h⟩ := ok_of_bind h
    simp only [Except.ok.injEq, Prod.mk.injEq] at h
    obtain ⟨_, rfl⟩ := h
    simp only [List.map_cons, ih z z' s1 h2]

/-- C213: wherever a batch without sequences that is wide enough comes in a schedule, the other calls give and raise what they would without it, and leave the same buffers. -/
theorem C213_schedule (s : List (Layer α × Buf α)) (hv : ∀ e ∈ s, e.1.OK) (xs zs : List (ST α)) (x : ST α) (hx : NoRows x) (w : Nat)
    (hw : widthAfter (s.map Prod.fst) x.width = some w) :
    (∀ ys zs' s', chainRun s (xs ++ zs) = .ok (ys ++ zs', s') → ys.length = xs.length → chainRun s (xs ++ x :: zs) = .ok (ys ++ { x with width := w } :: zs', s')) ∧
    (∀ e, chainRun s (xs ++ zs) = .error e → chainRun s (xs ++ x :: zs) = .error e) := by
  induction xs generalizing s with
  | nil =>
    have hstep := (C213_empty s hv x hx).1 w hw
    refine ⟨fun ys zs' s' h hl => ?_, fun e h => ?_⟩
    · have hys : ys = [] := List.length_eq_zero_iff.1 hl
      subst hys
      simp only [List.nil_append] at h ⊢
      unfold chainRun
      rw [hstep, Except.bind_ok']
      simp only
      rw [h]
      rfl
    · simp only [List.nil_append] at h ⊢
      unfold chainRun
      rw [hstep, Except.bind_ok']
      simp only
      rw [h]
      rfl
  | cons a xs ih =>
    simp only [List.cons_append]
    unfold chainRun
    cases hs : chainStep s a with
    | error e =>
      exact ⟨fun ys zs' s' h _ => absurd h (by intro h; cases h), fun e' h => h⟩
    | ok r =>
      obtain ⟨y, s1⟩ := r
      have hmap : s1.map Prod.fst = s.map Prod.fst := chainStep_layers s a y s1 hs
      have hv1 : ∀ e ∈ s1, e.1.OK := by
        intro e he
        have : e.1 ∈ s.map Prod.fst := hmap ▸ List.mem_map_of_mem he
        obtain ⟨e', he', h'⟩ := List.mem_map.1 this
        exact h' ▸ hv e' he'
      obtain ⟨h1, h2⟩ := ih s1 hv1 (by rw [hmap]; exact hw)
      simp only [Except.bind_ok']
      refine ⟨fun ys zs' s' h hl => ?_, fun e h => ?_⟩
      · cases ys with
        | nil => simp at hl
        | cons y' ys =>
          cases hr : chainRun s1 (xs ++ zs) with
          | error e => rw [hr] at h; cases h
          | ok q =>
            obtain ⟨q1, q2⟩ := q
            rw [hr] at h
            simp only [Except.bind_ok', Except.ok.injEq, Prod.mk.injEq, List.cons_append, List.cons.injEq] at h
            obtain ⟨⟨rfl, rfl⟩, rfl⟩ := h
            rw [h1 ys zs' q2 hr (by simpa using hl)]
            rfl
      · cases hr : chainRun s1 (xs ++ zs) with
        | ok q => rw [hr] at h; cases h
        | error e' =>
          rw [hr] at h
          rw [h2 e' hr]
          exact h

end
end DS.Conv

namespace DS.Coll
section
variable {α : Type}

/-- C213: collecting a batch without sequences changes nothing. -/
theorem C213_collected (s : Coll α) (x : Conv.ST α) (hx : Conv.NoRows x) : update s [.batch x] = (s, none) := by
  obtain ⟨⟨ids, sos, eos, lengths, chunk⟩, w, rows⟩ := x
  obtain ⟨h1, h2, h3, h4, h5⟩ := hx
  simp only at h1 h2 h3 h4 h5
  subst h1 h2 h3 h4 h5
  have : unpad (⟨⟨[], [], [], [], chunk⟩, w, []⟩ : Conv.ST α) = .ok [] := by
    unfold unpad
    cases chunk <;> rfl
  simp only [update, updateItem, this, updateRows]

end
end DS.Coll

namespace DS.Conv

example : NoRows (⟨⟨[], [], [], [], none⟩, 5, []⟩ : ST Nat) ∧
    widthAfter [Layer.conv ⟨3, 1, 2, 0⟩ (List.sum (α := Nat)), .act id, .conv ⟨2, 1, 1, 1⟩ List.sum] 5 = some 3 ∧ widthAfter [Layer.conv ⟨3, 1, 1, 0⟩ (List.sum (α := Nat))] 2 = none := by
  refine ⟨⟨rfl, rfl, rfl, rfl, rfl⟩, by decide, by decide⟩

end DS.Conv
