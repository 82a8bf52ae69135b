import Verif.Spec.ConvStack
import Verif.Lemmas.ConvTenHook
import Verif.Props.ConvField
/-! Stacks of layers on named tensors refine stacks of layers on frames. -/

namespace DS.ConvT
open DS.Tn DS.Conv

section
variable {α : Type} [AddCommMonoid α] [Mul α]

theorem mapTen_batch (ch : Nat) (f : α → α) {x : STen α} (hx : BCL ch x) :
    BCL ch ⟨mapTen f x.t, x.md⟩ ∧ asBatch ch ⟨mapTen f x.t, x.md⟩ = { asBatch ch x with rows := (asBatch ch x).rows.map (·.map fun v o => if o < ch then f (v o) else 0) } := by
  refine ⟨⟨hx.names, hx.shape, hx.mdwf⟩, ?_⟩
  simp only [asBatch, mapTen, rowsOf, List.map_map, ST.mk.injEq, true_and]
  refine List.map_congr_left fun b _ => ?_
  simp only [Function.comp, rowOf, List.map_map]
  refine List.map_congr_left fun j _ => ?_
  funext o
  simp only [Function.comp]
  by_cases ho : o < ch <;> simp [ho]

theorem along_batch (ch : Nat) (f : List α → Nat → α) {x : STen α} (hx : BCL ch x) :
    ∃ y, alongStream f x 1 = .ok y ∧ y.t.names = x.t.names ∧ BCL ch y ∧
      asBatch ch y = { asBatch ch x with rows := (asBatch ch x).rows.map (·.map fun v o => if o < ch then f ((List.range ch).map v) o else 0) } := by
  obtain ⟨w, hw⟩ := hx.shape
  have h3 : x.t.ndim = 3 := by simp [Ten.ndim, hw]
  refine ⟨⟨{ x.t with val := fun ix => f (lineOf x.t 1 ix) (ix.getD 1 0) }, x.md⟩, ?_, rfl, ⟨hx.names, hx.shape, hx.mdwf⟩, ?_⟩
  · unfold alongStream alongTen
    rw [h3, show normDim 3 1 = .ok 1 from rfl]
    rfl
  · simp only [asBatch, rowsOf, List.map_map, ST.mk.injEq, true_and]
    refine List.map_congr_left fun b _ => ?_
    simp only [Function.comp, rowOf, List.map_map]
    refine List.map_congr_left fun j _ => ?_
    funext o
    simp only [Function.comp]
    by_cases ho : o < ch
    · rw [if_pos ho, if_pos ho]
      show f (lineOf x.t 1 [b, o, j]) o = _
      congr 1
      unfold lineOf
      rw [hw]
      refine List.map_congr_left fun c hc => ?_
      rw [if_pos (show c < ch from List.mem_range.1 hc)]
      rfl
    · rw [if_neg ho, if_neg ho]

theorem Agree.mapRight {β γ ε : Type} {R : β → γ → Prop} {S : β → ε → Prop} {a : Py β} {b : Py γ} {g : γ → ε} (h : Agree R a b)
    (hf : ∀ x y, R x y → S x (g y)) : Agree S a (b.map g) := by
  cases h with
  | ok h => exact .ok (hf _ _ h)
  | error e => exact .error e

/-- The head of a stack that fits. -/
theorem fits_tail {ch : Nat} {l : LayerT α} {ls : List (LayerT α)} (h : FitsAll ch (l :: ls)) : FitsAll (l.outs ch) ls := by
  cases l with
  | conv k c => exact h.2
  | act f => exact h
  | chan f => exact h

theorem step_agree {ch : Nat} (l : LayerT α) (hf : FitsAll ch [l]) {x : STen α} (hx : BCL ch x) {b : BufT α} {buf : Buf (Nat → α)} (hb : Shows ch b buf) :
    Agree (fun (y : STen α × BufT α) (z : ST (Nat → α) × Buf (Nat → α)) => z.1 = asBatch (l.outs ch) y.1 ∧ BCL (l.outs ch) y.1 ∧ y.1.t.names = x.t.names ∧ Shows ch y.2 z.2)
      (l.step b x) ((l.frames ch).step buf (asBatch ch x)) := by
  cases l with
  | conv k c => exact (forward_agree c hf.1 hx hb).mapRight fun _ _ h => h
  | act f =>
    obtain ⟨h1, h2⟩ := mapTen_batch ch f hx
    exact .ok ⟨h2.symm, h1, rfl, hb⟩
  | chan f =>
    obtain ⟨y, h1, h2, h3, h4⟩ := along_batch ch f hx
    show Agree _ ((alongStream f x 1).map _) _
    rw [h1]
    exact .ok ⟨h4.symm, h3, h2, hb⟩

theorem chainStep_agree : ∀ (s : List (LayerT α × BufT α)) (s' : List (Layer (Nat → α) × Buf (Nat → α))) (ch : Nat), FitsAll ch (s.map (·.1)) → ShowsAll ch s s' →
    ∀ x : STen α, BCL ch x →
    Agree (fun (y : STen α × List (LayerT α × BufT α)) (z : ST (Nat → α) × List (Layer (Nat → α) × Buf (Nat → α))) =>
        z.1 = asBatch (outsAll ch (s.map (·.1))) y.1 ∧ BCL (outsAll ch (s.map (·.1))) y.1 ∧ y.1.t.names = x.t.names ∧ y.2.map (·.1) = s.map (·.1) ∧ ShowsAll ch y.2 z.2)
      (chainStepT s x) (chainStep s' (asBatch ch x)) := by
  intro s
  induction s with
  | nil =>
    intro s' ch _ hs x hx
    cases s' with
    | nil => exact .ok ⟨rfl, hx, rfl, rfl, trivial⟩
    | cons a s' => exact hs.elim
  | cons a s ih =>
    intro s' ch hf hs x hx
    obtain ⟨l, b⟩ := a
    cases s' with
    | nil => exact hs.elim
    | cons a' s' =>
      obtain ⟨l', b'⟩ := a'
      obtain ⟨rfl, hb, hs⟩ := hs
      have hf1 : FitsAll ch [l] := by
        cases l with
        | conv k c => exact ⟨hf.1, trivial⟩
        | act f => trivial
        | chan f => trivial
      simp only [chainStepT, chainStep]
      refine (step_agree l hf1 hx hb).bind ?_
      rintro ⟨y, b1⟩ ⟨z, b2⟩ ⟨h1, h2, h3, h4⟩
      dsimp only at h1 h2 h3 h4 ⊢
      subst h1
      refine (ih s' (l.outs ch) (fits_tail hf) hs y h2).bind ?_
      rintro ⟨y', s1⟩ ⟨z', s2⟩ ⟨h5, h6, h7, h8, h9⟩
      dsimp only at h5 h6 h7 h8 h9 ⊢
      exact .ok ⟨h5, h6, h7.trans h3, by simp [h8], rfl, h4, h9⟩

theorem chainRun_agree (ch : Nat) (ls : List (LayerT α)) (hf : FitsAll ch ls) : ∀ (xs : List (STen α)), (∀ x ∈ xs, BCL ch x) →
    ∀ (s : List (LayerT α × BufT α)) (s' : List (Layer (Nat → α) × Buf (Nat → α))), s.map (·.1) = ls → ShowsAll ch s s' →
    Agree (fun (y : List (STen α) × List (LayerT α × BufT α)) (z : List (ST (Nat → α)) × List (Layer (Nat → α) × Buf (Nat → α))) =>
        z.1 = y.1.map (asBatch (outsAll ch ls)) ∧ List.Forall₂ (fun u x => BCL (outsAll ch ls) u ∧ u.t.names = x.t.names) y.1 xs ∧ ShowsAll ch y.2 z.2)
      (chainRunT s xs) (chainRun s' (xs.map (asBatch ch))) := by
  intro xs
  induction xs with
  | nil => intro _ s s' _ hs; exact .ok ⟨rfl, .nil, hs⟩
  | cons x xs ih =>
    intro hx s s' hl hs
    simp only [chainRunT, List.map_cons, chainRun]
    refine (chainStep_agree s s' ch (by rw [hl]; exact hf) hs x (hx x (by simp))).bind ?_
    rintro ⟨y, s1⟩ ⟨z, s2⟩ ⟨h1, h2, h3, h4, h5⟩
    dsimp only at h1 h2 h3 h4 h5 ⊢
    rw [hl] at h1 h2 h4
    refine (ih (fun u hu => hx u (by simp [hu])) s1 s2 h4 h5).bind ?_
    rintro ⟨ys, s3⟩ ⟨zs, s4⟩ ⟨h6, h7, h8⟩
    dsimp only at h6 h7 h8 ⊢
    exact .ok ⟨by simp [h1, h6], .cons ⟨h2, h3⟩ h7, h8⟩

theorem showsAll_fresh : ∀ (ls : List (LayerT α)) (ch : Nat), ShowsAll ch (freshT ls) (fresh (framesAll ch ls))
  | [], _ => trivial
  | l :: ls, ch => ⟨rfl, ⟨by simp, by simp⟩, showsAll_fresh ls (l.outs ch)⟩

end
end DS.ConvT
