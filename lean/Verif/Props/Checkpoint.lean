import Verif.Model.Checkpoint
import Verif.Props.ConvSession
/-!
# Chunks of unknown streams (C196) and checkpoints (C197)
-/

namespace DS.Conv
open Meta

section
variable {α β : Type} [Zero α] [Zero β]

/-! ### C196 -/

/-- **C196 is false of the code.** The chunk `[5, 6]` continues a stream `b` that the module knows nothing of. In a batch with a running stream it is accepted and taken for the beginning of a stream; alone it is refused. -/
theorem C196_unknown_false :
    let buf : Buf Int := fun i => if i = "a" then some [2] else none
    let x : ST Int := { md := ⟨["a", "b"], [false, false], [false, false], [2, 2], none⟩, width := 2, rows := [[3, 4], [5, 6]] }
    let y : ST Int := { md := ⟨["b"], [false], [false], [2], none⟩, width := 2, rows := [[5, 6]] }
    ((forward ⟨2, 1, 1, 0⟩ exG buf x).map fun o => o.y.rows) = .ok [[23, 34], [56, 0]] ∧ ((forward ⟨2, 1, 1, 0⟩ exG buf y).map fun o => o.y.rows) = .error .typeError := by decide

theorem ragged_unknown (w : Nat) (ms : List Meta) (rs : List (List α)) (bs bs' : List (Option (List α))) (h : List.Forall₂ (fun b b' => b = b' ∨ b = none ∧ b' = some []) bs bs') :
    raggedRows w ms rs bs = raggedRows w ms rs bs' := by
  induction h generalizing ms rs with
  | nil => rfl
  | @cons b b' bs bs' hb _ ih =>
    cases ms with
    | nil => rfl
    | cons m ms =>
      cases rs with
      | nil => rfl
      | cons r rs =>
        have : ∀ x : Meta × List α, prepend b x = prepend b' x := by
          intro x
          rcases hb with rfl | ⟨rfl, rfl⟩
          · rfl
          · simp [prepend]
        simp only [raggedRows, ih, this]

theorem sameLengths_unknown {bs bs' : List (Option (List α))} (h : List.Forall₂ (fun b b' => b = b' ∨ b = none ∧ b' = some []) bs bs') : bs.map bufLen = bs'.map bufLen := by
  induction h with
  | nil => rfl
  | cons hb _ ih =>
    rw [List.map_cons, List.map_cons, ih]
    rcases hb with rfl | ⟨rfl, rfl⟩ <;> rfl

theorem sameLengths_map (bs : List (Option (List α))) : sameLengths bs = (bs.map bufLen).all fun n => n == (bs.map bufLen).head?.getD 0 := by
  unfold sameLengths
  cases bs with
  | nil => rfl
  | cons b bs => simp [List.all_map, Function.comp_def]

/-- **C196, exactly.** A batch with a chunk that does not start, of a stream of which the module (of kernel width above 1) holds nothing. If no row of the batch has held frames, the call is refused with a TypeError. Otherwise the chunk is taken for the beginning of a stream: the
call has the output, or raises the exception, that it has if the module holds an empty sequence of frames for this stream. Missing: refusal in the second case (`C196_unknown_false`). -/
theorem C196_unknown_partial (c : Cfg) (hc : c.kw > 1) (g : List α → β) (buf : Buf α) (x : ST α) (i : String) (hi : (i, false) ∈ x.md.ids.zip x.md.sos) (hn : buf i = none) :
    ((∀ j ∈ x.md.ids, ∀ fs, buf j = some fs → fs = []) → forward c g buf x = .error .typeError) ∧
    ((∃ j ∈ x.md.ids, ∃ fs, buf j = some fs ∧ fs ≠ []) → (forward c g buf x).map (·.y) = (forward c g (fun j => if j = i then some [] else buf j) x).map (·.y)) := by
  have hs : x.md.allStarting = false := by
    unfold allStarting
    rw [List.all_eq_false]
    exact ⟨false, (List.of_mem_zip hi).2, by simp⟩
  have him : i ∈ x.md.ids := (List.of_mem_zip hi).1
  constructor
  · intro h
    have h0 : ∀ j ∈ x.md.ids, bufLen (buf j) = 0 := by
      intro j hj
      unfold bufLen
      cases hb : buf j with
      | none => rfl
      | some fs => simp [h j hj fs hb]
    have hsame : sameLengths (x.md.ids.map buf) = true := by
      rw [sameLengths_map, List.all_eq_true]
      intro n hn'
      rw [List.map_map] at hn' ⊢
      obtain ⟨j, hj, rfl⟩ := List.mem_map.1 hn'
      simp only [Function.comp_apply, h0 j hj]
      cases hids : x.md.ids with
      | nil => rfl
      | cons k ks =>
        simp only [List.map_cons, Function.comp_apply, List.head?_cons, Option.getD_some]
        rw [h0 k (by simp [hids])]
        rfl
    have hm : (x.md.ids.map buf).mapM id = none := by
      have : none ∈ x.md.ids.map buf := List.mem_map.2 ⟨i, him, hn⟩
      generalize x.md.ids.map buf = bs at this
      induction bs with
      | nil => cases this
      | cons b bs ih =>
        rw [List.mapM_cons]
        rcases List.mem_cons.1 this with h | h
        · rw [← h]
          rfl
        · rw [ih h]
          cases b <;> rfl
    unfold forward preHook
    rw [if_pos ⟨hc, hs⟩]
    simp only [hsame, if_true, catEqual, hm]
    rfl
  · rintro ⟨j, hj, fs, hf, hne⟩
    have hF : List.Forall₂ (fun b b' => b = b' ∨ b = none ∧ b' = some []) (x.md.ids.map buf) (x.md.ids.map fun j => if j = i then some [] else buf j) := by
      rw [List.forall₂_map_left_iff, List.forall₂_map_right_iff, List.forall₂_same]
      intro k _
      by_cases hk : k = i
      · subst hk
        simp [hn]
      · simp [hk]
    have hns : sameLengths (x.md.ids.map buf) = false := by
      rw [sameLengths_map, List.all_eq_false]
      rw [List.map_map]
      by_cases h0 : (x.md.ids.map (bufLen ∘ buf)).head?.getD 0 = 0
      · refine ⟨fs.length, List.mem_map.2 ⟨j, hj, by simp [bufLen, hf]⟩, ?_⟩
        rw [h0]
        simpa using hne
      · refine ⟨0, List.mem_map.2 ⟨i, him, by simp [bufLen, hn]⟩, ?_⟩
        simp only [beq_iff_eq]
        exact fun h => h0 h.symm
    have hns' : sameLengths (x.md.ids.map fun j => if j = i then some [] else buf j) = false := by
      rw [sameLengths_map, ← sameLengths_unknown hF, ← sameLengths_map]
      exact hns
    unfold forward preHook
    simp only [if_pos (show c.kw > 1 ∧ x.md.allStarting = false from ⟨hc, hs⟩)]
    simp only [hns, hns', Bool.false_eq_true, if_false, catRagged]
    simp only [ragged_unknown _ _ _ _ _ hF]
    cases x.md.unbindBatch with
    | error e => rfl
    | ok ms =>
      simp only [Except.bind_ok']
      cases raggedRows x.width ms x.rows (x.md.ids.map fun j => if j = i then some [] else buf j) with
      | error e => rfl
      | ok xs =>
        simp only [Except.bind_ok']
        cases padStream xs with
        | error e => rfl
        | ok z =>
          simp only [map_ok', Except.bind_ok']
          cases conv1d c g z with
          | error e => rfl
          | ok o => rfl

example : ("b", false) ∈ (["a", "b"] : List String).zip [false, false] := by decide

/-! ### C197 -/

/-- **C197 is false of the code.** The next chunk of an open stream, given to a new model with the state of the running one, raises a TypeError. -/
theorem C197_checkpoint_false :
    let s : List (Layer Int × Buf Int) := [(.conv ⟨2, 1, 1, 0⟩ exG, fun i => if i = "a" then some [2] else none)]
    let x : ST Int := { md := ⟨["a"], [false], [true], [2], none⟩, width := 2, rows := [[3, 4]] }
    ((chainTry s x).1.map fun y => y.rows) = .ok [[23, 34]] ∧ ((chainTry (loadState (stateDict s) (patched (stateDict s))) x).1.map fun y => y.rows) = .error .typeError := by decide

theorem load_patched (s : List (Layer α × Buf α)) : loadState (stateDict s) (patched (stateDict s)) = patched (stateDict s) := by
  induction s with
  | nil => rfl
  | cons a s ih =>
    unfold loadState stateDict patched at *
    simp only [List.map_cons, List.zipWith_cons_cons, ih]

theorem patched_same (S : String → Prop) (s : List (Layer α × Buf α)) (h : ∀ a ∈ s, ∀ i, S i → a.2 i = none) : SameAt S s (patched (stateDict s)) := by
  induction s with
  | nil => trivial
  | cons a s ih => exact ⟨rfl, fun i hi => h a (by simp) i hi, ih fun b hb => h b (by simp [hb])⟩

/-- **C197, streams that are not open.** A new model with the state of a running one treats the batches of streams of which the running one holds nothing as that does. Missing: streams that were open when the state was saved (`C197_checkpoint_false`, `C197_open_partial`). -/
theorem C197_checkpoint_partial (s : List (Layer α × Buf α)) (xs : List (ST α)) (hx : ∀ x ∈ xs, x.md.WF ∧ x.rows.length = x.md.ids.length) (h : ∀ a ∈ s, ∀ x ∈ xs, ∀ i ∈ x.md.ids, a.2 i = none) :
    (chainCalls (loadState (stateDict s) (patched (stateDict s))) xs).1 = (chainCalls s xs).1 := by
  rw [load_patched]
  let S : String → Bool := fun i => xs.any fun x => x.md.ids.contains i
  have hS : ∀ x ∈ xs, ∀ i ∈ x.md.ids, S i = true := by
    intro x hxm i hi
    simp only [S, List.any_eq_true]
    exact ⟨x, hxm, by simpa using hi⟩
  have hsame : SameAt (fun i => S i = true) s (patched (stateDict s)) := by
    refine patched_same _ s fun a ha i hi => ?_
    simp only [S, List.any_eq_true] at hi
    obtain ⟨x, hxm, hi⟩ := hi
    exact h a ha x hxm i (by simpa using hi)
  have key := (session_same S s (patched (stateDict s)) hsame xs hx fun x hxm => .inl (hS x hxm)).1
  have hall : ∀ x ∈ xs, x.md.ids.all S = true := fun x hxm => List.all_eq_true.2 (hS x hxm)
  rw [List.filter_eq_self.2 hall] at key
  rw [← key, List.filter_eq_self.2 fun p hp => hall p.1 (List.of_mem_zip hp).1]
  have hlen : ((chainCalls s xs).1).length = xs.length := (C148_sessions (fun _ => true) s xs hx fun x _ => .inl fun _ _ => rfl).1
  rw [List.map_snd_zip (by omega)]

/-- **C197, streams that are open.** Given a batch with a chunk that does not start, a new model with the state of a running one raises a TypeError if its first convolution has a width above 1 and only pointwise functions come before it; it gives the output of the running model, or
raises its exception, if all its convolutions have width 1. Missing: as in `C197_checkpoint_partial`. -/
theorem C197_open_partial (s : List (Layer α × Buf α)) (x : ST α) (hx : x.md.WF) (hs : ∃ b ∈ x.md.sos, b = false) :
    (∀ p c g b r, s = p ++ (.conv c g, b) :: r → (∀ a ∈ p, ∃ f, a.1 = .act f) → 1 < c.kw → (chainTry (loadState (stateDict s) (patched (stateDict s))) x).1 = .error .typeError) ∧
    ((∀ c g b, (Layer.conv c g, b) ∈ s → c.kw ≤ 1) → (chainTry (loadState (stateDict s) (patched (stateDict s))) x).1 = (chainTry s x).1) := by
  rw [load_patched]
  constructor
  · rintro p c g b r rfl hp hc
    have hids : ∃ i, (i, false) ∈ x.md.ids.zip x.md.sos := by
      obtain ⟨b, hb, rfl⟩ := hs
      obtain ⟨k, hk, hkb⟩ := List.getElem_of_mem hb
      have hl : x.md.sos.length = x.md.ids.length := hx.1
      refine ⟨x.md.ids[k]'(by omega), ?_⟩
      rw [List.mem_iff_getElem]
      exact ⟨k, by simp; omega, by simp [hkb]⟩
    clear hs hx
    induction p generalizing x with
    | nil =>
      obtain ⟨i, hi⟩ := hids
      have := (C196_unknown_partial c hc g (fun _ => none) x i hi rfl).1 (by simp)
      simp only [stateDict, patched, List.nil_append, List.map_cons, chainTry, Layer.step, this, map_error']
    | cons a p ih =>
      obtain ⟨f, hf⟩ := hp a (by simp)
      simp only [stateDict, patched, List.cons_append, List.map_cons, chainTry, Layer.step, hf]
      exact ih { x with rows := x.rows.map (·.map f) } (fun a ha => hp a (by simp [ha])) hids
  · intro h
    clear hs hx
    induction s generalizing x with
    | nil => rfl
    | cons a s ih =>
      obtain ⟨l, b⟩ := a
      have ih := fun y => ih y fun c g b hb => h c g b (by simp [hb])
      cases l with
      | act f =>
        simp only [stateDict, patched, List.map_cons, chainTry, Layer.step]
        exact ih _
      | conv c g =>
        have hk : ¬ (c.kw > 1 ∧ x.md.allStarting = false) := fun hk => absurd (h c g b (by simp)) (by omega)
        simp only [stateDict, patched, List.map_cons, chainTry, Layer.step]
        unfold forward preHook
        rw [if_neg hk, if_neg hk]
        simp only [Except.bind_ok']
        cases conv1d c g x with
        | error e => rfl
        | ok o =>
          simp only [Except.bind_ok', map_ok']
          exact ih _

/-- A stream that starts after the state was saved. -/
example :
    let s : List (Layer Int × Buf Int) := [(.conv ⟨2, 1, 1, 0⟩ exG, fun i => if i = "a" then some [2] else none)]
    let x : ST Int := { md := ⟨["b"], [true], [false], [2], none⟩, width := 2, rows := [[3, 4]] }
    (∀ a ∈ s, ∀ i ∈ x.md.ids, a.2 i = none) ∧ ((chainCalls (loadState (stateDict s) (patched (stateDict s))) [x]).1.map fun r => r.map fun y => y.rows) = [.ok [[34]]] := by
  refine ⟨?_, by decide⟩
  intro a ha i hi
  simp only [List.mem_singleton] at ha hi
  subst ha hi
  rfl

theorem chainTry_layers (s : List (Layer α × Buf α)) (x : ST α) : stateDict (chainTry s x).2 = stateDict s := by
  induction s generalizing x with
  | nil => rfl
  | cons a s ih =>
    obtain ⟨l, b⟩ := a
    unfold chainTry
    cases l.step b x with
    | error e => rfl
    | ok r =>
      have := ih r.1
      unfold stateDict at *
      simp only [List.map_cons, this]

theorem chainCalls_layers (s : List (Layer α × Buf α)) (xs : List (ST α)) : stateDict (chainCalls s xs).2 = stateDict s := by
  induction xs generalizing s with
  | nil => rfl
  | cons x xs ih =>
    rw [← chainTry_layers s x]
    exact ih _

/-- **C197, returning to a checkpoint.** A running model into which its own earlier state is loaded goes on from where it is: the outputs for all further batches are those without loading, whatever was given to it since
the state was saved. Missing: the streams as they were when the state was saved (`C197_checkpoint_false`). -/
theorem C197_return_partial (s : List (Layer α × Buf α)) (xs ys : List (ST α)) :
    chainCalls (loadState (stateDict s) (chainCalls s xs).2) ys = chainCalls (chainCalls s xs).2 ys := by
  have h : ∀ t : List (Layer α × Buf α), loadState (stateDict t) t = t := by
    intro t
    induction t with
    | nil => rfl
    | cons a t ih =>
      unfold loadState stateDict at *
      simp only [List.map_cons, List.zipWith_cons_cons, ih]
  rw [← chainCalls_layers s xs, h]

/-- The state saved before the chunk `[1, 2]`, loaded after it: the next chunk is convolved with that chunk, not with what came before. -/
example :
    let s : List (Layer Int × Buf Int) := [(.conv ⟨2, 1, 1, 0⟩ exG, fun i => if i = "a" then some [7] else none)]
    let x : ST Int := { md := ⟨["a"], [false], [false], [2], none⟩, width := 2, rows := [[1, 2]] }
    let y : ST Int := { md := ⟨["a"], [false], [true], [2], none⟩, width := 2, rows := [[3, 4]] }
    ((chainCalls (loadState (stateDict s) (chainCalls s [x]).2) [y]).1.map fun r => r.map fun z => z.rows) = [.ok [[23, 34]]] ∧ ((chainTry s y).1.map fun z => z.rows) = .ok [[73, 34]] := by decide

end
end DS.Conv
