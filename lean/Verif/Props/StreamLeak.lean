import Verif.Props.StreamMemory
/-! C230: the buffers of files that have ended pile up without bound. -/

namespace DS.Conv
open Meta

/-- The first chunk of a file, of five frames. -/
def leakFirst (a : String) : ST Int := { md := ⟨[a], [true], [false], [5], none⟩, width := 5, rows := [[1, 2, 3, 4, 5]] }
/-- The first chunk of the file `b` with the last chunk of the file `a`, of one frame. -/
def leakNext (a b : String) : ST Int := { md := ⟨[b, a], [true, false], [false, true], [5, 1], none⟩, width := 5, rows := [[1, 2, 3, 4, 5], [6, 0, 0, 0, 0]] }

theorem leak_step1 (a b : String) (buf : Buf Int) (ha : buf a = some [5]) (hb : buf b = none) :
    (forward ⟨3, 1, 2, 0⟩ exG buf (leakNext a b)).map (fun o => (o.y, o.buf)) =
      .ok ({ md := ⟨[b, a], [true, false], [false, true], [2, 0], none⟩, width := 2, rows := [[123, 345], [0, 0]] }, dropEnded (update buf [(b, [5])]) ⟨[b, a], [true, false], [false, true], [2, 0], none⟩) := by
  have e : (leakNext a b).md.ids.map buf = [none, some [5]] := by simp [leakNext, ha, hb]
  have hp : preHook ⟨3, 1, 2, 0⟩ buf (leakNext a b) = .ok ({ md := ⟨[b, a], [true, false], [false, true], [5, 2], none⟩, width := 5, rows := [[1, 2, 3, 4, 5], [5, 6, 0, 0, 0]] }, false) := by
    unfold preHook
    rw [e]
    with_unfolding_all rfl
  unfold forward
  rw [hp, Except.bind_ok']
  with_unfolding_all rfl

theorem leak_step2 (a b : String) (buf : Buf Int) (ha : buf a = some [345]) (hb : buf b = none) :
    (forward ⟨2, 1, 1, 0⟩ exG buf { md := ⟨[b, a], [true, false], [false, true], [2, 0], none⟩, width := 2, rows := [[123, 345], [0, 0]] }).map (fun o => (o.y, o.buf)) =
      .ok ({ md := ⟨[b, a], [true, false], [false, false], [1, 0], none⟩, width := 1, rows := [[1575], [0]] }, update buf [(b, [345]), (a, [345])]) := by
  have e : [b, a].map buf = [none, some [345]] := by simp [ha, hb]
  have hp : preHook ⟨2, 1, 1, 0⟩ buf { md := ⟨[b, a], [true, false], [false, true], [2, 0], none⟩, width := 2, rows := [[123, 345], [0, 0]] } =
      .ok ({ md := ⟨[b, a], [true, false], [false, false], [2, 1], none⟩, width := 2, rows := [[123, 345], [345, 0]] }, false) := by
    unfold preHook
    dsimp only
    rw [e]
    with_unfolding_all rfl
  unfold forward
  rw [hp, Except.bind_ok']
  with_unfolding_all rfl

/-- Two convolutions without padding, the first with stride 2. -/
def leakLayers : List (Layer Int) := [.conv ⟨3, 1, 2, 0⟩ exG, .conv ⟨2, 1, 1, 0⟩ exG]

/-- Files of six frames in chunks of five and one: every file begins in the batch in which the file before it ends. -/
def leakBatches (name : Nat → String) (n : Nat) : List (ST Int) := leakFirst (name 0) :: (List.range n).map fun k => leakNext (name k) (name (k + 1))

theorem leak_first (a : String) : ∃ y b1 b2, chainStep (fresh leakLayers) (leakFirst a) = .ok (y, [(.conv ⟨3, 1, 2, 0⟩ exG, b1), (.conv ⟨2, 1, 1, 0⟩ exG, b2)]) ∧ b1 = update (fun _ => none) [(a, [5])] ∧
    b2 = update (fun _ => none) [(a, [345])] :=
  ⟨_, _, _, by with_unfolding_all rfl, rfl, rfl⟩

theorem leak_next (a b : String) (hab : a ≠ b) (b1 b2 : Buf Int) (h1 : b1 a = some [5]) (h2 : b1 b = none) (h3 : b2 a = some [345]) (h4 : b2 b = none) :
    ∃ y c1 c2, chainStep [(.conv ⟨3, 1, 2, 0⟩ exG, b1), (.conv ⟨2, 1, 1, 0⟩ exG, b2)] (leakNext a b) = .ok (y, [(.conv ⟨3, 1, 2, 0⟩ exG, c1), (.conv ⟨2, 1, 1, 0⟩ exG, c2)]) ∧
      c1 b = some [5] ∧ (∀ i, i ≠ a → i ≠ b → c1 i = b1 i) ∧ c2 b = some [345] ∧ c2 a = some [345] ∧ ∀ i, i ≠ a → i ≠ b → c2 i = b2 i := by
  refine ⟨{ md := ⟨[b, a], [true, false], [false, false], [1, 0], none⟩, width := 1, rows := [[1575], [0]] }, dropEnded (update b1 [(b, [5])]) ⟨[b, a], [true, false], [false, true], [2, 0], none⟩,
    update b2 [(b, [345]), (a, [345])], ?_, ?_, ?_, ?_, ?_, ?_⟩
  · simp only [chainStep, Layer.step]
    rw [leak_step1 a b b1 h1 h2, Except.bind_ok']
    dsimp only
    rw [leak_step2 a b b2 h3 h4, Except.bind_ok']
    rfl
  · simp [dropEnded, update, Ne.symm hab]
  · intro i ha hb
    simp [dropEnded, update, ha, hb]
  · simp [update, Ne.symm hab]
  · simp [update]
  · intro i ha hb
    simp [update, ha, hb]

theorem leak_run (name : Nat → String) (hinj : Function.Injective name) (n : Nat) : ∃ ys b1 b2,
    chainRun (fresh leakLayers) (leakBatches name n) = .ok (ys, [(.conv ⟨3, 1, 2, 0⟩ exG, b1), (.conv ⟨2, 1, 1, 0⟩ exG, b2)]) ∧ b1 (name n) = some [5] ∧ b2 (name n) = some [345] ∧
      (∀ j, n < j → b1 (name j) = none ∧ b2 (name j) = none) ∧ ∀ j, j ≤ n → b2 (name j) = some [345] := by
  induction n with
  | zero =>
    obtain ⟨y, b1, b2, h, rfl, rfl⟩ := leak_first (name 0)
    refine ⟨[y], update (fun _ => none) [(name 0, [5])], update (fun _ => none) [(name 0, [345])], ?_, by simp [update], by simp [update], ?_, ?_⟩
    · simp only [leakBatches, List.range_zero, List.map_nil, chainRun]
      rw [h, Except.bind_ok']
      rfl
    · intro j hj
      have : name j ≠ name 0 := fun h => by have := hinj h; omega
      simp [update, this]
    · intro j hj
      obtain rfl : j = 0 := by omega
      simp [update]
  | succ n ih =>
    obtain ⟨ys, b1, b2, h, h1, h2, h3, h4⟩ := ih
    have hne : name n ≠ name (n + 1) := fun h => by have := hinj h; omega
    obtain ⟨y, c1, c2, k, k1, k2, k3, k4, k5⟩ := leak_next (name n) (name (n + 1)) hne b1 b2 h1 (h3 _ (by omega)).1 h2 (h3 _ (by omega)).2
    refine ⟨ys ++ [y], c1, c2, ?_, k1, k3, ?_, ?_⟩
    · have : leakBatches name (n + 1) = leakBatches name n ++ [leakNext (name n) (name (n + 1))] := by simp [leakBatches, List.range_succ]
      rw [this, chainRun_two, h]
      simp only [Except.bind, chainRun]
      rw [k]
      rfl
    · intro j hj
      have e1 : name j ≠ name n := fun h => by have := hinj h; omega
      have e2 : name j ≠ name (n + 1) := fun h => by have := hinj h; omega
      rw [k2 _ e1 e2, k5 _ e1 e2]
      exact h3 j (by omega)
    · intro j hj
      by_cases hj1 : j = n + 1
      · rw [hj1]; exact k3
      · by_cases hj2 : j = n
        · rw [hj2]; exact k4
        · rw [k5 _ (fun h => hj2 (hinj h)) fun h => hj1 (hinj h)]
          exact h4 j (by omega)

theorem unpack_leakFirst (a : String) : unpack (leakFirst a) = [⟨a, true, false, none, [1, 2, 3, 4, 5]⟩] := by with_unfolding_all rfl
theorem unpack_leakNext (a b : String) : unpack (leakNext a b) = [⟨b, true, false, none, [1, 2, 3, 4, 5]⟩, ⟨a, false, true, none, [6]⟩] := by with_unfolding_all rfl

theorem leakBatches_succ (name : Nat → String) (n : Nat) : leakBatches name (n + 1) = leakBatches name n ++ [leakNext (name n) (name (n + 1))] := by simp [leakBatches, List.range_succ]

theorem leak_chunks (name : Nat → String) (hinj : Function.Injective name) (n j : Nat) : chunksOf (name j) ((leakBatches name n).map unpack) =
    (if j ≤ n then [⟨name j, true, false, none, [1, 2, 3, 4, 5]⟩] else []) ++ if j < n then [⟨name j, false, true, none, [6]⟩] else [] := by
  have key : ∀ a b : Nat, name a = name b ↔ a = b := fun a b => ⟨fun h => hinj h, fun h => h ▸ rfl⟩
  induction n with
  | zero =>
    simp only [leakBatches, chunksOf, List.range_zero, List.map_nil, List.map_cons, unpack_leakFirst, List.flatten_cons, List.flatten_nil, List.append_nil, List.filter_cons, List.filter_nil, key]
    by_cases h : j = 0
    · subst h; simp
    · have h' : ¬ 0 = j := fun e => h e.symm
      simp [h, h']
  | succ n ih =>
    rw [leakBatches_succ, List.map_append]
    have e : chunksOf (name j) ((leakBatches name n).map unpack ++ [leakNext (name n) (name (n + 1))].map unpack) =
        chunksOf (name j) ((leakBatches name n).map unpack) ++ (unpack (leakNext (name n) (name (n + 1)))).filter fun c => decide (c.id = name j) := by simp [chunksOf]
    rw [e, ih, unpack_leakNext]
    simp only [List.filter_cons, List.filter_nil, key]
    rcases Nat.lt_trichotomy j n with h | rfl | h
    · have h1 : ¬ n + 1 = j := by omega
      have h2 : ¬ n = j := by omega
      simp [h1, h2, h, Nat.le_of_lt h, show j < n + 1 by omega, show j ≤ n + 1 by omega]
    · simp
    · by_cases h1 : n + 1 = j
      · subst h1; simp
      · simp [h1, show ¬ n = j by omega, show ¬ j ≤ n by omega, show ¬ j < n by omega, show ¬ j ≤ n + 1 by omega, show ¬ j < n + 1 by omega]

/-- **C230 is false of the code, without bound.** Files of six frames in chunks of five and one, every file beginning in the batch in which the file before it ends: never more than two files are in a batch and one is open after it, no chunk is empty and no call raises. Still the second of two
convolutions holds, after `n` files have ended, a buffer for each of them. -/
theorem C230_unbounded_false (name : Nat → String) (hinj : Function.Injective name) (n : Nat) :
    Unbroken (leakBatches name n) ∧ (∀ x ∈ leakBatches name n, x.md.ids.length ≤ 2 ∧ ∀ c ∈ unpack x, c.frames ≠ []) ∧
    (∀ j, j < n → Complete (chunksOf (name j) ((leakBatches name n).map unpack))) ∧
    ∃ ys t, chainRun (fresh [.conv ⟨3, 1, 2, 0⟩ exG, .conv ⟨2, 1, 1, 0⟩ exG]) (leakBatches name n) = .ok (ys, t) ∧ ∃ p ∈ t, ∀ j, j < n → p.2 (name j) ≠ none := by
  refine ⟨?_, ?_, ?_, ?_⟩
  · refine unbroken_of _ fun k _ x hx y hy i hi hno => ?_
    have hy' : y = leakNext (name k) (name (k + 1)) := by
      simp only [leakBatches, List.getElem?_cons_succ, List.getElem?_map, Option.mem_def, Option.map_eq_some_iff] at hy
      obtain ⟨q, hq, rfl⟩ := hy
      obtain ⟨_, rfl⟩ := List.getElem?_eq_some_iff.1 hq
      simp
    subst hy'
    cases k with
    | zero =>
      simp only [leakBatches, List.getElem?_cons_zero, Option.mem_def, Option.some.injEq] at hx
      subst hx
      simp [leakFirst, leakNext] at hi ⊢
      exact .inr hi
    | succ k =>
      simp only [leakBatches, List.getElem?_cons_succ, List.getElem?_map, Option.mem_def, Option.map_eq_some_iff] at hx
      obtain ⟨q, hq, rfl⟩ := hx
      obtain ⟨_, rfl⟩ := List.getElem?_eq_some_iff.1 hq
      simp [leakNext] at hi hno ⊢
      rcases hi with hi | hi
      · exact .inr hi
      · exact absurd hi hno
  · intro x hx
    rcases List.mem_cons.1 hx with rfl | hx
    · rw [unpack_leakFirst]
      simp [leakFirst]
    · obtain ⟨k, -, rfl⟩ := List.mem_map.1 hx
      rw [unpack_leakNext]
      simp [leakNext]
  · intro j hj
    rw [leak_chunks name hinj, if_pos (by omega), if_pos hj]
    refine ⟨by simp, ?_, ?_⟩ <;>
    · intro k x hx
      match k, hx with
      | 0, hx => cases hx; simp
      | 1, hx => cases hx; simp
      | _ + 2, hx => simp at hx
  · obtain ⟨ys, b1, b2, h, -, -, -, h4⟩ := leak_run name hinj n
    refine ⟨ys, _, h, (.conv ⟨2, 1, 1, 0⟩ exG, b2), by simp, fun j hj => ?_⟩
    show b2 (name j) ≠ none
    rw [h4 j (by omega)]
    simp

-- Names that differ.
example : Function.Injective fun n => String.ofList (List.replicate n 'a') := by
  intro a b h
  have := congrArg (fun s : String => s.toList.length) h
  simpa using this
example : (chainRun (fresh leakLayers) (leakBatches (fun n => String.ofList (List.replicate n 'a')) 3)).map (fun r => r.2.map fun l => ["", "a", "aa", "aaa"].map l.2) =
    .ok [[none, none, none, some [5]], [some [345], some [345], some [345], some [345]]] := by decide

end DS.Conv
