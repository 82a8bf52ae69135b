import Verif.Model.Modes
import Verif.Props.ConvMore
import Verif.Lemmas.Tensor
/-! C64–C66, C100, C101: patching and streaming modes. -/

namespace DS.Modes
open Conv Meta

mutual
/-- The module objects of a tree, each as often as it occurs. -/
def Tree.ids : Tree → List Nat
  | .node i cs => idsAll cs ++ [i]
/-- The module objects of several trees. -/
def idsAll : List Tree → List Nat
  | [] => []
  | t :: ts => t.ids ++ idsAll ts
end

section
variable {α β : Type} [Zero α] [Zero β]

/-- The store with the given mode set in all objects of the list. -/
def setAll (b : Bool) (l : List Nat) (σ : Store α) : Store α := fun i => if i ∈ l then { σ i with streaming := some b } else σ i

mutual
theorem online_eq (b : Bool) : ∀ (t : Tree) (σ : Store α), (∀ i ∈ t.ids, (σ i).methods = true) → online (.bool b) t σ = (setAll b t.ids σ, none)
  | .node i cs, σ, h => by
    have hi : (σ i).methods = true := h i (by simp [Tree.ids])
    rw [online]
    rw [if_neg (by simp [hi])]
    rw [onlineAll_eq b cs _ (by
      intro j hj
      simp only [Store.modify]
      split
      · exact h j (by simp [Tree.ids, hj])
      · exact h j (by simp [Tree.ids, hj]))]
    congr 1
    funext j
    simp only [setAll, Tree.ids, Store.modify, List.mem_append, List.mem_singleton]
    by_cases h1 : j ∈ idsAll cs <;> by_cases h2 : j = i <;> simp [h1, h2]
theorem onlineAll_eq (b : Bool) : ∀ (ts : List Tree) (σ : Store α), (∀ i ∈ idsAll ts, (σ i).methods = true) →
    onlineAll (.bool b) ts σ = (setAll b (idsAll ts) σ, none)
  | [], σ, _ => by
    simp only [onlineAll, idsAll]
    congr 1
  | t :: ts, σ, h => by
    rw [onlineAll, online_eq b t σ (fun i hi => h i (by simp [idsAll, hi]))]
    simp only
    rw [onlineAll_eq b ts _ (by
      intro i hi
      have := h i (by simp [idsAll, hi])
      simp only [setAll]
      split <;> exact this)]
    congr 1
    funext j
    simp only [setAll, idsAll, List.mem_append]
    by_cases h1 : j ∈ t.ids <;> by_cases h2 : j ∈ idsAll ts <;> simp [h1, h2]
end

/-- **C64.** On a tree whose modules all have the methods, `online(mode)` with a bool raises nothing, sets `streaming` of every module in the
tree, and changes nothing else; `offline()` is `online(False)`; a non-bool raises ValueError and changes nothing. -/
theorem C64_online (t : Tree) (σ : Store α) (h : ∀ i ∈ t.ids, (σ i).methods = true) (b : Bool) :
    (online (.bool b) t σ).2 = none ∧
    (∀ i ∈ t.ids, (online (.bool b) t σ).1 i = { σ i with streaming := some b }) ∧
    (∀ i, i ∉ t.ids → (online (.bool b) t σ).1 i = σ i) ∧
    offline t σ = online (.bool false) t σ ∧
    online .other t σ = (σ, some .valueError) := by
  rw [online_eq b t σ h]
  refine ⟨rfl, fun i hi => by simp [setAll, hi], fun i hi => by simp [setAll, hi], rfl, ?_⟩
  cases t with
  | node i cs =>
    rw [online, if_neg (by simp [h i (by simp [Tree.ids])])]

/-- A history of mode switches of one tree. -/
def switches (t : Tree) (σ : Store α) : List Mode → Store α
  | [] => σ
  | m :: ms => switches t (online m t σ).1 ms

/-- **C64**, histories: after any history of mode switches (including refused ones) and a last accepted one, every module has that mode. -/
theorem C64_history (t : Tree) (σ : Store α) (h : ∀ i ∈ t.ids, (σ i).methods = true) (ms : List Mode) (b : Bool) (rest : List Mode)
    (hr : ∀ m ∈ rest, m = .other) :
    ∀ i ∈ t.ids, switches t σ (ms ++ .bool b :: rest) i = { σ i with streaming := some b } := by
  induction ms generalizing σ with
  | nil =>
    intro i hi
    have hrest : ∀ (rest : List Mode) (τ : Store α), (∀ i ∈ t.ids, (τ i).methods = true) → (∀ m ∈ rest, m = .other) → switches t τ rest = τ := by
      intro rest
      induction rest with
      | nil => intro τ _ _; rfl
      | cons m rest ih =>
        intro τ hτ hm
        have : m = .other := hm m (by simp)
        subst this
        simp only [switches]
        rw [(C64_online t τ hτ true).2.2.2.2]
        exact ih τ hτ (fun m hm' => hm m (by simp [hm']))
    simp only [List.nil_append, switches]
    rw [hrest rest _ _ hr]
    · exact (C64_online t σ h b).2.1 i hi
    · intro j hj
      rw [(C64_online t σ h b).2.1 j hj]
      exact h j hj
  | cons m ms ih =>
    intro i hi
    simp only [List.cons_append, switches]
    cases m with
    | other =>
      rw [(C64_online t σ h b).2.2.2.2]
      exact ih σ h i hi
    | bool b' =>
      obtain ⟨-, h1, -⟩ := C64_online t σ h b'
      rw [ih _ (fun j hj => by rw [h1 j hj]; exact h j hj) i hi, h1 i hi]

/-- A model: convolution 1, a container 3 with an activation 2 and a convolution 4. -/
def exTree : Tree := .node 0 [.node 1 [], .node 3 [.node 2 [], .node 4 []]]
def exStore : Store Int := fun i => ⟨if i = 1 ∨ i = 4 then .conv1d ⟨3, 1, 1, 1⟩ else .other, false, none, 0, none⟩

example : exTree.ids = [1, 2, 4, 3, 0] := by simp [exTree, Tree.ids, idsAll]
example : ∀ i ∈ exTree.ids, ((patch exTree exStore).1 i).methods = true := by decide
example : (exTree.ids.map fun i => ((online (.bool true) exTree (patch exTree exStore).1).1 i).streaming) = List.replicate 5 (some true) := by decide

/-! ### C65 -/

/-- A patched object: `k` is the number of times it was patched. -/
def patchedNode (k : Nat) (n : Node α) : Node α :=
  { kind := n.kind, methods := true, streaming := some false,
    hooks := match n.kind with | .conv1d _ => n.hooks + k | _ => n.hooks,
    buffer := match n.kind with | .conv1d _ => some (fun _ => none) | _ => n.buffer }

/-- The store with the listed objects patched. -/
def patchList (l : List Nat) (σ : Store α) : Store α := fun i => if i ∈ l then patchedNode (l.count i) (σ i) else σ i

theorem patchList_append (a b : List Nat) (σ : Store α) : patchList b (patchList a σ) = patchList (a ++ b) σ := by
  funext i
  simp only [patchList, List.mem_append, List.count_append]
  by_cases h1 : i ∈ a <;> by_cases h2 : i ∈ b
  · simp only [h1, h2, if_true, or_self, patchedNode]
    cases (σ i).kind <;> simp [Nat.add_assoc]
  · simp [h1, h2, List.count_eq_zero_of_not_mem h2]
  · simp [h1, h2, List.count_eq_zero_of_not_mem h1]
  · simp [h1, h2]

theorem patchModule_eq (i : Nat) (σ : Store α) : (patchModule i σ).1 = patchList [i] σ := by
  funext j
  simp only [patchModule, Store.modify, patchList, List.mem_singleton]
  by_cases h : j = i
  · subst h
    simp only [if_true, List.count_singleton, beq_self_eq_true]
    unfold patchNode patchConv addModes patchedNode
    cases hk : (σ j).kind <;> simp [hk]
  · simp [h]

theorem patchList_kind (l : List Nat) (σ : Store α) (i : Nat) : (patchList l σ i).kind = (σ i).kind := by
  unfold patchList
  split <;> rfl

mutual
theorem patch_eq : ∀ (t : Tree) (σ : Store α),
    ((∀ i ∈ t.ids, (σ i).kind ≠ .unsupported) → patch t σ = (patchList t.ids σ, none)) ∧
    ((∃ i ∈ t.ids, (σ i).kind = .unsupported) → (patch t σ).2 = some .notImplementedError)
  | .node i cs, σ => by
    obtain ⟨h1, h2⟩ := patchAll_eq cs σ
    constructor
    · intro h
      rw [patch, h1 (fun j hj => h j (by simp [Tree.ids, hj]))]
      simp only
      have hk : (patchList (idsAll cs) σ i).kind ≠ .unsupported := by
        rw [patchList_kind]; exact h i (by simp [Tree.ids])
      refine Prod.ext ?_ ?_
      · rw [patchModule_eq, patchList_append]; rfl
      · simp only [patchModule, if_neg hk]
    · rintro ⟨j, hj, hjk⟩
      rw [patch]
      by_cases hc : ∃ k ∈ idsAll cs, (σ k).kind = .unsupported
      · have := h2 hc
        cases hp : patchAll cs σ with
        | mk σ' o =>
          rw [hp] at this
          simp only at this
          subst this
          rfl
      · have hc' : ∀ k ∈ idsAll cs, (σ k).kind ≠ .unsupported := fun k hk he => hc ⟨k, hk, he⟩
        rw [h1 hc']
        simp only [Tree.ids, List.mem_append, List.mem_singleton] at hj
        rcases hj with hj | rfl
        · exact absurd hjk (hc' j hj)
        · simp only [patchModule, patchList_kind, hjk, if_true]
theorem patchAll_eq : ∀ (ts : List Tree) (σ : Store α),
    ((∀ i ∈ idsAll ts, (σ i).kind ≠ .unsupported) → patchAll ts σ = (patchList (idsAll ts) σ, none)) ∧
    ((∃ i ∈ idsAll ts, (σ i).kind = .unsupported) → (patchAll ts σ).2 = some .notImplementedError)
  | [], σ => by
    refine ⟨fun _ => ?_, by simp [idsAll]⟩
    simp only [patchAll, idsAll]
    congr 1
  | t :: ts, σ => by
    obtain ⟨h1, h2⟩ := patch_eq t σ
    constructor
    · intro h
      rw [patchAll, h1 (fun j hj => h j (by simp [idsAll, hj]))]
      simp only
      rw [(patchAll_eq ts _).1 (fun j hj => by rw [patchList_kind]; exact h j (by simp [idsAll, hj])), patchList_append]
      rfl
    · rintro ⟨j, hj, hjk⟩
      rw [patchAll]
      by_cases hc : ∃ k ∈ t.ids, (σ k).kind = .unsupported
      · have := h2 hc
        cases hp : patch t σ with
        | mk σ' o =>
          rw [hp] at this
          simp only at this
          subst this
          rfl
      · have hc' : ∀ k ∈ t.ids, (σ k).kind ≠ .unsupported := fun k hk he => hc ⟨k, hk, he⟩
        rw [h1 hc']
        simp only [idsAll, List.mem_append] at hj
        rcases hj with hj | hj
        · exact absurd hjk (hc' j hj)
        · exact (patchAll_eq ts _).2 ⟨j, hj, by rw [patchList_kind]; exact hjk⟩
end

/-- **C65.** `patch` raises NotImplementedError iff some module of the tree has an unsupported type, and nothing else. If it does not
raise, every module in the tree has the mode methods and is offline, every `Conv1d` has empty stream buffers and one more hook pair for
each place in the tree where it occurs, and modules outside the tree are unchanged. -/
theorem C65_patch (t : Tree) (σ : Store α) :
    ((∃ i ∈ t.ids, (σ i).kind = .unsupported) → (patch t σ).2 = some .notImplementedError) ∧
    ((∀ i ∈ t.ids, (σ i).kind ≠ .unsupported) → (patch t σ).2 = none ∧
      (∀ i ∈ t.ids, ((patch t σ).1 i).kind = (σ i).kind ∧ ((patch t σ).1 i).methods = true ∧ ((patch t σ).1 i).streaming = some false ∧
        (∀ c, (σ i).kind = .conv1d c → ((patch t σ).1 i).hooks = (σ i).hooks + t.ids.count i ∧ ((patch t σ).1 i).buffer = some (fun _ => none))) ∧
      (∀ i, i ∉ t.ids → (patch t σ).1 i = σ i)) := by
  obtain ⟨h1, h2⟩ := patch_eq t σ
  refine ⟨h2, fun h => ?_⟩
  rw [h1 h]
  refine ⟨rfl, ?_, fun i hi => by simp [patchList, hi]⟩
  intro i hi
  simp only [patchList, hi, if_true, patchedNode, true_and]
  intro c hc
  simp [hc]

example : (∀ i ∈ exTree.ids, (exStore i).kind ≠ .unsupported) ∧ ((patch exTree exStore).1 1).hooks = 1 ∧ ((patch exTree exStore).1 3).hooks = 0 := by decide
example : (patch exTree (exStore.modify 2 fun n => { n with kind := .unsupported })).2 = some .notImplementedError := by decide

mutual
theorem patch_left : ∀ (t : Tree) (σ : Store α), (∃ i ∈ t.ids, (σ i).kind = .unsupported) → ∃ pre j post, t.ids = pre ++ j :: post ∧
    (∀ i ∈ pre, (σ i).kind ≠ .unsupported) ∧ (σ j).kind = .unsupported ∧ (patch t σ).1 = patchList (pre ++ [j]) σ
  | .node i cs, σ => by
    rintro ⟨k, hk, hkk⟩
    by_cases hc : ∃ k ∈ idsAll cs, (σ k).kind = .unsupported
    · obtain ⟨pre, j, post, e, hp, hj, hl⟩ := patchAll_left cs σ hc
      refine ⟨pre, j, post ++ [i], by simp [Tree.ids, e], hp, hj, ?_⟩
      rw [← hl, patch]
      have := (patchAll_eq cs σ).2 hc
      cases hq : patchAll cs σ with
      | mk σ' o =>
        rw [hq] at this
        simp only at this
        subst this
        rfl
    · have hc' : ∀ k ∈ idsAll cs, (σ k).kind ≠ .unsupported := fun k hk he => hc ⟨k, hk, he⟩
      have hi : (σ i).kind = .unsupported := by
        simp only [Tree.ids, List.mem_append, List.mem_singleton] at hk
        rcases hk with hk | rfl
        · exact absurd hkk (hc' k hk)
        · exact hkk
      refine ⟨idsAll cs, i, [], by simp [Tree.ids], hc', hi, ?_⟩
      rw [patch, (patchAll_eq cs σ).1 hc']
      simp only
      rw [patchModule_eq, patchList_append]
theorem patchAll_left : ∀ (ts : List Tree) (σ : Store α), (∃ i ∈ idsAll ts, (σ i).kind = .unsupported) → ∃ pre j post, idsAll ts = pre ++ j :: post ∧
    (∀ i ∈ pre, (σ i).kind ≠ .unsupported) ∧ (σ j).kind = .unsupported ∧ (patchAll ts σ).1 = patchList (pre ++ [j]) σ
  | [], σ => by simp [idsAll]
  | t :: ts, σ => by
    rintro ⟨k, hk, hkk⟩
    by_cases hc : ∃ k ∈ t.ids, (σ k).kind = .unsupported
    · obtain ⟨pre, j, post, e, hp, hj, hl⟩ := patch_left t σ hc
      refine ⟨pre, j, post ++ idsAll ts, by simp [idsAll, e], hp, hj, ?_⟩
      rw [← hl, patchAll]
      have := (patch_eq t σ).2 hc
      cases hq : patch t σ with
      | mk σ' o =>
        rw [hq] at this
        simp only at this
        subst this
        rfl
    · have hc' : ∀ k ∈ t.ids, (σ k).kind ≠ .unsupported := fun k hk he => hc ⟨k, hk, he⟩
      simp only [idsAll, List.mem_append] at hk
      have hk' : k ∈ idsAll ts := by
        rcases hk with hk | hk
        · exact absurd hkk (hc' k hk)
        · exact hk
      obtain ⟨pre, j, post, e, hp, hj, hl⟩ := patchAll_left ts (patchList t.ids σ) ⟨k, hk', by rw [patchList_kind]; exact hkk⟩
      refine ⟨t.ids ++ pre, j, post, by simp [idsAll, e], ?_, by rw [← hj, patchList_kind], ?_⟩
      · intro i hi
        rcases List.mem_append.mp hi with h | h
        · exact hc' i h
        · have := hp i h
          rwa [patchList_kind] at this
      · rw [patchAll, (patch_eq t σ).1 hc']
        simp only
        rw [hl, patchList_append, List.append_assoc]
end

theorem first_unique (P : Nat → Prop) : ∀ (a b : List Nat) (x y : Nat) (c d : List Nat), a ++ x :: c = b ++ y :: d →
    (∀ i ∈ a, ¬ P i) → P x → (∀ i ∈ b, ¬ P i) → P y → a = b ∧ x = y
  | [], [], x, y, c, d, h, _, _, _, _ => by simp_all
  | [], z :: b, x, y, c, d, h, _, hx, hb, _ => by
    simp only [List.nil_append, List.cons_append, List.cons.injEq] at h
    exact absurd hx (h.1 ▸ hb z (by simp))
  | z :: a, [], x, y, c, d, h, ha, _, _, hy => by
    simp only [List.nil_append, List.cons_append, List.cons.injEq] at h
    exact absurd hy (h.1 ▸ ha z (by simp))
  | z :: a, w :: b, x, y, c, d, h, ha, hx, hb, hy => by
    simp only [List.cons_append, List.cons.injEq] at h
    obtain ⟨rfl, rfl⟩ := first_unique P a b x y c d h.2 (fun i hi => ha i (by simp [hi])) hx (fun i hi => hb i (by simp [hi])) hy
    exact ⟨by rw [h.1], rfl⟩

/-- **C65.** What a refused `patch` leaves behind. The modules are visited children first. All modules before the first unsupported one,
and that one too, have the mode methods and are offline, and their `Conv1d` modules have empty stream buffers and one more hook pair for
each visit. Every other object, so every module visited later, is as it was. -/
theorem C65_refused (t : Tree) (σ : Store α) (pre post : List Nat) (j : Nat) (h : t.ids = pre ++ j :: post)
    (hp : ∀ i ∈ pre, (σ i).kind ≠ .unsupported) (hj : (σ j).kind = .unsupported) :
    (patch t σ).2 = some .notImplementedError ∧
    (∀ i ∈ pre ++ [j], ((patch t σ).1 i).kind = (σ i).kind ∧ ((patch t σ).1 i).methods = true ∧ ((patch t σ).1 i).streaming = some false ∧
      (∀ c, (σ i).kind = .conv1d c → ((patch t σ).1 i).hooks = (σ i).hooks + pre.count i ∧ ((patch t σ).1 i).buffer = some (fun _ => none))) ∧
    (∀ i, i ∉ pre ++ [j] → (patch t σ).1 i = σ i) := by
  have hex : ∃ i ∈ t.ids, (σ i).kind = .unsupported := ⟨j, by simp [h], hj⟩
  obtain ⟨pre', j', post', e, hp', hj', hl⟩ := patch_left t σ hex
  obtain ⟨rfl, rfl⟩ := first_unique (fun i => (σ i).kind = .unsupported) pre pre' j j' post post' (h.symm.trans e) hp hj hp' hj'
  refine ⟨(patch_eq t σ).2 hex, ?_, fun i hi => by rw [hl]; simp only [patchList, if_neg hi]⟩
  intro i hi
  rw [hl]
  simp only [patchList, hi, if_true, patchedNode, true_and]
  intro c hc
  have hne : i ≠ j := fun he => by rw [he, hj] at hc; cases hc
  simp [hc, List.count_append, List.count_singleton, Ne.symm hne]

example : ∃ pre j post, exTree.ids = pre ++ j :: post ∧ pre ≠ [] ∧ post ≠ [] ∧
    (∀ i ∈ pre, ((exStore.modify j fun n => { n with kind := .unsupported }) i).kind ≠ .unsupported) ∧
    (∀ i ∈ pre ++ [j], ((patch exTree (exStore.modify j fun n => { n with kind := .unsupported })).1 i).methods = true) ∧
    (∀ i ∈ post, ((patch exTree (exStore.modify j fun n => { n with kind := .unsupported })).1 i).methods = false) :=
  ⟨exTree.ids.take 2, exTree.ids.getD 2 0, exTree.ids.drop 3, by decide⟩

/-! ### C66, C101 -/

theorem callHooks_one (c : Cfg) (g : List α → β) (s : Bool) (buf : Buf α) (x : Input α) : callHooks c g 1 s buf x = call c g s buf x := by
  cases x with
  | plain w rows => cases s <;> rfl
  | stream x =>
    cases s with
    | false => rfl
    | true =>
      simp only [callHooks, call, forward, preHooks, if_true]
      cases hp : preHook c buf x with
      | error e => rfl
      | ok xs =>
        simp only [Except.bind_ok']
        cases hc : conv1d c g xs.1 with
        | error e => rfl
        | ok y => rfl

/-- With two or more hook pairs every online call raises. -/
theorem callHooks_many (c : Cfg) (g : List α → β) (n : Nat) (hn : n > 1) (buf : Buf α) (x : Input α) :
    ∃ e, callHooks c g n true buf x = .error e := by
  cases x with
  | plain w rows => exact ⟨.runtimeError, by simp [callHooks]; omega⟩
  | stream x =>
    simp only [callHooks, if_neg (show ¬ n = 0 by omega), if_true]
    cases hp : preHooks c buf n x with
    | error e => exact ⟨e, rfl⟩
    | ok x' =>
      simp only [Except.bind_ok']
      cases hc : conv1d c g x' with
      | error e => exact ⟨e, rfl⟩
      | ok y => exact ⟨.typeError, by simp [Except.bind_ok', hn]⟩

/-- **C66 is false of the code.** Patching twice registers the hooks twice; then an online call that works after one `patch` raises TypeError. -/
theorem C66_twice_false :
    ((patch exTree exStore).1 1).hooks = 1 ∧ ((patch exTree (patch exTree exStore).1).1 1).hooks = 2 ∧
    (callHooks ⟨2, 1, 1, 0⟩ exG 1 true (fun _ => none) (.stream { md := ⟨["a"], [true], [true], [2], none⟩, width := 2, rows := [[1, 2]] })).isOk = true ∧
    (callHooks ⟨2, 1, 1, 0⟩ exG 2 true (fun _ => none) (.stream { md := ⟨["a"], [true], [true], [2], none⟩, width := 2, rows := [[1, 2]] })).isOk = false := by decide

/-- C66, what holds: the second `patch` changes only the number of hooks of `Conv1d` modules (it also empties their buffers, as the first
does), and offline calls do not depend on that number. Missing: online calls, which always raise with two hook pairs. -/
theorem C66_twice_partial (t : Tree) (σ : Store α) (h : ∀ i ∈ t.ids, (σ i).kind ≠ .unsupported) :
    (patch t (patch t σ).1).2 = none ∧
    (∀ i, { (patch t (patch t σ).1).1 i with hooks := 0 } = { (patch t σ).1 i with hooks := 0 }) ∧
    (∀ (c : Cfg) (g : List α → β) (n : Nat) (buf : Buf α) (x : Input α), 0 < n → callHooks c g n false buf x = call c g false buf x) ∧
    (∀ (c : Cfg) (g : List α → β) (n : Nat) (buf : Buf α) (x : Input α), 1 < n → ∃ e, callHooks c g n true buf x = .error e) := by
  obtain ⟨h1, -⟩ := patch_eq t σ
  rw [h1 h]
  have h' : ∀ i ∈ t.ids, (patchList t.ids σ i).kind ≠ .unsupported := fun i hi => by rw [patchList_kind]; exact h i hi
  rw [(patch_eq t (patchList t.ids σ)).1 h']
  refine ⟨rfl, ?_, ?_, fun c g n buf x hn => callHooks_many c g n hn buf x⟩
  · intro i
    simp only [patchList]
    split
    · simp only [patchedNode]
      cases (σ i).kind <;> rfl
    · rfl
  · intro c g n buf x hn
    cases x with
    | plain w rows => simp [callHooks, call]
    | stream x =>
      simp only [callHooks, call, if_neg (show ¬ n = 0 by omega), Bool.false_eq_true, if_false]

example : ∀ i ∈ exTree.ids, (exStore i).kind ≠ .unsupported := by decide

/-- **C101 is false of the code.** A `Conv1d` object used in two places of a model gets two hook pairs from a single `patch`, so that no
online call of it succeeds. -/
theorem C101_shared_false :
    ((patch (.node 0 [.node 1 [], .node 3 [.node 1 []]]) exStore).2 = none ∧ ((patch (.node 0 [.node 1 [], .node 3 [.node 1 []]]) exStore).1 1).hooks = 2) ∧
    ∀ (c : Cfg) (g : List Int → Int) (buf : Buf Int) (x : Input Int), ∃ e, callHooks c g 2 true buf x = .error e :=
  ⟨by decide, fun c g buf x => callHooks_many c g 2 (by decide) buf x⟩

/-- C101, what holds: in a tree where every module occurs once, each fresh `Conv1d` gets exactly one hook pair, and its calls in either mode are
those of an online/offline convolution (`call`). Missing: modules occurring in several places. -/
theorem C101_shared_partial (t : Tree) (σ : Store α) (h : ∀ i ∈ t.ids, (σ i).kind ≠ .unsupported) (hnd : t.ids.Nodup)
    (i : Nat) (hi : i ∈ t.ids) (c : Cfg) (hc : (σ i).kind = .conv1d c) (hfresh : (σ i).hooks = 0) :
    ∀ (g : List α → β) (s : Bool) (buf : Buf α) (x : Input α), callHooks c g ((patch t σ).1 i).hooks s buf x = call c g s buf x := by
  have h1 := (((C65_patch t σ).2 h).2.1 i hi).2.2.2 c hc
  rw [h1.1, hfresh, List.count_eq_one_of_mem hnd hi]
  exact callHooks_one c

example : exTree.ids.Nodup ∧ 1 ∈ exTree.ids ∧ (exStore 1).kind = .conv1d ⟨3, 1, 1, 1⟩ ∧ (exStore 1).hooks = 0 := by decide

/-! ### C100 -/

/-- **C100 is false of the code.** An instance of a subclass of `Conv1d` is accepted by `patch` but gets no hooks: fed in two chunks online it
does not see the last frame of the first chunk, so an output is missing. -/
theorem C100_subclass_false :
    (patch (.node 7 []) (fun _ => (⟨.convSub ⟨2, 1, 1, 0⟩, false, none, 0, none⟩ : Node Int))).2 = none ∧
    ((patch (.node 7 []) (fun _ => (⟨.convSub ⟨2, 1, 1, 0⟩, false, none, 0, none⟩ : Node Int))).1 7).hooks = 0 ∧
    ((conv1d ⟨2, 1, 1, 0⟩ exG { md := ⟨["a"], [true], [false], [2], none⟩, width := 2, rows := [[1, 2]] }).map fun y => (unpack y.1).map (·.frames)) = .ok [[12]] ∧
    ((conv1d ⟨2, 1, 1, 0⟩ exG { md := ⟨["a"], [false], [true], [2], none⟩, width := 2, rows := [[3, 4]] }).map fun y => (unpack y.1).map (·.frames)) = .ok [[34]] ∧
    Conv.offline ⟨2, 1, 1, 0⟩ exG [1, 2, 3, 4] = [12, 23, 34] := by decide

theorem kw_one {c : Cfg} (h : c.kw = 1) (g : List α → β) (x : ST α) :
    forward c g (fun _ => none) x = (conv1d c g x).map fun y => { y := y.1, buf := fun _ => none, caller := y.1.md } := by
  unfold forward preHook
  rw [if_neg (by omega), Except.bind_ok']
  simp only
  have hb : ∀ y items, conv1d c g x = .ok (y, items) → items = [] := by
    intro y items hy
    unfold conv1d at hy
    obtain ⟨⟨m, p, w, rows⟩, -, hy⟩ := ok_of_bind hy
    obtain ⟨⟨n, ys⟩, -, hy⟩ := ok_of_bind hy
    simp only [Except.ok.injEq, Prod.mk.injEq] at hy
    rw [← hy.2]
    unfold tempBuffer
    rw [if_neg (by omega)]
  cases hc : conv1d c g x with
  | error e => rfl
  | ok y =>
    obtain ⟨y, items⟩ := y
    rw [hb y items hc, Except.bind_ok']
    simp only [Except.map]
    congr 2
    unfold postHook
    have : ∀ l : List (String × Bool), (l.foldl (fun b ie => if ie.2 then fun i => if i = ie.1 then none else b i else b) (fun _ => none) : Buf α) = fun _ => none := by
      intro l
      induction l with
      | nil => rfl
      | cons ie l ih =>
        rw [List.foldl_cons]
        split
        · simp only [ite_self]
          exact ih
        · exact ih
    simp only [update, List.foldl_nil, dropEnded, this, ite_self]

/-- **C100, the part that holds.** An instance of a subclass that looks at one frame at a time (kernel width 1) and does not skip frames needs no buffer: called directly on each batch of any schedule, it gives every stream its offline
output. Missing: wider kernels (`C100_subclass_false`; exactly which subclasses are right: `C100_exact_partial`). -/
theorem C100_subclass_partial (c : Cfg) (hv : c.Valid) (hk : c.kw = 1) (hs : c.stride = 1) (g : List α → β) (xs : List (ST α)) (hx : Schedule xs)
    (ys : List (ST β)) (hrun : xs.mapM (fun x => (conv1d c g x).map (·.1)) = .ok ys) (i : String) (hc : Complete (chunksOf i (xs.map unpack))) :
    collected i ys = Conv.offline c g (collected i xs) := by
  have key : ∀ (xs : List (ST α)) (ys : List (ST β)), xs.mapM (fun x => (conv1d c g x).map (·.1)) = .ok ys → run c g (fun _ => none) xs = .ok (ys, fun _ => none) := by
    intro xs
    induction xs with
    | nil =>
      intro ys h
      simp only [List.mapM_nil] at h
      cases h
      rfl
    | cons x xs ih =>
      intro ys h
      rw [List.mapM_cons] at h
      obtain ⟨y, h1, h⟩ := ok_of_bind h
      obtain ⟨ys', h2, h⟩ := ok_of_bind h
      cases h
      cases hcx : conv1d c g x with
      | error e => rw [hcx] at h1; cases h1
      | ok r =>
        rw [hcx] at h1
        cases h1
        unfold run
        rw [kw_one hk, hcx]
        simp only [Except.map, Except.bind_ok', ih ys' h2]
  have := (C53_schedule c hv (by omega) g xs hx ys _ (key xs ys hrun)).2.2 i [chunksOf i (xs.map unpack)] [] (by simpa [History] using hc)
  rw [this.2]
  simp [due, collected]

example : (Cfg.mk 1 1 1 0).Valid ∧ (Cfg.mk 1 1 1 0).kw = 1 ∧
    ([(⟨⟨["a", "b"], [true, true], [false, true], [2, 1], none⟩, 2, [[1, 2], [3, 0]]⟩ : ST Int), ⟨⟨["a"], [false], [true], [1], none⟩, 1, [[4]]⟩].mapM
      (fun x => (conv1d ⟨1, 1, 1, 0⟩ exG x).map (·.1))).map (collected "a") = .ok [1, 2, 4] := by decide

end
end DS.Modes
