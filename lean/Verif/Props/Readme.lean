import Verif.Props.Modes
import Verif.Props.ConvAny
/-! # C185, C186: what the README promises of patched modules -/

namespace DS.Modes
open DS.Conv

section
variable {α β : Type} [Zero α] [Zero β]

mutual
theorem online_methods (b : Bool) : ∀ (t : Tree) (σ : Store α) (j : Nat), ((online (.bool b) t σ).1 j).methods = (σ j).methods
  | .node i cs, σ, j => by
    rw [online]
    split
    · rfl
    · rw [onlineAll_methods b cs]
      simp only [Store.modify]
      split <;> rfl
theorem onlineAll_methods (b : Bool) : ∀ (ts : List Tree) (σ : Store α) (j : Nat), ((onlineAll (.bool b) ts σ).1 j).methods = (σ j).methods
  | [], σ, j => rfl
  | t :: ts, σ, j => by
    have h1 := online_methods b t σ j
    rw [onlineAll]
    split
    · rename_i σ' e
      rw [e] at h1
      rw [onlineAll_methods b ts, h1]
    · rename_i σ' e' e
      rw [e] at h1
      exact h1
end

mutual
theorem online_needs (b : Bool) : ∀ (t : Tree) (σ : Store α), (online (.bool b) t σ).2 = none → ∀ i ∈ t.ids, (σ i).methods = true
  | .node i cs, σ, h => by
    rw [online] at h
    split at h
    · simp at h
    · rename_i hm
      intro j hj
      simp only [Tree.ids, List.mem_append, List.mem_singleton] at hj
      rcases hj with hj | rfl
      · have := onlineAll_needs b cs _ h j hj
        simp only [Store.modify] at this
        split at this <;> exact this
      · simpa using hm
theorem onlineAll_needs (b : Bool) : ∀ (ts : List Tree) (σ : Store α), (onlineAll (.bool b) ts σ).2 = none → ∀ i ∈ idsAll ts, (σ i).methods = true
  | [], σ, _ => by simp [idsAll]
  | t :: ts, σ, h => by
    have h1 := online_needs b t σ
    have h2 := online_methods b t σ
    rw [onlineAll] at h
    split at h
    · rename_i σ' e
      rw [e] at h1 h2
      intro j hj
      simp only [idsAll, List.mem_append] at hj
      rcases hj with hj | hj
      · exact h1 rfl j hj
      · rw [← h2 j]
        exact onlineAll_needs b ts σ' h j hj
    · simp at h
end

mutual
theorem online_error (b : Bool) : ∀ (t : Tree) (σ : Store α), (online (.bool b) t σ).2 = none ∨ (online (.bool b) t σ).2 = some .attributeError
  | .node i cs, σ => by
    rw [online]
    split
    · exact .inr rfl
    · exact onlineAll_error b cs _
theorem onlineAll_error (b : Bool) : ∀ (ts : List Tree) (σ : Store α), (onlineAll (.bool b) ts σ).2 = none ∨ (onlineAll (.bool b) ts σ).2 = some .attributeError
  | [], σ => .inl rfl
  | t :: ts, σ => by
    have h1 := online_error b t σ
    rw [onlineAll]
    split
    · exact onlineAll_error b ts _
    · rename_i σ' e' e
      rw [e] at h1
      exact h1
end

/-- **C185 is false of the code.** A model is patched with `patch_module`, as the README says. If any module below it has not been patched itself, `model.online()` raises AttributeError, with the
model itself already online. -/
theorem C185_readme_false (i : Nat) (cs : List Tree) (σ : Store α) (hk : (σ i).kind ≠ .unsupported) (j : Nat) (hj : j ∈ (Tree.node i cs).ids) (hji : j ≠ i) (hm : (σ j).methods = false) :
    (patchModule i σ).2 = none ∧ (online (.bool true) (.node i cs) (patchModule i σ).1).2 = some .attributeError := by
  refine ⟨by simp [patchModule, hk], ?_⟩
  rcases online_error true (.node i cs) (patchModule i σ).1 with h | h
  · have := online_needs true _ _ h j hj
    simp [patchModule, Store.modify, hji, hm] at this
  · exact h

/-- A network of two convolutions. -/
example : 1 ∈ exTree.ids ∧ (exStore 1).methods = false ∧ (exStore 0).kind ≠ .unsupported ∧ (online (.bool true) exTree (patchModule 0 exStore).1).2 = some .attributeError ∧
    ((online (.bool true) exTree (patchModule 0 exStore).1).1 0).streaming = some true ∧ ((online (.bool true) exTree (patchModule 0 exStore).1).1 1).streaming = none := by decide

/-- **C185, exactly.** After `patch_module(model)`, `model.online()` succeeds exactly if all other modules of the model have been patched before (a model without submodules included), and then sets the mode of all modules.
After `patch(model)` it always does. Missing: models whose submodules have not been patched. -/
theorem C185_readme_partial (i : Nat) (cs : List Tree) (σ : Store α) (h : ∀ j ∈ (Tree.node i cs).ids, (σ j).kind ≠ .unsupported) (b : Bool) :
    ((online (.bool b) (.node i cs) (patchModule i σ).1).2 = none ↔ ∀ j ∈ (Tree.node i cs).ids, j ≠ i → (σ j).methods = true) ∧
    ((online (.bool b) (.node i cs) (patchModule i σ).1).2 = none → ∀ j ∈ (Tree.node i cs).ids, ((online (.bool b) (.node i cs) (patchModule i σ).1).1 j).streaming = some b) ∧
    (online (.bool b) (.node i cs) (patch (.node i cs) σ).1).2 = none ∧
      ∀ j ∈ (Tree.node i cs).ids, ((online (.bool b) (.node i cs) (patch (.node i cs) σ).1).1 j).streaming = some b := by
  have hmeth : ∀ j, ((patchModule i σ).1 j).methods = if j = i then true else (σ j).methods := by
    intro j
    simp only [patchModule, Store.modify]
    split
    · unfold patchNode
      split <;> rfl
    · rfl
  refine ⟨⟨?_, ?_⟩, ?_, ?_⟩
  · intro h j hj hji
    have := online_needs b _ _ h j hj
    rw [hmeth, if_neg hji] at this
    exact this
  · intro h
    exact (C64_online _ _ (fun j hj => by
      rw [hmeth]
      split
      · rfl
      · rename_i hji
        exact h j hj hji) b).1
  · intro h j hj
    rw [(C64_online _ _ (online_needs b _ _ h) b).2.1 j hj]
  · have hp := ((C65_patch (.node i cs) σ).2 h).2.1
    obtain ⟨h1, h2, -⟩ := C64_online (.node i cs) (patch (.node i cs) σ).1 (fun j hj => (hp j hj).2.1) b
    refine ⟨h1, ?_⟩
    intro j hj
    rw [h2 j hj]

example : (∀ j ∈ exTree.ids, (exStore j).kind ≠ .unsupported) ∧ (online (.bool true) (.node 1 []) (patchModule 1 exStore).1).2 = none ∧
    (online (.bool true) exTree (patch exTree exStore).1).2 = none := by decide

end
end DS.Modes

namespace DS.Conv
section
variable {α β : Type} [Zero α] [Zero β]

theorem conv_prefix (c : Cfg) (hv : c.Valid) (g : List α → β) (a b : List α) : (conv c g (a ++ b)).take (conv c g a).length = conv c g a := by
  rw [conv_length c hv, conv_eq c hv, conv_eq c hv, ← List.map_take, List.take_range, List.length_append]
  have hm : min (nOut c a.length) (nOut c (a.length + b.length)) = nOut c a.length := Nat.min_eq_left (nOut_mono c hv (by omega))
  rw [hm]
  apply List.map_congr_left
  intro k hk
  rw [List.mem_range, lt_nOut c hv] at hk
  exact (at'_congr c hv g _ _ _ _ (fun j hj => by rw [getD_append_left' _ _ _ (by omega)])).symm

/-- **C186.** A batch in which every sequence is a whole file (it starts and ends), zero-padded to its longest one, whatever the module holds for running streams: the online module raises exactly what
the ordinary module raises for the same data as a plain tensor; otherwise it gives the same width, and in each row the outputs that the ordinary module gives for the file alone, followed by zeros. These
are the first entries of the row that the ordinary module gives in the batch (all of them, if the file fills the batch). -/
theorem C186_whole (c : Cfg) (hv : c.Valid) (g : List α → β) (buf buf' : Buf α) (x : ST α) (hx : WellPacked x) (hne : unpack x ≠ []) (ht : Tight x.width (unpack x))
    (hw : ∀ u ∈ unpack x, u.sos = true ∧ u.eos = true) :
    (∀ e, call c g false buf' (.plain x.width x.rows) = .error e → call c g true buf (.stream x) = .error e) ∧
    ∀ n rows, call c g false buf' (.plain x.width x.rows) = .ok (.plain n rows, buf') → ∃ y b, call c g true buf (.stream x) = .ok (.stream y, b) ∧ y.width = n ∧
      y.rows.length = rows.length ∧ ∀ (k : Nat) (u : Chunk α) (r : List β) (s : List β), (unpack x)[k]? = some u → rows[k]? = some r → y.rows[k]? = some s →
        s = offline c g u.frames ++ zeros (n - (offline c g u.frames).length) ∧ r.take (offline c g u.frames).length = offline c g u.frames ∧
          (u.frames.length = x.width → s = r) := by
  have hpk := packs_pk hx
  have hall : ¬ Mixes c (unpack x) := by
    rintro ⟨-, u, hu, h⟩
    rw [(hw u hu).1] at h
    cases h
  have heos : allEos (unpack x) = true := List.all_eq_true.2 fun u hu => (hw u hu).2
  obtain ⟨w', h1, h2, h3⟩ := forward_any c hv g buf x.md.chunk.isSome x.width (unpack x) hne hx.2.2.2.1 (.inr (.inr (.inl heos)))
  rw [← hpk] at h3
  have hin : ∀ u ∈ unpack x, input c buf (unpack x) u = zeros c.padding ++ u.frames ++ zeros c.padding := by
    intro u hu
    have hh : heard c buf (unpack x) u = u := by unfold heard; rw [if_neg (fun h => hall h.1)]
    unfold input
    rw [hh, (hw u hu).1, (hw u hu).2, if_neg hall]
    simp
  have hst : stacked c buf (unpack x) = false := by
    rw [← Bool.not_eq_true, stacked_iff c hv]
    exact fun h => hall h.1
  have hrg : ragged c buf (unpack x) = false := by
    rw [← Bool.not_eq_true, ragged_iff c hv]
    exact fun h => hall h.1
  have hw' : w' = x.width + 2 * c.padding := by
    obtain ⟨u, hu, e⟩ := h2 ht
    obtain ⟨v, hv', e'⟩ := ht
    have := h1 v hv'
    rw [hin v hv'] at this
    rw [hin u hu] at e
    have := hx.2.2.2.1 u hu
    simp only [List.length_append, zeros, List.length_replicate] at *
    omega
  simp only [hst, Bool.false_and, Bool.false_eq_true, if_false, hrg, Bool.not_false, Bool.and_true] at h3
  have hrows : x.rows = (unpack x).map fun u => u.frames ++ zeros (x.width - u.frames.length) := hx.2.2.2.2
  unfold call
  simp only [Bool.false_eq_true, if_false, if_true]
  rw [h3, hw']
  unfold torchConv1d
  refine ⟨?_, ?_⟩
  · intro e he
    split at he
    · rename_i hlt
      rw [if_pos hlt]
      cases he
      rfl
    · cases he
  · intro n rows he
    split at he
    · cases he
    · rename_i hlt
      have hn : (x.width + 2 * c.padding - c.kw) / c.stride + 1 = nOut c (x.width + 2 * c.padding) := by unfold nOut; rw [if_neg hlt]
      rw [hn] at he
      simp only [Except.map, Except.ok.injEq, Prod.mk.injEq, Result.plain.injEq, and_true] at he
      obtain ⟨rfl, rfl⟩ := he
      rw [if_neg hlt]
      refine ⟨_, _, rfl, rfl, by simp [pk, hrows], ?_⟩
      intro k u r s hu hr hs
      have hmem := List.mem_of_getElem? hu
      have hk : k < (unpack x).length := (List.getElem?_eq_some_iff.1 hu).1
      have hs' : s = conv c g (zeros c.padding ++ u.frames ++ zeros c.padding) ++ zeros (nOut c (x.width + 2 * c.padding) - (conv c g (zeros c.padding ++ u.frames ++ zeros c.padding)).length) := by
        simp only [pk, List.map_map, List.getElem?_map, hu, Option.map_some, Option.some.injEq] at hs
        rw [← hs]
        simp only [Function.comp_apply, Chunk.set, hin u hmem]
      have hr' : r = conv c g ((zeros c.padding ++ u.frames ++ zeros c.padding) ++ zeros (x.width - u.frames.length)) := by
        rw [hrows, List.map_map, List.getElem?_map, hu, Option.map_some, Option.some.injEq] at hr
        rw [← hr, conv_eq c hv]
        have hle := hx.2.2.2.1 u hmem
        have hl : ((zeros c.padding ++ u.frames ++ zeros c.padding) ++ zeros (x.width - u.frames.length)).length = x.width + 2 * c.padding := by
          simp [zeros]
          omega
        rw [hl]
        simp only [Function.comp_apply]
        apply List.map_congr_left
        intro o _
        have : fpad c.padding c.padding (u.frames ++ zeros (x.width - u.frames.length)) = (zeros c.padding ++ u.frames ++ zeros c.padding) ++ zeros (x.width - u.frames.length) := by
          unfold fpad zeros
          simp only [List.append_assoc, List.append_cancel_left_eq]
          rw [List.replicate_append_replicate, List.replicate_append_replicate, Nat.add_comm]
        rw [this]
        rfl
      refine ⟨hs', ?_, ?_⟩
      · rw [hr']
        exact conv_prefix c hv g _ _
      · intro hfull
        rw [hs', hr', hfull, Nat.sub_self]
        have e0 : (zeros 0 : List α) = [] := rfl
        rw [e0, List.append_nil]
        have : (conv c g (zeros c.padding ++ u.frames ++ zeros c.padding)).length = nOut c (x.width + 2 * c.padding) := by
          rw [conv_length c hv]
          congr 1
          simp [zeros]
          omega
        rw [this, Nat.sub_self]
        exact List.append_nil _

/-- Two whole files of three and two frames in a module with padding, where the id of one was left open before. -/
example : (call (Cfg.mk 3 1 1 1) exG true (fun i => if i = "a" then some [7, 8] else none) (.stream (⟨⟨["a", "b"], [true, true], [true, true], [3, 2], none⟩, 3, [[1, 2, 3], [4, 5, 0]]⟩ : ST Int))).map
      (fun r => match r.1 with | .stream y => y.rows | .plain _ rows => rows) = .ok [[12, 123, 230], [45, 450, 0]] ∧
    (call (Cfg.mk 3 1 1 1) exG false (fun _ => none) (.plain 3 [[1, 2, 3], [4, 5, 0]])).map
      (fun r => match r.1 with | .stream y => y.rows | .plain _ rows => rows) = .ok [[12, 123, 230], [45, 450, 500]] := by decide

end
end DS.Conv
