import Verif.Model.PipelineTen
import Verif.Spec.Align
import Verif.Props.Axes
/-! # C201: ordering axes by their names -/

namespace DS.Tn
open Meta
variable {α : Type}

/-- **C201 is false of the code.** After `y = x.mean("L")` (axes batch and features, metadata with lengths 3 and 2), `y.align_to("B", "F", "L")` has a length axis of size 1, and its metadata still say 3 and 2. -/
theorem C201_align_false : ∃ (x y : STen (List Nat)), x.t.WF ∧ x.Holds ∧ alignTo x ["B", "F", "L"] = .ok y ∧ y.t.along "L" = some 1 ∧ y.md.lengths = [3, 2] := by
  refine ⟨⟨exT [2, 4] [some "B", some "F"], exM2⟩, _, by decide, ⟨?_, ?_⟩, rfl, rfl, rfl⟩
  · intro s hs
    have : some 2 = some s := hs
    simp only [Option.some.injEq] at this
    exact this.symm
  · intro s hs
    have : none = some s := hs
    cases this

theorem idxOf_names {names : List (Option String)} (hn : (names.filterMap id).Nodup) {k : Nat} {n : String} (hk : names[k]? = some (some n)) : names.idxOf (some n) = k := by
  induction names generalizing k with
  | nil => simp at hk
  | cons a as ih =>
    cases k with
    | zero =>
      simp only [List.getElem?_cons_zero, Option.some.injEq] at hk
      subst hk
      exact List.idxOf_cons_self
    | succ k =>
      simp only [List.getElem?_cons_succ] at hk
      have hmem : some n ∈ as := List.mem_of_getElem? hk
      cases a with
      | none =>
        rw [List.idxOf_cons_ne _ (by simp), ih (by simpa using hn) hk]
      | some m =>
        have hn' : (m :: as.filterMap id).Nodup := hn
        have hne : m ≠ n := by
          rintro rfl
          exact (List.nodup_cons.1 hn').1 (List.mem_filterMap.2 ⟨_, hmem, rfl⟩)
        rw [List.idxOf_cons_ne _ (by simpa using hne), ih (List.nodup_cons.1 hn').2 hk]

theorem along_eq {t : Ten α} (hw : t.WF) (n : String) : t.along n = if some n ∈ t.names then some (t.shape.getD (t.names.idxOf (some n)) 0) else none := by
  obtain ⟨h1, h2, -⟩ := hw
  unfold Ten.along
  generalize t.names = ns at h1 h2
  generalize t.shape = ss at h1
  clear h2
  induction ns generalizing ss with
  | nil => rfl
  | cons a as ih =>
    cases ss with
    | nil => simp at h1
    | cons s ss =>
      rw [List.zip_cons_cons]
      by_cases ha : a = some n
      · subst ha
        simp
      · rw [List.find?_cons_of_neg (by simpa using ha), ih ss (by simpa using h1), List.idxOf_cons_ne _ ha]
        simp [Ne.symm ha]

/-- C201, exactly. `x.align_to(*names)` (distinct names) raises RuntimeError if some axis of `x` has no name or one that is not given. Otherwise the result has the given names in the given order, every axis of `x` with its size, an axis of size 1 for every other name,
the entries of `x` at the same coordinates by name, and the metadata of `x`. The batch and length axes hold the sequences of the metadata, as in `x`, if and only if no new length axis is made for longer sequences, and no new batch axis for another number of sequences than one.
Missing: new axes called "B" or "L" in the other cases (`C201_align_false`). -/
theorem C201_align_partial (x : STen α) (hw : x.t.WF) (ns : List String) (hn : ns.Nodup) (h0 : "" ∉ ns) :
    ((∃ n ∈ x.t.names, n ∉ ns.map some) → alignTo x ns = .error .runtimeError) ∧
    ((∀ n ∈ x.t.names, n ∈ ns.map some) → ∃ y, alignTo x ns = .ok y ∧ y.t.WF ∧ y.t.names = ns.map some ∧ y.md = x.md ∧
      (∀ n ∈ ns, y.t.along n = some ((x.t.along n).getD 1)) ∧
      (∀ ix jx : List Nat, jx.length = x.t.names.length → (∀ (k k' : Nat) (n : String), ns[k]? = some n → x.t.names[k']? = some (some n) → ix.getD k 0 = jx.getD k' 0) → y.t.val ix = x.t.val jx) ∧
      (x.Holds → (y.Holds ↔ ("B" ∈ ns → some "B" ∈ x.t.names ∨ x.md.ids.length = 1) ∧ ("L" ∈ ns → some "L" ∈ x.t.names ∨ ∀ l ∈ x.md.lengths, l ≤ 1)))) := by
  constructor
  · rintro ⟨n, h1, h2⟩
    unfold alignTo Ten.alignTo
    rw [if_neg (fun h => h2 (h n h1))]
    rfl
  · intro h
    have hwy : ({ shape := ns.map fun n => if some n ∈ x.t.names then x.t.shape.getD (x.t.names.idxOf (some n)) 0 else 1, names := ns.map some, val := fun ix => x.t.val (x.t.names.map fun n => ix.getD ((ns.map some).idxOf n) 0) } : Ten α).WF := by
      refine ⟨by simp, ?_, by simpa using h0⟩
      have : (ns.map some).filterMap id = ns := by simp [List.filterMap_map]
      rw [this]
      exact hn
    have hal : ∀ n ∈ ns, ({ shape := ns.map fun n => if some n ∈ x.t.names then x.t.shape.getD (x.t.names.idxOf (some n)) 0 else 1, names := ns.map some, val := fun ix => x.t.val (x.t.names.map fun n => ix.getD ((ns.map some).idxOf n) 0) } : Ten α).along n = some ((x.t.along n).getD 1) := by
      intro n hm
      rw [along_eq hwy, along_eq hw]
      dsimp only
      rw [if_pos (by simpa using hm)]
      congr 1
      obtain ⟨k, hk, he⟩ := List.mem_iff_getElem.1 hm
      have e1 : (ns.map some).idxOf (some n) = k := idxOf_names (by simpa [List.filterMap_map] using hn) (by simp [hk, he])
      rw [e1]
      simp only [List.getD, List.getElem?_map, List.getElem?_eq_getElem hk, he, Option.map_some, Option.getD_some]
      split <;> rfl
    refine ⟨⟨{ shape := ns.map fun n => if some n ∈ x.t.names then x.t.shape.getD (x.t.names.idxOf (some n)) 0 else 1, names := ns.map some, val := fun ix => x.t.val (x.t.names.map fun n => ix.getD ((ns.map some).idxOf n) 0) }, x.md⟩, by unfold alignTo Ten.alignTo; rw [if_pos h]; rfl, hwy, rfl, rfl, hal, ?_, ?_⟩
    · intro ix jx hl hc
      dsimp only
      congr 1
      apply List.ext_getElem (by simp [hl])
      intro k' h1 h2
      rw [List.getElem_map]
      have h3 : k' < x.t.names.length := by simpa using h1
      have hmem := h _ (List.getElem_mem h3)
      obtain ⟨n, hn1, hn2⟩ := List.mem_map.1 hmem
      obtain ⟨k, hk, he⟩ := List.mem_iff_getElem.1 hn1
      have e1 : (ns.map some).idxOf (x.t.names[k']) = k := by
        rw [← hn2]
        exact idxOf_names (by simpa [List.filterMap_map] using hn) (by simp [hk, he])
      rw [e1, hc k k' n (by simp [hk, he]) (by rw [List.getElem?_eq_getElem h3, hn2])]
      simp [List.getD, h2]
    · rintro ⟨hb, hl⟩
      unfold STen.Holds
      dsimp only
      constructor
      · rintro ⟨q1, q2⟩
        constructor
        · intro hm
          by_cases hx : some "B" ∈ x.t.names
          · exact .inl hx
          · right
            have := q1 _ (hal "B" hm)
            rw [along_eq hw, if_neg hx] at this
            exact this.symm
        · intro hm
          by_cases hx : some "L" ∈ x.t.names
          · exact .inl hx
          · right
            have := q2 _ (hal "L" hm)
            rw [along_eq hw, if_neg hx] at this
            exact this
      · rintro ⟨q1, q2⟩
        constructor
        · intro s hs
          by_cases hm : "B" ∈ ns
          · rw [hal "B" hm] at hs
            simp only [Option.some.injEq] at hs
            rcases q1 hm with hx | hx
            · have e := along_eq hw "B"
              rw [if_pos hx] at e
              rw [e] at hs
              exact hb s (by rw [e]; simpa using hs)
            · by_cases hx' : some "B" ∈ x.t.names
              · have e := along_eq hw "B"
                rw [if_pos hx'] at e
                rw [e] at hs
                exact hb s (by rw [e]; simpa using hs)
              · have e := along_eq hw "B"
                rw [if_neg hx'] at e
                rw [e] at hs
                rw [hx, ← hs]
                rfl
          · rw [along_eq hwy, if_neg (by simpa using hm)] at hs
            cases hs
        · intro s hs
          by_cases hm : "L" ∈ ns
          · rw [hal "L" hm] at hs
            simp only [Option.some.injEq] at hs
            by_cases hx' : some "L" ∈ x.t.names
            · have e := along_eq hw "L"
              rw [if_pos hx'] at e
              rw [e] at hs
              exact hl s (by rw [e]; simpa using hs)
            · have e := along_eq hw "L"
              rw [if_neg hx'] at e
              rw [e] at hs
              rcases q2 hm with hx | hx
              · exact absurd hx hx'
              · rw [← hs]
                exact hx
          · rw [along_eq hwy, if_neg (by simpa using hm)] at hs
            cases hs

example : ∃ y, alignTo (⟨exT [3, 2, 4] [some "L", some "B", some "F"], exM2⟩ : STen (List Nat)) ["B", "F", "X", "L"] = .ok y ∧ y.t.shape = [2, 4, 1, 3] ∧ y.t.val [1, 2, 0, 0] = [0, 1, 2] ∧
    (⟨exT [3, 2, 4] [some "L", some "B", some "F"], exM2⟩ : STen (List Nat)).t.WF := ⟨_, rfl, rfl, rfl, by decide⟩

end DS.Tn
