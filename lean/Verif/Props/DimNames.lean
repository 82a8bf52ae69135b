import Verif.Model.DimNames
/-!
# C179: `join_dim_names` and `split_dim_names` are inverse to each other
-/

namespace DS.Tn

theorem splitChars_ne (cs : List Char) : splitChars cs ≠ [] := by
  cases cs with
  | nil => simp [splitChars]
  | cons c cs =>
    unfold splitChars
    split
    · simp
    · split <;> simp

theorem joinNames_some (ns : List String) : joinNames (ns.map some) = .ok ("_".intercalate ns) := by
  have : (ns.map some).mapM id = some ns := by
    induction ns with
    | nil => rfl
    | cons n ns ih => simp [ih]
  unfold joinNames
  rw [this]

theorem intercalate_split (cs : List Char) : ['_'].intercalate (splitChars cs) = cs := by
  induction cs with
  | nil => rfl
  | cons c cs ih =>
    unfold splitChars
    have hne := splitChars_ne cs
    cases hs : splitChars cs with
    | nil => exact absurd hs hne
    | cons w ws =>
      rw [hs] at ih
      split
      · rename_i h
        subst h
        rw [List.intercalate_cons_cons, ih]
        rfl
      · cases ws with
        | nil => simp only [List.intercalate_singleton] at ih ⊢; rw [ih]
        | cons v vs => rw [List.intercalate_cons_cons] at ih ⊢; rw [← ih]; rfl

/-- C179: joining the parts of a name gives the name back. -/
theorem C179_join_split (name : String) : joinNames ((splitNames name).map some) = .ok name := by
  rw [joinNames_some]
  congr 1
  rw [← String.toList_inj, String.toList_intercalate]
  unfold splitNames
  rw [List.map_map]
  have : (String.toList ∘ String.ofList) = id := by funext l; simp
  rw [this, List.map_id]
  exact intercalate_split name.toList

theorem splitChars_append (w cs : List Char) (h : '_' ∉ w) : splitChars (w ++ '_' :: cs) = w :: splitChars cs := by
  induction w with
  | nil => simp [splitChars]
  | cons c w ih =>
    rw [List.mem_cons, not_or] at h
    rw [List.cons_append, splitChars, if_neg (fun e => h.1 e.symm), ih h.2]

theorem splitChars_word (w : List Char) (h : '_' ∉ w) : splitChars w = [w] := by
  induction w with
  | nil => rfl
  | cons c w ih =>
    rw [List.mem_cons, not_or] at h
    rw [splitChars, if_neg (fun e => h.1 e.symm), ih h.2]

theorem split_intercalate (ws : List (List Char)) (hne : ws ≠ []) (h : ∀ w ∈ ws, '_' ∉ w) : splitChars (['_'].intercalate ws) = ws := by
  induction ws with
  | nil => exact absurd rfl hne
  | cons w ws ih =>
    cases ws with
    | nil => rw [List.intercalate_singleton]; exact splitChars_word w (h w (by simp))
    | cons v vs =>
      rw [List.intercalate_cons_cons, List.append_assoc]
      show splitChars (w ++ '_' :: ['_'].intercalate (v :: vs)) = _
      rw [splitChars_append w _ (h w (by simp)), ih (by simp) fun u hu => h u (by simp [hu])]

theorem splitChars_no (cs : List Char) : ∀ w ∈ splitChars cs, '_' ∉ w := by
  induction cs with
  | nil => simp [splitChars]
  | cons c cs ih =>
    unfold splitChars
    split
    · intro w hw
      rcases List.mem_cons.1 hw with rfl | hw
      · simp
      · exact ih w hw
    · rename_i hc
      split
      · intro w hw
        simp only [List.mem_singleton] at hw
        subst hw
        simpa using fun e => hc e.symm
      · rename_i v vs hv
        rw [hv] at ih
        intro w hw
        rcases List.mem_cons.1 hw with rfl | hw
        · rw [List.mem_cons, not_or]
          exact ⟨fun e => hc e.symm, ih v (by simp)⟩
        · exact ih w (by simp [hw])

/-- C179, what holds in the other direction: the names of several axes come back from their joined name exactly if there is at least one and none of them contains an underscore.
Missing: names with underscores, which torch accepts. -/
theorem C179_split_join_partial (ns : List String) (joined : String) (h : joinNames (ns.map some) = .ok joined) :
    splitNames joined = ns ↔ ns ≠ [] ∧ ∀ n ∈ ns, '_' ∉ n.toList := by
  rw [joinNames_some] at h
  injection h with h
  subst h
  constructor
  · intro h
    rw [← h]
    unfold splitNames
    constructor
    · intro h0
      exact splitChars_ne _ (List.map_eq_nil_iff.1 h0)
    · intro n hn
      obtain ⟨w, hw, rfl⟩ := List.mem_map.1 hn
      rw [String.toList_ofList]
      exact splitChars_no _ w hw
  · rintro ⟨hne, h⟩
    unfold splitNames
    rw [String.toList_intercalate]
    show (splitChars (['_'].intercalate (ns.map String.toList))).map String.ofList = ns
    rw [split_intercalate _ (by simpa using hne) (by simpa using h), List.map_map]
    have : (String.ofList ∘ String.toList) = id := by funext l; simp
    rw [this, List.map_id]

/-- C179, unnamed axes: they have no joined name (TypeError). -/
theorem C179_unnamed (ns : List (Option String)) (h : none ∈ ns) : joinNames ns = .error .typeError := by
  have : ns.mapM id = none := by
    induction ns with
    | nil => simp at h
    | cons n ns ih =>
      cases n with
      | none => rfl
      | some s =>
        have := ih (by simpa using h)
        simp [this]
  unfold joinNames
  rw [this]

/-- C179 is false: the names `in_x` and `out` come back as three names. -/
theorem C179_split_join_false : joinNames ([some "in_x", some "out"]) = .ok "in_x_out" ∧ splitNames "in_x_out" = ["in", "x", "out"] := ⟨rfl, rfl⟩

example : joinNames ([some "B", some "F", some "L"]) = .ok "B_F_L" ∧ splitNames "B_F_L" = ["B", "F", "L"] := ⟨rfl, rfl⟩
example : splitNames "" = [""] ∧ splitNames "__" = ["", "", ""] := ⟨rfl, rfl⟩

end DS.Tn
