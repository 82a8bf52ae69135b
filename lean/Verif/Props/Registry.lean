import Verif.Model.Registry
/-!
# C182: `implements` registers a function for every torch function named above it and keeps its documentation
-/

namespace DS.Reg

/-- `torch.split` and `torch.functional.split` are one object; `torch.Tensor.split` is another. -/
def tSplit : Torch := ⟨1, "split", some "Splits the tensor into chunks."⟩
def mSplit : Torch := ⟨2, "split", some "See torch.split"⟩

/-- A module with a function that has no documentation and one that has. -/
def start : World := ⟨fun g => if g = 0 then ⟨"split", none, none⟩ else ⟨"cat", some "Own.", none⟩, fun _ => none⟩

/-- The line between two documentations. -/
def bar : String := "\n\n" ++ ruler ++ "\n\n"

/-- **C182 is false of the code.** `overrides.split` (overrides.py:124-127) has no documentation and is decorated with `torch.split`, `torch.functional.split`, which is the same function, and `torch.Tensor.split`: its documentation becomes the word `None`, twice that of `torch.split`, and that
of the method. -/
theorem C182_doc_false :
    ((decorate start [tSplit, tSplit, mSplit] 0).fns 0).doc = some ("None" ++ bar ++ "Splits the tensor into chunks." ++ bar ++ "Splits the tensor into chunks." ++ bar ++ "See torch.split") := by
  show some (augment (some (augment (some (augment none tSplit.doc)) tSplit.doc)) mSplit.doc) = _
  simp only [augment, bar, shown, Option.getD_some, Option.getD_none, tSplit, mSplit, String.append_assoc]

theorem decorate_cons (w : World) (tf : Torch) (tfs : List Torch) (f : Nat) : decorate w (tf :: tfs) f = decorate (implement w tf f) tfs f := rfl

theorem decorate_table (tfs : List Torch) (f : Nat) : ∀ (w : World) (k : Nat), (decorate w tfs f).table k = if k ∈ tfs.map Torch.key then some f else w.table k := by
  induction tfs with
  | nil => intro w k; simp [decorate]
  | cons tf tfs ih =>
    intro w k
    rw [decorate_cons, ih]
    by_cases h : k ∈ tfs.map Torch.key
    · rw [if_pos h, if_pos (by simp only [List.map_cons, List.mem_cons]; exact .inr h)]
    · rw [if_neg h]
      show (if k = tf.key then some f else w.table k) = _
      by_cases h2 : k = tf.key
      · rw [if_pos h2, if_pos (by simp [h2])]
      · rw [if_neg h2, if_neg (by simp only [List.map_cons, List.mem_cons]; exact not_or.2 ⟨h2, h⟩)]

theorem decorate_fns (tfs : List Torch) (f : Nat) : ∀ (w : World),
    (∀ g, g ≠ f → (decorate w tfs f).fns g = w.fns g) ∧
    (∀ tf ∈ tfs.getLast?, ((decorate w tfs f).fns f).name = tf.name ∧ ((decorate w tfs f).fns f).wrapped = some tf.key) ∧
    (∀ d, (w.fns f).doc = some d → ((decorate w tfs f).fns f).doc = some (tfs.foldl (fun s tf => s ++ bar ++ shown tf.doc) d)) := by
  induction tfs with
  | nil =>
    intro w
    exact ⟨fun _ _ => rfl, by simp, fun d hd => hd⟩
  | cons tf tfs ih =>
    intro w
    rw [decorate_cons]
    obtain ⟨h1, h2, h3⟩ := ih (implement w tf f)
    refine ⟨?_, ?_, ?_⟩
    · intro g hg
      rw [h1 g hg]
      show (if g = f then _ else _) = _
      rw [if_neg hg]
    · intro t ht
      cases tfs with
      | nil =>
        have ht : tf = t := by simpa using ht
        subst ht
        show ((implement w tf f).fns f).name = _ ∧ _
        unfold implement decorate
        simp
      | cons u us =>
        apply h2
        rw [List.getLast?_cons_cons] at ht
        exact ht
    · intro d hd
      apply h3
      show (if f = f then (⟨_, _, _⟩ : Fn) else _).doc = _
      rw [if_pos rfl]
      dsimp only
      rw [hd]
      simp only [augment, bar, String.append_assoc]
      rfl

/-- **C182**, dispatch: after a module has been loaded, a torch function is handled by the function whose definition was the last to name it, and by none if no definition names it (and it had none before). -/
theorem C182_dispatch (defs : List (List Torch × Nat)) (w : World) (k : Nat) :
    (load w defs).table k = ((defs.filter fun d => d.1.any (·.key == k)).getLast?.map Prod.snd).or (w.table k) := by
  induction defs generalizing w with
  | nil => rfl
  | cons d ds ih =>
    show (load (decorate w d.1 d.2) ds).table k = _
    rw [ih, decorate_table]
    by_cases h : d.1.any (·.key == k) = true
    · rw [List.filter_cons, if_pos h, if_pos (by obtain ⟨t, h1, h2⟩ := List.any_eq_true.1 h; exact List.mem_map.2 ⟨t, h1, by simpa using h2⟩)]
      cases hf : ds.filter fun d => d.1.any (·.key == k) with
      | nil => rfl
      | cons e es => rw [List.getLast?_cons_cons]; rw [List.getLast?_cons]; rfl
    · rw [List.filter_cons, if_neg h, if_neg (by intro hm; obtain ⟨t, h1, h2⟩ := List.mem_map.1 hm; exact h (List.any_eq_true.2 ⟨t, h1, by simp [h2]⟩))]

example : (load start [([tSplit, mSplit], 0), ([mSplit], 1)]).table 1 = some 0 ∧ (load start [([tSplit, mSplit], 0), ([mSplit], 1)]).table 2 = some 1 ∧ (load start [([tSplit], 0)]).table 2 = none := by decide

/-- C182, documentation: a function with documentation keeps it in front; the documentations of the torch functions follow in the order from the lowest decorator to the highest, each after a line of 80 signs; the function takes the name of the highest. Other functions
are unchanged.
Missing: functions without documentation, torch functions that are named twice (C182_doc_false). -/
theorem C182_doc_partial (w : World) (tfs : List Torch) (f : Nat) :
    (∀ g, g ≠ f → (decorate w tfs f).fns g = w.fns g) ∧
    (∀ tf ∈ tfs.getLast?, ((decorate w tfs f).fns f).name = tf.name ∧ ((decorate w tfs f).fns f).wrapped = some tf.key) ∧
    (∀ d, (w.fns f).doc = some d → ((decorate w tfs f).fns f).doc = some (tfs.foldl (fun s tf => s ++ bar ++ shown tf.doc) d)) :=
  decorate_fns tfs f w

example : (start.fns 1).doc = some "Own." ∧ mSplit ∈ [tSplit, mSplit].getLast? := ⟨rfl, by simp⟩

end DS.Reg
