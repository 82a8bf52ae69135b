import Verif.Props.Split
/-!
# C136: a constructed dataset can be split
-/

namespace DS.Data

section
variable {α : Type}

theorem mapPy_lookup_error {β : Type} (l : List (String × β)) (xs : List String) (x : String) (hx : x ∈ xs) (h : l.lookup x = none) :
    mapPy (lookupKey l) xs = .error .keyError := by
  induction xs with
  | nil => cases hx
  | cons y ys ih =>
    unfold mapPy
    cases hy : l.lookup y with
    | none => simp [lookupKey, hy, Except.bind_error']
    | some v =>
      have hne : x ≠ y := fun he => by rw [he, hy] at h; cases h
      have hx' : x ∈ ys := (List.mem_cons.1 hx).resolve_left hne
      simp [lookupKey, hy, Except.bind_ok', Except.bind_error', ih hx']

theorem lookup_isSome_iff {β : Type} (l : List (String × β)) (x : String) : (l.lookup x).isSome = true ↔ x ∈ l.map Prod.fst := by
  induction l with
  | nil => simp
  | cons e es ih =>
    obtain ⟨a, b⟩ := e
    by_cases h : x = a
    · subst h; simp [List.lookup]
    · rw [List.lookup_cons, show (x == a) = false by simp [h], ih]
      simp [h]

/-- A dataset whose metadata and lengths are about the same files: `split` works iff every file has a length, and is a KeyError otherwise. -/
theorem split_iff (disk : Disk α) (d : Dataset α) (hc : d.chunkSeconds ≠ 0) (hm : d.metadata = [] ∨ d.metadata.map Prod.fst = d.lengths.map Prod.fst)
    (n bs : Int) (hn : 0 < n) (hb : 0 < bs) (hdvd : n ∣ bs) (shuffle dropLast : Bool) (order : List Nat) (ho : order.Perm (List.range d.files.length)) :
    ((∃ ds, d.split disk n bs shuffle dropLast order = .ok ds) ↔ ∀ x ∈ d.files, x ∈ d.lengths.map Prod.fst) ∧
    ((∃ x ∈ d.files, x ∉ d.lengths.map Prod.fst) → d.split disk n bs shuffle dropLast order = .error .keyError) := by
  have herr : (∃ x ∈ d.files, x ∉ d.lengths.map Prod.fst) → d.split disk n bs shuffle dropLast order = .error .keyError := by
    rintro ⟨x, hx, hx2⟩
    have hl : d.lengths.lookup x = none := by
      cases hl : d.lengths.lookup x with
      | none => rfl
      | some v => exact absurd ((lookup_isSome_iff _ x).1 (by rw [hl]; rfl)) hx2
    unfold Dataset.split
    rw [if_neg (by omega), if_neg (by simp [Int.emod_eq_zero_of_dvd hdvd]), mapPy_lookup_error _ _ x hx hl, Except.bind_error']
  refine ⟨⟨?_, ?_⟩, herr⟩
  · rintro ⟨ds, hds⟩ x hx
    by_contra hx2
    rw [herr ⟨x, hx, hx2⟩] at hds
    cases hds
  · intro h
    have hs : Splittable d := by
      refine ⟨hc, fun x hx => (lookup_isSome_iff _ x).2 (h x hx), ?_⟩
      rcases hm with h0 | h0
      · exact Or.inl h0
      · exact Or.inr fun x hx => (lookup_isSome_iff _ x).2 (by rw [h0]; exact h x hx)
    obtain ⟨parts, _, _, h3⟩ := split_ok disk d hs n bs hn hb (Int.emod_eq_zero_of_dvd hdvd) shuffle dropLast order ho
    exact ⟨_, h3⟩

theorem zip_fst_take {β γ : Type} (a : List β) (b : List γ) : (a.zip b).map Prod.fst = a.take b.length := by
  induction a generalizing b with
  | nil => simp
  | cons x xs ih => cases b <;> simp [ih]

/-- C136, what holds with `file_lengths`: the dataset can be split iff every file occurs among as many files as there are lengths; otherwise `split` is a KeyError.
For distinct files the length used for the i-th file is the i-th length. Missing: that a list of lengths of another size than the file list is refused. -/
theorem C136_lengths_partial (disk : Disk α) (files : List String) (cs : Rat) (hc : cs ≠ 0) (ls : List Rat) (tf : Option (List α → List α)) (names : Option (List String))
    (md : List (String × Nat × Nat)) (b : Int) (sh dl : Bool) (d : Dataset α) (hd : Dataset.new disk files cs (some ls) tf names md b sh dl = .ok d)
    (n bs : Int) (hn : 0 < n) (hb : 0 < bs) (hdvd : n ∣ bs) (shuffle dropLast : Bool) (order : List Nat) (ho : order.Perm (List.range files.length)) :
    ((∃ ds, d.split disk n bs shuffle dropLast order = .ok ds) ↔ ∀ x ∈ files, x ∈ files.take ls.length) ∧
    ((∃ x ∈ files, x ∉ files.take ls.length) → d.split disk n bs shuffle dropLast order = .error .keyError) ∧
    (files.Nodup → ∀ (i : Nat) (x : String) (l : Rat), files[i]? = some x → ls[i]? = some l → d.lengths.lookup x = some l) := by
  unfold Dataset.new at hd
  split at hd
  · cases hd
  · injection hd with hd
    subst hd
    have hmem : ∀ x, x ∈ ((files.zip ls).reverse.map Prod.fst) ↔ x ∈ files.take ls.length := by
      intro x
      rw [← zip_fst_take, List.map_reverse, List.mem_reverse]
    obtain ⟨h1, h2⟩ := split_iff disk (⟨files, cs, tf, names, b, sh, dl, [], (files.zip ls).reverse⟩ : Dataset α) hc (Or.inl rfl) n bs hn hb hdvd shuffle dropLast order ho
    refine ⟨h1.trans ?_, ?_, ?_⟩
    · exact forall_congr' fun x => imp_congr_right fun _ => hmem x
    · rintro ⟨x, hx, hx2⟩
      exact h2 ⟨x, hx, fun h => hx2 ((hmem x).1 h)⟩
    · intro hnd i x l hx hl
      have hz : (x, l) ∈ (files.zip ls).reverse := by
        rw [List.mem_reverse]
        apply List.mem_of_getElem? (i := i)
        rw [List.getElem?_zip_eq_some]
        exact ⟨hx, hl⟩
      have hnd' : ((files.zip ls).reverse.map Prod.fst).Nodup := by
        rw [List.map_reverse, List.nodup_reverse, zip_fst_take]
        exact (List.take_sublist _ _).nodup hnd
      clear h1 h2 hmem
      show List.lookup x (files.zip ls).reverse = some l
      generalize (files.zip ls).reverse = z at hz hnd'
      induction z with
      | nil => cases hz
      | cons e es ih =>
        obtain ⟨a, c⟩ := e
        rw [List.map_cons, List.nodup_cons] at hnd'
        rcases List.mem_cons.1 hz with h | h
        · injection h with ha hc
          subst ha hc
          simp [List.lookup]
        · have hne : x ≠ a := fun he => hnd'.1 (he ▸ List.mem_map.2 ⟨_, h, rfl⟩)
          rw [List.lookup_cons, show (x == a) = false by simp [hne]]
          exact ih h hnd'.2

/-- C136, what holds without `file_lengths`: the dataset can be split iff no metadata were given or they cover every file; otherwise `split` is a KeyError.
Missing: that metadata for some of the files only are completed or refused. -/
theorem C136_metadata_partial (disk : Disk α) (files : List String) (cs : Rat) (hc : cs ≠ 0) (tf : Option (List α → List α)) (names : Option (List String))
    (md : List (String × Nat × Nat)) (b : Int) (sh dl : Bool) (d : Dataset α) (hd : Dataset.new disk files cs none tf names md b sh dl = .ok d)
    (n bs : Int) (hn : 0 < n) (hb : 0 < bs) (hdvd : n ∣ bs) (shuffle dropLast : Bool) (order : List Nat) (ho : order.Perm (List.range files.length)) :
    ((∃ ds, d.split disk n bs shuffle dropLast order = .ok ds) ↔ md = [] ∨ ∀ x ∈ files, x ∈ md.map Prod.fst) ∧
    ((md ≠ [] ∧ ∃ x ∈ files, x ∉ md.map Prod.fst) → d.split disk n bs shuffle dropLast order = .error .keyError) := by
  unfold Dataset.new at hd
  split at hd
  · cases hd
  · injection hd with hd
    subst hd
    obtain ⟨h1, h2⟩ := split_iff disk (⟨files, cs, tf, names, b, sh, dl, if md = [] then files.map fun f => (f, (disk f).1.length, (disk f).2) else md,
      (if md = [] then files.map fun f => (f, (disk f).1.length, (disk f).2) else md).map fun e => (e.1, (e.2.1 : Rat) / (e.2.2 : Rat))⟩ : Dataset α)
      hc (Or.inr (by simp [List.map_map, Function.comp_def])) n bs hn hb hdvd shuffle dropLast order ho
    by_cases hmd : md = []
    · refine ⟨?_, fun h => absurd hmd h.1⟩
      refine ⟨fun _ => Or.inl hmd, fun _ => h1.2 ?_⟩
      intro x hx
      rw [if_pos hmd]
      simp [List.map_map, Function.comp_def]
      exact hx
    · rw [if_neg hmd] at h1 h2
      simp only [List.map_map, Function.comp_def] at h1 h2
      simp only [if_neg hmd]
      constructor
      · refine h1.trans ⟨Or.inr, fun h => h.resolve_left hmd⟩
      · rintro ⟨_, h⟩
        exact h2 h

/-- C136 is false: with fewer lengths than files the constructor succeeds and `split` is a KeyError. -/
theorem C136_short_false : ∃ d : Dataset Nat, Dataset.new (fun _ => ([0], 1)) ["a", "b"] 1 (some [2]) none none [] 1 false false = .ok d ∧
    d.split (fun _ => ([0], 1)) 1 1 false false [0, 1] = .error .keyError :=
  ⟨_, rfl, (C136_lengths_partial (fun _ => ([0], 1)) ["a", "b"] 1 (by decide) [2] none none [] 1 false false _ rfl 1 1 (by omega) (by omega) (Int.dvd_refl 1) false false
    [0, 1] (List.Perm.refl _)).2.1 ⟨"b", by decide, by decide⟩⟩

/-- C136 is false: the same for metadata that leave out a file. -/
theorem C136_metadata_false : ∃ d : Dataset Nat, Dataset.new (fun _ => ([0], 1)) ["a", "b"] 1 none none none [("a", 4, 2)] 1 false false = .ok d ∧
    d.split (fun _ => ([0], 1)) 1 1 false false [0, 1] = .error .keyError :=
  ⟨_, rfl, (C136_metadata_partial (fun _ => ([0], 1)) ["a", "b"] 1 (by decide) none none [("a", 4, 2)] 1 false false _ rfl 1 1 (by omega) (by omega) (Int.dvd_refl 1)
    false false [0, 1] (List.Perm.refl _)).2 ⟨by decide, "b", by decide, by decide⟩⟩

example : ((Dataset.new (fun _ => ([0], 1)) ["a", "b", "a"] 1 (some [2, 3]) none none [] 1 false false : Py (Dataset Nat)).bind
    fun d => (d.split (fun _ => ([0], 1)) 2 2 false false [0, 2, 1]).map fun ds => (ds.map Dataset.files, d.lengths)) =
    .ok ([["a", "b"], ["a"]], [("b", 3), ("a", 2)]) := by decide +kernel

end

end DS.Data
