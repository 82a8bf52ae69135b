import Verif.Lemmas.Tensor
/-! # C34–C38: axes and their names -/

namespace DS.Tn

variable {α : Type}

/-- A small named tensor for the examples; entry = its multi-index. -/
def exT (shape : List Nat) (names : List (Option String)) : Ten (List Nat) := ⟨shape, names, id⟩
/-- Metadata of two sequences. -/
def exM2 : Meta := ⟨["a", "b"], [true, false], [false, true], [3, 2], none⟩

/-- **C34.** Permuting with any spelling of a permutation of the axes (`ds` are the axes that `dims` name): output axis `j` has name and size of
input axis `dims[j]`, the entry at the permuted multi-index is the input's entry, metadata are unchanged. -/
theorem C34_permute (x : STen α) (hx : x.t.WF) (dims : List Int) (ds : List Nat)
    (hd : positions x.t.ndim dims = some ds) (hp : ds.Perm (List.range x.t.ndim)) :
    ∃ y, permute x dims = .ok y ∧ y.md = x.md ∧ y.t.names.length = x.t.ndim ∧ y.t.shape.length = x.t.ndim ∧
      (∀ j a : Nat, ds[j]? = some a → y.t.names[j]? = x.t.names[a]? ∧ y.t.shape[j]? = x.t.shape[a]?) ∧
      ∀ ix : List Nat, ix.length = x.t.ndim → y.t.val (ds.map fun a => ix.getD a 0) = x.t.val ix := by
  obtain ⟨hl, hok⟩ := hx
  have hlen : ds.length = x.t.ndim := by have := hp.length_eq; simpa using this
  have hnd : ds.Nodup := hp.nodup_iff.2 List.nodup_range
  have hlt : ∀ a ∈ ds, a < x.t.ndim := fun a ha => by simpa using hp.mem_iff.1 ha
  have hl' : x.t.names.length = x.t.ndim := hl
  have hnames : dims.mapM (pyGet x.t.names) = .ok (ds.map fun a => x.t.names.getD a none) := by
    clear hp hlen hnd
    rw [← hl'] at hd hlt
    generalize x.t.names = ns at *
    induction dims generalizing ds with
    | nil => simp [positions] at hd; subst hd; rfl
    | cons d dims ih =>
      have hpos : positions ns.length (d :: dims) = match posOf ns.length d, positions ns.length dims with
        | some k, some ks => some (k :: ks)
        | _, _ => none := rfl
      rw [hpos] at hd
      cases h1 : posOf ns.length d with
      | none => rw [h1] at hd; simp at hd
      | some k =>
        cases h2 : positions ns.length dims with
        | none => rw [h1, h2] at hd; simp at hd
        | some ks =>
          rw [h1, h2] at hd
          simp at hd; subst hd
          rw [List.mapM_cons, ih ks h2 (fun a ha => hlt a (by simp [ha]))]
          have hk : k < ns.length := hlt k (by simp)
          rw [pyGet_names h1 ns[k] (by simp [hk])]
          simp [Except.bind_ok', hk]
  have hperm : (ds.map fun a => x.t.names.getD a none).Perm x.t.names := by
    have h1 := hp.map fun a => x.t.names.getD a none
    have h2 : (List.range x.t.ndim).map (fun a => x.t.names.getD a none) = x.t.names := by
      apply List.ext_getElem
      · simp [hl']
      · intro i h1 h2; simp [h2]
    rwa [h2] at h1
  refine ⟨⟨⟨ds.map fun a => x.t.shape.getD a 0, ds.map fun a => x.t.names.getD a none,
      fun ix => x.t.val ((List.range x.t.ndim).map fun a => ix.getD (ds.idxOf a) 0)⟩, x.md⟩, ?_, rfl, by simp [hlen], by simp [hlen], ?_, ?_⟩
  · unfold permute Ten.permute
    have e : x.t.unnamed.ndim = x.t.ndim := rfl
    simp only [e, mapM_normDim, hd, orIndexError_some, Except.bind_ok', hlen, hnd, and_self, if_true, hnames]
    rw [rename_ok]
    · rfl
    · simp [Ten.ndim]
    · exact okNames_perm hperm hok
  · intro j a hj
    have ha := hlt a (List.mem_of_getElem? hj)
    have ha' : a < x.t.names.length := by omega
    have ha'' : a < x.t.shape.length := ha
    simp [hj, ha', ha'']
  · intro ix hix
    show x.t.val _ = _
    congr 1
    apply List.ext_getElem
    · simp [hix]
    · intro a h1 h2
      simp only [List.getElem_map, List.getElem_range]
      have hm : a ∈ ds := hp.mem_iff.2 (by simpa [hix] using h2)
      have h3 := List.idxOf_lt_length_of_mem hm
      have h4 : ds[ds.idxOf a] = a := List.getElem_idxOf h3
      simp [h3, h4, h2]

example : (exT [2, 4, 3] [some "B", none, some "L"]).WF ∧ positions 3 [-1, 0, 1] = some [2, 0, 1] ∧
    [2, 0, 1].Perm (List.range 3) := by decide

/-- **C35 is false of the code.** `torch.transpose` swaps the data of the axes and leaves the names where they were: a batch of two sequences of
three frames comes out with three rows named `B`, carrying the metadata of two. -/
theorem C35_torch_transpose_false : ∃ y, torchTranspose ⟨exT [2, 3] [some "B", some "L"], exM2⟩ 0 1 = .ok y ∧
    y.t.shape = [3, 2] ∧ y.t.names = [some "B", some "L"] ∧ y.t.val [2, 1] = [1, 2] ∧ y.md = exM2 :=
  ⟨⟨⟨[3, 2], [some "B", some "L"], fun ix => swap ix 0 1⟩, exM2⟩, rfl, rfl, rfl, rfl, rfl⟩

theorem swap_get {β : Type} (xs : List β) (a b : Nat) (ha : a < xs.length) (hb : b < xs.length) (k : Nat) :
    (swap xs a b)[k]? = xs[exch a b k]? := by
  unfold swap exch
  rw [List.getElem?_eq_getElem ha, List.getElem?_eq_getElem hb]
  simp only
  by_cases h1 : k = a
  · subst h1
    by_cases h2 : b = k
    · subst h2; simp [hb]
    · rw [List.getElem?_set_ne h2, if_pos rfl, List.getElem?_set_self ha, List.getElem?_eq_getElem hb]
  · rw [if_neg h1]
    by_cases h2 : k = b
    · subst h2; rw [if_pos rfl, List.getElem?_set_self (by simpa using hb), List.getElem?_eq_getElem ha]
    · rw [if_neg h2, List.getElem?_set_ne (fun h => h2 h.symm), List.getElem?_set_ne (fun h => h1 h.symm)]

theorem swap_length {β : Type} (xs : List β) (a b : Nat) : (swap xs a b).length = xs.length := by
  unfold swap; split <;> simp

theorem swap_swap {β : Type} (xs : List β) (a b : Nat) (ha : a < xs.length) (hb : b < xs.length) : swap (swap xs a b) a b = xs := by
  apply List.ext_getElem?
  intro k
  rw [swap_get _ a b (by rw [swap_length]; exact ha) (by rw [swap_length]; exact hb), swap_get _ a b ha hb]
  congr 1
  unfold exch
  split <;> split <;> (try split) <;> simp_all

/-- **C35, the part that holds.** `torch.transpose` moves sizes and data, keeps names in their old positions and metadata unchanged. So the names
are right exactly if the two axes have the same name, that is, if they are the same axis or both unnamed. Missing: all other cases, where the
names are wrong. (`torch.adjoint` is the case of the last two axes, see `C35_adjoint_partial`.) -/
theorem C35_torch_transpose_partial (x : STen α) (hx : x.t.WF) (i j : Int) (a b : Nat)
    (hi : posOf x.t.ndim i = some a) (hj : posOf x.t.ndim j = some b) :
    ∃ y, torchTranspose x i j = .ok y ∧ y.md = x.md ∧ y.t.names = x.t.names ∧
      (∀ k, y.t.shape[k]? = x.t.shape[exch a b k]?) ∧
      (∀ ix ix' : List Nat, ix.length = x.t.ndim → ix'.length = x.t.ndim → (∀ k, ix'[k]? = ix[exch a b k]?) → y.t.val ix' = x.t.val ix) ∧
      ((∀ k, y.t.names[k]? = x.t.names[exch a b k]?) ↔ x.t.names[a]? = x.t.names[b]?) := by
  have ha := posOf_lt hi
  have hb := posOf_lt hj
  refine ⟨⟨⟨swap x.t.shape a b, x.t.names, fun ix => x.t.val (swap ix a b)⟩, x.md⟩, ?_, rfl, rfl, ?_, ?_, ?_⟩
  · unfold torchTranspose recouple Ten.transpose
    have e : x.t.unnamed.ndim = x.t.ndim := rfl
    simp only [e, normDim_ok hi, normDim_ok hj, Except.bind_ok', List.map_nil, allEq, List.all_nil, Bool.and_self, if_true]
    rw [rename_ok]
    · rfl
    · show _ = (swap x.t.shape a b).length
      rw [swap_length]; exact hx.1
    · exact hx.2
  · exact fun k => swap_get _ a b ha hb k
  · intro ix ix' h1 h2 h
    show x.t.val _ = _
    congr 1
    apply List.ext_getElem?
    intro k
    rw [swap_get _ a b (by omega) (by omega), h]
    congr 1
    unfold exch
    split <;> split <;> (try split) <;> simp_all
  · constructor
    · intro h
      have := h a
      simpa [exch] using this
    · intro h k
      show x.t.names[k]? = _
      unfold exch
      split
      · next hk => subst hk; exact h
      · split
        · next hk => subst hk; exact h.symm
        · rfl

example : (exT [2, 4, 5, 3] [some "B", none, none, some "L"]).WF ∧ posOf 4 1 = some 1 ∧ posOf 4 (-2) = some 2 := by decide

/-- **C35, adjoint.** `torch.adjoint` is `torch.transpose` of the last two axes, names and all. Missing: `torch.transpose` itself moves the names wrongly on most tensors (`C35_torch_transpose_false`), hence `torch.adjoint` too. -/
theorem C35_adjoint_partial (x : STen α) (h : 2 ≤ x.t.ndim) : torchAdjoint x = torchTranspose x (-2) (-1) := by
  unfold torchAdjoint torchTranspose
  rw [if_neg (by omega)]

/-- C35: `torch.adjoint` of a StreamTensor with fewer than two axes is a RuntimeError. -/
theorem C35_adjoint_refused (x : STen α) (h : x.t.ndim < 2) : torchAdjoint x = .error .runtimeError := by
  unfold torchAdjoint
  rw [if_pos h]
  rfl

example : (exT [2] [some "B"]).ndim < 2 := by decide

/-- The method `x.transpose(i, j)` (not `torch.transpose`) carries names along with axes. Missing: the function `torch.transpose` (`C35_torch_transpose_false`). -/
theorem C35_method_partial (x : STen α) (hx : x.t.WF) (i j : Int) (a b : Nat)
    (hi : posOf x.t.ndim i = some a) (hj : posOf x.t.ndim j = some b) :
    ∃ y, tensorTranspose x i j = .ok y ∧ y.md = x.md ∧ (∀ k, y.t.names[k]? = x.t.names[exch a b k]?) ∧
      (∀ k, y.t.shape[k]? = x.t.shape[exch a b k]?) := by
  have ha := posOf_lt hi
  have hb := posOf_lt hj
  refine ⟨⟨⟨swap x.t.shape a b, swap x.t.names a b, fun ix => x.t.val (swap ix a b)⟩, x.md⟩, ?_, rfl, ?_, ?_⟩
  · unfold tensorTranspose defaultValid Ten.transpose
    simp only [normDim_ok hi, normDim_ok hj, Except.bind_ok', List.map_nil, allEq, if_true]
  · have hl : x.t.names.length = x.t.ndim := hx.1
    exact fun k => swap_get _ a b (by omega) (by omega) k
  · exact fun k => swap_get _ a b ha hb k

example : tensorTranspose ⟨exT [2, 3] [some "B", some "L"], exM2⟩ 0 (-1) =
    .ok ⟨⟨[3, 2], [some "L", some "B"], fun ix => swap ix 0 1⟩, exM2⟩ := rfl

/-- **C36 is false of the code.** A negative axis puts the unnamed axis one place too early in the names: `x.unsqueeze(-1)` of a `(B, L)` tensor names
the length axis `None` and the new axis `L`. -/
theorem C36_unsqueeze_false : ∃ y, unsqueeze ⟨exT [2, 3] [some "B", some "L"], exM2⟩ (-1) = .ok y ∧
    y.t.shape = [2, 3, 1] ∧ y.t.names = [some "B", none, some "L"] :=
  ⟨⟨⟨[2, 3, 1], [some "B", none, some "L"], fun ix => ix.eraseIdx 2⟩, exM2⟩, rfl, rfl, rfl⟩

theorem okNames_insert {ns : List (Option String)} (a : Nat) (ha : a ≤ ns.length) (h : (ns.filterMap id).Nodup ∧ some "" ∉ ns) :
    ((ns.insertIdx a none).filterMap id).Nodup ∧ some "" ∉ ns.insertIdx a none := by
  have hp : (ns.insertIdx a none).Perm (none :: ns) := List.perm_insertIdx _ _ ha
  apply okNames_perm hp
  simpa using h

/-- **C36, the part that holds.** `a` is the position of the new axis among the axes of the result; `d` is its spelling. If `d` is not negative, or names the
very first position, the new axis is unnamed and every other axis keeps its name, size and data. Missing: the other negative spellings, where the
names are `C36_unsqueeze_wrong_partial`. -/
theorem C36_unsqueeze_partial (x : STen α) (hx : x.t.WF) (d : Int) (a : Nat) (hd : posOf (x.t.ndim + 1) d = some a)
    (hs : 0 ≤ d ∨ a = 0) :
    ∃ y, unsqueeze x d = .ok y ∧ y.md = x.md ∧ y.t.names = x.t.names.insertIdx a none ∧ y.t.shape = x.t.shape.insertIdx a 1 ∧
      ∀ ix : List Nat, y.t.val (ix.insertIdx a 0) = x.t.val ix := by
  have ha := posOf_lt hd
  have hl : x.t.names.length = x.t.ndim := hx.1
  have hins : pyInsert x.t.names d none = x.t.names.insertIdx a none := by
    unfold pyInsert
    have hd := posOf_iff.1 hd
    simp only
    congr 1
    split <;> omega
  refine ⟨⟨⟨x.t.shape.insertIdx a 1, x.t.names.insertIdx a none, fun ix => x.t.val (ix.eraseIdx a)⟩, x.md⟩, ?_, rfl, rfl, rfl, ?_⟩
  · unfold unsqueeze Ten.unsqueeze
    have e : x.t.unnamed.ndim = x.t.ndim := rfl
    simp only [e, normDim_ok hd, Except.bind_ok', hins]
    rw [rename_ok]
    · rfl
    · show (x.t.names.insertIdx a none).length = (x.t.shape.insertIdx a 1).length
      rw [List.length_insertIdx, List.length_insertIdx, hx.1]
    · exact okNames_insert a (by omega) hx.2
  · intro ix
    show x.t.val _ = _
    rw [List.eraseIdx_insertIdx_self]

example : (exT [2, 3] [some "B", some "L"]).WF ∧ posOf 3 2 = some 2 ∧ posOf 3 (-3) = some 0 := by decide

/-- What a negative spelling does when it does not name the first position: the new axis is put at position `a` of the data and at position `a - 1` of the
names, so the names are right only if the axis before it was unnamed as well. Missing: nothing for these axes; it describes what is wrong. -/
theorem C36_unsqueeze_wrong_partial (x : STen α) (hx : x.t.WF) (d : Int) (a : Nat) (hd : posOf (x.t.ndim + 1) d = some (a + 1)) (hs : d < 0) :
    ∃ y, unsqueeze x d = .ok y ∧ y.t.shape = x.t.shape.insertIdx (a + 1) 1 ∧ y.t.names = x.t.names.insertIdx a none ∧
      (y.t.names = x.t.names.insertIdx (a + 1) none ↔ x.t.names[a]? = some none) := by
  have ha := posOf_lt hd
  have hl : x.t.names.length = x.t.ndim := hx.1
  have hins : pyInsert x.t.names d none = x.t.names.insertIdx a none := by
    unfold pyInsert
    have hd := posOf_iff.1 hd
    simp only
    congr 1
    split <;> omega
  refine ⟨⟨⟨x.t.shape.insertIdx (a + 1) 1, x.t.names.insertIdx a none, fun ix => x.t.val (ix.eraseIdx (a + 1))⟩, x.md⟩, ?_, rfl, rfl, ?_⟩
  · unfold unsqueeze Ten.unsqueeze
    have e : x.t.unnamed.ndim = x.t.ndim := rfl
    simp only [e, normDim_ok hd, Except.bind_ok', hins]
    rw [rename_ok]
    · rfl
    · show (x.t.names.insertIdx a none).length = (x.t.shape.insertIdx (a + 1) 1).length
      rw [List.length_insertIdx_of_le_length (by omega), List.length_insertIdx_of_le_length (by have : x.t.shape.length = x.t.ndim := rfl; omega), hx.1]
    · exact okNames_insert a (by omega) hx.2
  · show x.t.names.insertIdx a none = _ ↔ _
    have hlt : a < x.t.names.length := by omega
    constructor
    · intro h
      have h1 := congrArg (fun l : List (Option String) => l[a]?) h
      rw [List.getElem?_insertIdx_self, if_pos (by omega), List.getElem?_insertIdx_of_lt (by omega)] at h1
      exact h1.symm
    · intro h
      apply List.ext_getElem?
      intro k
      rw [List.getElem?_insertIdx, List.getElem?_insertIdx]
      by_cases h1 : k < a
      · rw [if_pos h1, if_pos (by omega)]
      · by_cases h2 : k = a
        · subst h2; rw [if_neg (by omega), if_pos rfl, if_pos (by omega), h]; simp
        · by_cases h3 : k = a + 1
          · subst h3
            rw [if_neg (by omega), if_neg (by omega), if_neg (by omega), if_pos rfl]
            simp [h]; omega
          · rw [if_neg h1, if_neg h2, if_neg (by omega), if_neg h3]

example : (exT [2, 3] [some "B", some "L"]).WF ∧ posOf 3 (-1) = some (1 + 1) := by decide

end DS.Tn
