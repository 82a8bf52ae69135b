import Verif.Lemmas.Ravel
import Verif.Props.Axes2
/-! # C38: flatten -/

namespace DS.Tn

variable {α : Type}

/-- The names of axes `a..b`. -/
def namesFromTo (names : List (Option String)) (a b : Nat) : List (Option String) := (names.drop a).take (b + 1 - a)

theorem flatten_slices (ns : List (Option String)) (s e : Int) (a b : Nat) (hs : posOf ns.length s = some a) (he : posOf ns.length e = some b)
    (hab : a ≤ b) (hne : e ≠ -1) :
    pySlice ns { start := some s, stop := some (e + 1) } = .ok (namesFromTo ns a b) ∧
    pySlice ns { stop := some s } = .ok (ns.take a) ∧ pySlice ns { start := some (e + 1) } = .ok (ns.drop (b + 1)) := by
  have hs := posOf_iff.1 hs
  have he := posOf_iff.1 he
  have e1 : boundOf ns.length s = a := by unfold boundOf; split <;> omega
  have e2 : boundOf ns.length (e + 1) = (b + 1 : Nat) := by unfold boundOf; split <;> omega
  refine ⟨?_, ?_, ?_⟩
  · rw [pySlice_unit _ _ rfl]
    simp only [sliceLo, sliceHi, e1, e2, namesFromTo, Int.toNat_natCast]
  · rw [pySlice_unit _ _ rfl]
    simp only [sliceLo, sliceHi, e1, Int.toNat_natCast]
    simp
  · rw [pySlice_unit _ _ rfl]
    simp only [sliceLo, sliceHi, e2, Int.toNat_natCast]
    rw [List.take_of_length_le (by simp)]

/-- **C38 is false of the code.** With `end_dim=-1`, the default, flatten of any tensor with at least one axis raises RuntimeError, whatever `start_dim`. -/
theorem C38_flatten_last_false (x : STen α) (hx : x.t.WF) (s : Int) (a : Nat) (hs : posOf x.t.ndim s = some a) :
    flatten x s (-1) = .error .runtimeError := by
  have ha := posOf_lt hs
  have hl : x.t.names.length = x.t.ndim := hx.1
  have he : posOf x.t.ndim (-1) = some (x.t.ndim - 1) := posOf_iff.2 (by omega)
  have e : x.t.unnamed.ndim = x.t.ndim := rfl
  unfold flatten Ten.flatten
  simp only [e, normDim_ok hs, normDim_ok he, Except.bind_ok', if_neg (by omega : ¬ x.t.ndim - 1 < a)]
  rw [pySlice_unit _ _ rfl, pySlice_unit _ _ rfl, pySlice_unit _ _ rfl]
  simp only [sliceLo, sliceHi, Except.bind_ok']
  have h0 : boundOf x.t.names.length (-1 + 1) = 0 := by unfold boundOf; simp
  rw [h0]
  simp only [Int.toNat_zero, Nat.zero_sub, List.take_zero, List.not_mem_nil, or_self, if_false, joinNames]
  have hj : ([] : List (Option String)).mapM id = some [] := rfl
  rw [hj]
  simp only [Except.bind_ok']
  unfold Ten.rename
  rw [if_neg, if_neg]
  · rfl
  · rintro ⟨-, h⟩
    rw [namesOK_iff] at h
    apply h.2
    have : "_".intercalate ([] : List String) = "" := rfl
    simp [this]
  · intro h
    have := congrArg List.length h
    simp at this
    omega

example : (exT [2, 4, 5, 3] [some "B", some "F", some "G", some "L"]).WF ∧ posOf 4 1 = some 1 := by decide

/-- The call that should merge two feature axes at the end of a tensor raises. -/
example : flatten ⟨exT [2, 3, 4, 5] [some "B", some "L", some "F", some "G"], exM2⟩ 2 (-1) = .error .runtimeError := rfl

/-- Where the entries of the merged axis come from. -/
theorem flatten_ix {a : Nat} {p q r merged : List Nat} (hp : p.length = a) (hq : Inside q merged) :
    (p ++ [ravel merged q] ++ r).take a ++ unravel merged ((p ++ [ravel merged q] ++ r).getD a 0) ++ (p ++ [ravel merged q] ++ r).drop (a + 1) = p ++ q ++ r := by
  simp only [List.append_assoc, List.singleton_append]
  rw [List.take_left' hp, List.getD_eq_getElem?_getD, List.getElem?_append_right (by omega), hp, Nat.sub_self, List.getElem?_cons_zero, Option.getD_some,
    show a + 1 = p.length + 1 by omega, List.drop_length_add_append, List.drop_one, List.tail_cons, unravel_ravel hq]

/-- **C38, the part that holds (fallback).** For every other spelling of `end_dim`: if the merged range contains batch or length the result is a plain, unnamed
tensor with the entries in row-major order. Missing: `end_dim=-1`. -/
theorem C38_flatten_fallback_partial (x : STen α) (hx : x.t.WF) (s e : Int) (a b : Nat) (hs : posOf x.t.ndim s = some a)
    (he : posOf x.t.ndim e = some b) (hab : a ≤ b) (hne : e ≠ -1)
    (hm : BATCH ∈ namesFromTo x.t.names a b ∨ LENGTH ∈ namesFromTo x.t.names a b) :
    ∃ t, flatten x s e = .ok (.plain t) ∧ t.names = t.shape.map (fun _ => none) ∧
      t.shape = x.t.shape.take a ++ [((x.t.shape.drop a).take (b + 1 - a)).prod] ++ x.t.shape.drop (b + 1) ∧
      ∀ p q r : List Nat, p.length = a → Inside q ((x.t.shape.drop a).take (b + 1 - a)) →
        t.val (p ++ [ravel ((x.t.shape.drop a).take (b + 1 - a)) q] ++ r) = x.t.val (p ++ q ++ r) := by
  have hl : x.t.names.length = x.t.ndim := hx.1
  obtain ⟨h1, -, -⟩ := flatten_slices x.t.names s e a b (by rw [hl]; exact hs) (by rw [hl]; exact he) hab hne
  have e0 : x.t.unnamed.ndim = x.t.ndim := rfl
  unfold flatten Ten.flatten
  simp only [e0, normDim_ok hs, normDim_ok he, Except.bind_ok', if_neg (by omega : ¬ b < a), h1, if_pos hm]
  exact ⟨_, rfl, rfl, by rw [← prod_eq]; rfl, fun p q r hp hq => congrArg x.t.val (flatten_ix hp hq)⟩

example : (exT [2, 4, 5, 3] [some "B", some "F", some "G", some "L"]).WF ∧ posOf 4 0 = some 0 ∧ posOf 4 (-3) = some 1 ∧
    BATCH ∈ namesFromTo [some "B", some "F", some "G", some "L"] 0 1 := by decide

theorem mapM_some (ns : List String) : (ns.map some).mapM (m := Option) id = some ns := by
  induction ns with
  | nil => rfl
  | cons n ns ih => simp only [List.map_cons, List.mapM_cons, ih]; rfl

/-- **C38, the part that holds (stream).** For every other spelling of `end_dim`: if the merged range contains neither batch nor length, its axes are all named `ns` and the
joined name is new, the result is a StreamTensor whose merged axis has the joined name, all other names, sizes and the metadata being
in place, and whose data are merged in row-major order. Missing: `end_dim=-1`; unnamed axes in the range (`C38_flatten_unnamed_partial`); merged names that another axis has (`C38_flatten_clash_partial`). -/
theorem C38_flatten_stream_partial (x : STen α) (hx : x.t.WF) (s e : Int) (a b : Nat) (hs : posOf x.t.ndim s = some a)
    (he : posOf x.t.ndim e = some b) (hab : a ≤ b) (hne : e ≠ -1) (ns : List String) (hns : namesFromTo x.t.names a b = ns.map some)
    (hB : "B" ∉ ns) (hL : "L" ∉ ns) (hnew : some ("_".intercalate ns) ∉ x.t.names.take a ++ x.t.names.drop (b + 1)) (hemp : "_".intercalate ns ≠ "") :
    ∃ y, flatten x s e = .ok (.stream y) ∧ y.md = x.md ∧
      y.t.names = x.t.names.take a ++ [some ("_".intercalate ns)] ++ x.t.names.drop (b + 1) ∧
      y.t.shape = x.t.shape.take a ++ [((x.t.shape.drop a).take (b + 1 - a)).prod] ++ x.t.shape.drop (b + 1) ∧
      ∀ p q r : List Nat, p.length = a → Inside q ((x.t.shape.drop a).take (b + 1 - a)) →
        y.t.val (p ++ [ravel ((x.t.shape.drop a).take (b + 1 - a)) q] ++ r) = x.t.val (p ++ q ++ r) := by
  have hl : x.t.names.length = x.t.ndim := hx.1
  have hl' : x.t.names.length = x.t.shape.length := hx.1
  obtain ⟨h1, h2, h3⟩ := flatten_slices x.t.names s e a b (by rw [hl]; exact hs) (by rw [hl]; exact he) hab hne
  have e0 : x.t.unnamed.ndim = x.t.ndim := rfl
  have hb := posOf_lt he
  unfold flatten Ten.flatten
  have hno : ¬ (BATCH ∈ namesFromTo x.t.names a b ∨ LENGTH ∈ namesFromTo x.t.names a b) := by
    rw [hns]; simp [BATCH, LENGTH, hB, hL]
  simp only [e0, normDim_ok hs, normDim_ok he, Except.bind_ok', if_neg (by omega : ¬ b < a), h1, if_neg hno, h2, h3]
  rw [hns, joinNames, mapM_some]
  simp only [Except.bind_ok']
  rw [rename_ok]
  · refine ⟨_, rfl, rfl, rfl, by rw [← prod_eq]; rfl, ?_⟩
    intro p q r hp hq
    exact congrArg x.t.val (flatten_ix hp hq)
  · show _ = (x.t.unnamed.shape.take a ++ _ ++ _).length
    simp [Ten.unnamed, hl']
  · have hsub : (x.t.names.take a ++ x.t.names.drop (b + 1)).Sublist x.t.names := by
      conv_rhs => rw [← List.take_append_drop a x.t.names]
      exact List.Sublist.append (List.Sublist.refl _) (List.drop_sublist_drop_left _ (by omega))
    obtain ⟨k1, k2⟩ := okNames_sub hsub hx.2
    have hp : (x.t.names.take a ++ [some ("_".intercalate ns)] ++ x.t.names.drop (b + 1)).Perm
        (some ("_".intercalate ns) :: (x.t.names.take a ++ x.t.names.drop (b + 1))) := by
      rw [List.append_assoc, List.singleton_append]
      exact List.perm_middle
    refine okNames_perm hp ⟨?_, ?_⟩
    · rw [List.filterMap_cons]
      simp only [id]
      rw [List.nodup_cons]
      refine ⟨fun hm => hnew ?_, k1⟩
      simpa using hm
    · intro hm
      rcases List.mem_cons.1 hm with h | h
      · exact hemp (Option.some.inj h).symm
      · exact k2 h

example : (exT [2, 4, 5, 3] [some "B", some "F", some "G", some "L"]).WF ∧ posOf 4 1 = some 1 ∧ posOf 4 (-2) = some 2 ∧
    namesFromTo [some "B", some "F", some "G", some "L"] 1 2 = ["F", "G"].map some ∧ "_".intercalate ["F", "G"] = "F_G" := by decide

/-- An unnamed axis in a merged range without batch or length raises TypeError (`"_".join` of `None`). Missing: a result; torch itself flattens such axes. -/
theorem C38_flatten_unnamed_partial (x : STen α) (hx : x.t.WF) (s e : Int) (a b : Nat) (hs : posOf x.t.ndim s = some a)
    (he : posOf x.t.ndim e = some b) (hab : a ≤ b) (hne : e ≠ -1) (hn : none ∈ namesFromTo x.t.names a b)
    (hB : BATCH ∉ namesFromTo x.t.names a b) (hL : LENGTH ∉ namesFromTo x.t.names a b) :
    flatten x s e = .error .typeError := by
  have hl : x.t.names.length = x.t.ndim := hx.1
  obtain ⟨h1, h2, h3⟩ := flatten_slices x.t.names s e a b (by rw [hl]; exact hs) (by rw [hl]; exact he) hab hne
  have e0 : x.t.unnamed.ndim = x.t.ndim := rfl
  unfold flatten Ten.flatten
  have hno : ¬ (BATCH ∈ namesFromTo x.t.names a b ∨ LENGTH ∈ namesFromTo x.t.names a b) := by simp [hB, hL]
  simp only [e0, normDim_ok hs, normDim_ok he, Except.bind_ok', if_neg (by omega : ¬ b < a), h1, if_neg hno, joinNames]
  have : (namesFromTo x.t.names a b).mapM id = none := by
    clear * - hn
    generalize namesFromTo x.t.names a b = l at hn
    induction l with
    | nil => simp at hn
    | cons n l ih =>
      rw [List.mapM_cons]
      cases n with
      | none => rfl
      | some n =>
        rw [ih (by simpa using hn)]; rfl
  rw [this]
  rfl

example : (exT [2, 4, 5, 3] [some "B", some "F", none, some "L"]).WF ∧ none ∈ namesFromTo [some "B", some "F", none, some "L"] 1 2 := by decide

end DS.Tn
