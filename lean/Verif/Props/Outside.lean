import Verif.Model.Index
import Verif.Model.Take
import Verif.Model.MetaIndex
import Verif.Spec.Outside
import Verif.Props.Getitem
/-!
# C219: memory outside the arrays

`minmax` (utils/numba.py:6-17) reads `array[0]` without looking whether there is one; `junk` is what it finds there. The theorems compare two runs
that find different things.
-/

namespace DS.Meta

theorem SameButSos.rfl' (m : Meta) : m.SameButSos m := ⟨rfl, rfl, rfl, rfl, rfl⟩

theorem alike_rfl {β : Type} {R : β → β → Prop} (h : ∀ a, R a a) (p : Py β) : Alike R p p := by
  cases p with
  | error e => rfl
  | ok a => exact h a

theorem alike_bind {β γ : Type} {R : β → β → Prop} {S : γ → γ → Prop} {p q : Py β} {f g : β → Py γ} (h : Alike R p q)
    (hf : ∀ a b, R a b → Alike S (f a) (g b)) : Alike S (p >>= f) (q >>= g) := by
  cases p <;> cases q <;> simp only [Alike] at h
  · subst h; rfl
  · exact hf _ _ h

theorem indexLengthList_same (j j' : Int) (m : Meta) (is : List Int) (h : is ≠ []) : m.indexLengthList j is = m.indexLengthList j' is := by
  unfold indexLengthList
  cases is with
  | nil => exact absurd rfl h
  | cons i is => rfl

theorem indexLength_same (j j' : Int) (m : Meta) (l : LIx) (h1 : l ≠ .list []) (h2 : ∀ bs, l = .mask bs → true ∈ bs) :
    m.indexLength j l = m.indexLength j' l := by
  cases l with
  | list is => exact indexLengthList_same j j' m is (fun e => h1 (by rw [e]))
  | mask bs =>
    refine indexLengthList_same j j' m _ ?_
    have h := h2 bs rfl
    have key : ∀ (bs : List Bool) (k : Int), true ∈ bs → nonzeroFrom k bs ≠ [] := by
      intro bs
      induction bs with
      | nil => intro k hb; simp at hb
      | cons b bs ih =>
        intro k hb
        cases b with
        | true => simp [nonzeroFrom]
        | false => simp only [nonzeroFrom]; exact ih _ (by simpa using hb)
    exact key bs 0 h
  | none => rfl
  | int i => rfl
  | slice s => rfl
  | multi => rfl

theorem eos_none (junk : Int) (eos : List Bool) (ls : List Int) :
    Numba.updateEosFromSlice eos ls junk junk = List.zipWith (fun _ _ => false) eos ls := by
  unfold Numba.updateEosFromSlice
  congr 1
  funext e l
  by_cases h : junk < l
  · have : ¬ l ≤ junk := by omega
    simp [this]
  · simp [h]

theorem keepSos_length (c : Bool) (s : List Bool) : (keepSos c s).length = s.length := by
  cases c <;> simp [keepSos]

theorem init_alike (ids : List String) (s s' : List Bool) (hs : s.length = s'.length) (e : List Bool) (l : List Int) (c : Option (List Int)) :
    Alike SameButSos (init ids s e l c) (init ids s' e l c) := by
  unfold init
  rw [hs]
  split
  · exact ⟨rfl, by simp [hs], rfl, rfl, rfl⟩
  · rfl

theorem indexLengthList_alike (j j' : Int) (m : Meta) (is : List Int) : Alike SameButSos (m.indexLengthList j is) (m.indexLengthList j' is) := by
  cases is with
  | cons i is => exact alike_rfl SameButSos.rfl' _
  | nil =>
    unfold indexLengthList
    refine alike_bind (R := Eq) (alike_rfl (fun _ => rfl) _) ?_
    rintro a _ rfl
    simp only [Numba.makeIndicesPositive, List.map_nil, Numba.isSortedAscending, Bool.not_true, Numba.minmax, eos_none]
    exact init_alike _ _ _ (by simp [keepSos_length]) _ _ _

theorem index2_alike (j j' : Int) (m : Meta) (b : BIx) (l : LIx) : Alike SameButSos (m.index2 j b l) (m.index2 j' b l) := by
  unfold index2
  refine alike_bind (R := Eq) (alike_rfl (fun _ => rfl) _) ?_
  rintro a _ rfl
  cases l with
  | list is => exact indexLengthList_alike j j' a is
  | mask bs => exact indexLengthList_alike j j' a _
  | none => exact alike_rfl SameButSos.rfl' _
  | int i => exact alike_rfl SameButSos.rfl' _
  | slice s => exact alike_rfl SameButSos.rfl' _
  | multi => exact alike_rfl SameButSos.rfl' _

theorem index2_same (j j' : Int) (m : Meta) (b : BIx) (l : LIx) (h1 : l ≠ .list []) (h2 : ∀ bs, l = .mask bs → true ∈ bs) :
    m.index2 j b l = m.index2 j' b l := by
  unfold index2
  congr 1
  funext a
  exact indexLength_same j j' a l h1 h2

theorem OptSame.rfl' (a : Option Meta) : OptSame a a := by
  cases a with
  | none => exact .inl ⟨rfl, rfl⟩
  | some m => exact .inr ⟨m, m, rfl, rfl, SameButSos.rfl' m⟩

theorem alike_map_some {p q : Py Meta} (h : Alike SameButSos p q) : Alike OptSame (p.map some) (q.map some) := by
  cases p <;> cases q <;> simp only [Alike] at h
  · exact h
  · exact .inr ⟨_, _, rfl, rfl, h⟩

/-- C219, `metadata[…]` with any index: ids, lengths, end flags and chunk indices, or the exception raised, do not depend on what is outside the
arrays. Missing: the start flags. -/
theorem C219_metadata_partial (j j' : Int) (m : Meta) (i : MIx) : Alike OptSame (m.index j i) (m.index j' i) := by
  have hr : ∀ p : Py (Option Meta), Alike OptSame p p := alike_rfl OptSame.rfl'
  have hp : ∀ es : List Entry, Alike OptSame (indexPair j m es) (indexPair j' m es) := by
    intro es
    unfold indexPair
    split
    · exact alike_map_some (index2_alike j j' m _ _)
    · exact hr _
  cases i with
  | bools bs => exact hr _
  | mask2 r w => exact hr _
  | other => exact hr _
  | one e => cases e <;> exact hr _
  | list es =>
    simp only [Meta.index]
    split
    · exact hr _
    · exact hp es
  | tuple es =>
    simp only [Meta.index]
    split
    · exact hr _
    · exact hp es

end DS.Meta

namespace DS.Tn
open Meta

section
variable {α : Type}

theorem toL_notEmpty (e : Ix) (h : e.NotEmpty) : e.toL ≠ .list [] ∧ ∀ bs, e.toL = .mask bs → true ∈ bs := by
  cases e <;> simp_all [Ix.toL, Ix.NotEmpty]

theorem mem_collapse (pos : List Nat) (n : Nat) (es : List Ix) (e : Ix) (h : e ∈ collapse pos n es) : e ∈ es := by
  induction n generalizing es with
  | zero => exact h
  | succ n ih =>
    have := ih _ h
    split at this
    · exact List.mem_of_mem_eraseIdx this
    · exact this

theorem mem_replaceAt (pos : List Nat) (n : Nat) (es r : List Ix) (h : replaceAt pos n es = .ok r) (e : Ix) (he : e ∈ r) :
    e ∈ es ∨ e = .slice {} := by
  induction n generalizing r e with
  | zero => simp only [replaceAt, Except.ok.injEq] at h; subst h; exact .inl he
  | succ n ih =>
    simp only [replaceAt] at h
    cases h1 : replaceAt pos n es with
    | error x => rw [h1] at h; simp [Except.bind_error'] at h
    | ok s =>
      rw [h1, Except.bind_ok'] at h
      split at h
      · simp only [Except.ok.injEq] at h
        subst h
        rcases List.mem_or_eq_of_mem_set he with h2 | h2
        · exact ih s h1 e h2
        · exact .inr h2
      · cases h

theorem mem_expandFirst (es : List Ix) (n : Nat) (e : Ix) (h : e ∈ expandFirst es n) : e ∈ es ∨ e = .slice {} := by
  simp only [expandFirst, List.mem_append, List.mem_replicate] at h
  rcases h with (h | h) | h
  · exact .inl (List.mem_of_mem_take h)
  · exact .inr h.2
  · exact .inl (List.mem_of_mem_drop h)

theorem mem_replaceEllipsis (es r : List Ix) (n : Nat) (h : replaceEllipsis es n = .ok r) (e : Ix) (he : e ∈ r) : e ∈ es ∨ e = .slice {} := by
  unfold replaceEllipsis at h
  split at h
  · simp only [Except.ok.injEq] at h; subst h; exact .inl he
  · simp only at h
    split at h
    · split at h
      · split at h
        · cases h
        · rcases mem_replaceAt _ _ _ _ h e he with h1 | h1
          · exact .inl (mem_collapse _ _ _ _ h1)
          · exact .inr h1
      · simp only [Except.ok.injEq] at h; subst h
        rcases mem_expandFirst _ _ _ he with h1 | h1
        · exact .inl (mem_collapse _ _ _ _ h1)
        · exact .inr h1
    · simp only [Except.ok.injEq] at h; subst h
      exact mem_expandFirst _ _ _ he

theorem mem_describe (names : List (Option String)) (top : Top) (d : Desc) (h : describe names top = .ok d) (e : Ix) (he : e ∈ d.indices) :
    e ∈ top.entries ∨ e = .slice {} := by
  cases top with
  | bare i =>
    left
    cases i <;> (simp only [describe, Except.ok.injEq] at h; subst h; simpa [Top.entries] using he)
  | tup es =>
    simp only [describe, describeTuple] at h
    cases h1 : replaceEllipsis es names.length with
    | error x => rw [h1] at h; simp [Except.bind_error'] at h
    | ok r =>
      rw [h1, Except.bind_ok'] at h
      cases h2 : describeEntries names 0 r with
      | error x => rw [h2] at h; simp [Except.bind_error'] at h
      | ok q =>
        rw [h2, Except.bind_ok'] at h
        split at h
        · cases h
        · simp only [Except.ok.injEq] at h
          subst h
          exact mem_replaceEllipsis es r _ h1 e he

theorem entryAt_notEmpty (names : List (Option String)) (top : Top) (h : ∀ e ∈ top.entries, e.NotEmpty) (d : Desc)
    (hd : describe names top = .ok d) (a : Nat) : (entryAt d a).NotEmpty := by
  have key : ∀ k : Nat, (d.indices.getD k .none).NotEmpty := by
    intro k
    rw [List.getD_eq_getElem?_getD]
    cases hk : d.indices[k]? with
    | none => trivial
    | some e =>
      rcases mem_describe names top d hd e (List.mem_of_getElem? hk) with h1 | h1
      · exact h e h1
      · subst h1; trivial
  unfold entryAt
  split
  · split <;> exact key _
  · trivial

/-- **C219 is false of the code.** The start flag of `x[:, []]` is whatever the memory behind an empty array says. -/
theorem C219_outside_false : ∃ (x : STen (List Nat)) (top : Top) (y y' : STen (List Nat)), x.Describes 0 2 ∧
    getitem 0 x top = .ok y ∧ getitem 1 x top = .ok y' ∧ y.md.sos ≠ y'.md.sos :=
  ⟨_, .tup [.slice {}, .slice {}, .list []], _, _, exBFL_describes, rfl, rfl, by decide⟩

/-- C219, `x[…]`: if no entry of the index is an empty list of positions or a mask without True, nothing depends on what is outside the arrays.
Missing: indices that select nothing along length, where the start flags do depend on it. -/
theorem C219_getitem_partial (j j' : Int) (x : STen α) (top : Top) (h : ∀ e ∈ top.entries, e.NotEmpty) :
    getitem j x top = getitem j' x top := by
  unfold getitem
  refine bind_congr fun out => ?_
  cases hd : describe x.t.names top with
  | error e => rfl
  | ok d =>
    have hm := fun b l => index2_same j j' x.md (entryAt d b).toB (entryAt d l).toL (toL_notEmpty _ (entryAt_notEmpty _ top h d hd l)).1
      (toL_notEmpty _ (entryAt_notEmpty _ top h d hd l)).2
    simp only [Except.bind_ok']
    simp only [hm]

/-- C219, `x[…]` with any index: data, names, ids, lengths, end flags and chunk indices, or the exception raised, do not depend on what is outside
the arrays. Missing: the start flags. -/
theorem C219_getitem_sos_partial (j j' : Int) (x : STen α) (top : Top) : Alike STen.SameButSos (getitem j x top) (getitem j' x top) := by
  have hr : ∀ a : STen α, a.SameButSos a := fun a => ⟨rfl, SameButSos.rfl' _⟩
  unfold getitem
  refine alike_bind (R := Eq) (alike_rfl (fun _ => rfl) _) ?_
  rintro out _ rfl
  refine alike_bind (R := Eq) (alike_rfl (fun _ => rfl) _) ?_
  rintro d _ rfl
  refine alike_bind (R := Eq) (alike_rfl (fun _ => rfl) _) ?_
  rintro b _ rfl
  refine alike_bind (R := Eq) (alike_rfl (fun _ => rfl) _) ?_
  rintro l _ rfl
  split
  · rfl
  · split
    · exact alike_rfl hr _
    · refine alike_bind (R := Eq) (alike_rfl (fun _ => rfl) _) ?_
      rintro o _ rfl
      refine alike_bind (index2_alike j j' _ _ _) ?_
      intro a b hab
      exact ⟨rfl, hab⟩

/-- C219, `index_select`: likewise, with at least one position. Missing: no positions. -/
theorem C219_index_select_partial (j j' : Int) (x : STen α) (dim : Int) (index : IdxT) (h : index.list ≠ []) :
    indexSelect j x dim index = indexSelect j' x dim index := by
  cases index with
  | zero i => rfl
  | vec is =>
    have hm := index2_same j j' x.md (.slice {}) (.list is) (by intro e; simp only [LIx.list.injEq] at e; exact h e) (by intro bs e; cases e)
    unfold indexSelect
    simp only [hm]

/-- C219, `select`, `narrow`, `gather`, `take_along_dim`: nothing depends on what is outside the arrays. -/
theorem C219_others (j j' : Int) (x : STen α) : (∀ d i : Int, select j x d i = select j' x d i) ∧
    (∀ d s n : Int, narrow j x d s n = narrow j' x d s n) ∧
    (∀ (d : Int) (index : Opd Nat), gatherO j x d index = gatherO j' x d index ∧ takeAlongDimO j x d index = takeAlongDimO j' x d index) := by
  refine ⟨?_, ?_, ?_⟩
  · intro d i
    refine C219_getitem_partial j j' x _ ?_
    intro e he
    simp only [Top.entries, List.mem_append, List.mem_replicate, List.mem_singleton] at he
    rcases he with ⟨-, rfl⟩ | rfl <;> trivial
  · intro d s n; rfl
  · intro d index
    have : ∀ out : Ten α, gatherFinish j x d index.ten out = gatherFinish j' x d index.ten out := by
      intro out
      have hm := index2_same j j' x.md (bOf (leadSlice x index.ten BATCH)) (lOf (leadSlice x index.ten LENGTH))
        (by cases leadSlice x index.ten LENGTH <;> simp [lOf]) (by cases leadSlice x index.ten LENGTH <;> simp [lOf])
      unfold gatherFinish
      simp only [hm]
    constructor
    · unfold gatherO; simp only [this]
    · unfold takeAlongDimO; simp only [this]

/-- C219, `drop_empty` and `unpad_sequence`: nothing depends on what is outside the arrays. -/
theorem C219_methods (j j' : Int) (x : STen α) : dropEmpty j x = dropEmpty j' x ∧ unpadSequence j x = unpadSequence j' x := by
  constructor
  · unfold dropEmpty
    refine bind_congr fun mn => ?_
    split
    · rfl
    · refine bind_congr fun mx => ?_
      split
      · rfl
      · split
        · rfl
        · cases hb : nameIndex x.t.names BATCH with
          | error e => rfl
          | ok b =>
            have : ∀ index : IdxT, indexSelect j x b index = indexSelect j' x b index := by
              intro index
              unfold indexSelect
              simp only [hb, Except.bind_ok', if_true]
            simp only [Except.bind_ok', this]
  · rfl

example : (∀ e ∈ (Top.tup [.slice {}, .slice {}, .list [0, 2]]).entries, e.NotEmpty) ∧ (IdxT.vec [1]).list ≠ [] := by
  refine ⟨?_, by decide⟩
  intro e he
  simp [Top.entries] at he
  rcases he with rfl | rfl <;> simp [Ix.NotEmpty]

end

end DS.Tn
