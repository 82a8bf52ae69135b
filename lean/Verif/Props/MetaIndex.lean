import Verif.Model.MetaIndex
import Verif.Props.BatchIndex
/-! # C154: `metadata[…]` gives metadata or raises -/

namespace DS.Meta

theorem map_some_ne {x : Py Meta} : x.map some ≠ .ok none := by cases x <;> simp [Except.map]

/-- C154 is false of the code. With three entries, as in `x.meta[:, :, None]` for a tensor with three axes, the result is `None`; so it is with one slice in a list. -/
theorem C154_index_false :
    index 0 ex3 (.tuple [.slice {}, .slice {}, .none]) = .ok none ∧ index 0 ex3 (.list [.slice {}]) = .ok none := by decide

/-- C154, exactly. The result is `None` iff a list or tuple is given in which not all entries are ints and whose number of entries is not 2. Otherwise: two entries in a tuple are the
batch and the length index (as are two entries in a list, if one is no int); a list of ints selects sequences; a tuple of other than two ints is refused (TypeError); a single
entry is a batch index. Missing: the cases in which the result is `None`. -/
theorem C154_index_partial (junk : Int) (m : Meta) :
    (∀ i, index junk m i = .ok none ↔ ∃ es, (i = .list es ∨ i = .tuple es) ∧ es.length ≠ 2 ∧ ∃ e ∈ es, e.isInt = false) ∧
    (∀ b l, index junk m (.tuple [b, l]) = (do let m' ← m.indexBatch b.batch; let m'' ← m'.indexLength junk l.length; .ok (some m''))) ∧
    (∀ b l, (b.isInt && l.isInt) = false → index junk m (.list [b, l]) = index junk m (.tuple [b, l])) ∧
    (∀ is : List Int, index junk m (.list (is.map .int)) = (m.indexBatch (.list is)).map some) ∧
    (∀ is : List Int, is.length ≠ 2 → index junk m (.tuple (is.map .int)) = .error .typeError) := by
  have hall : ∀ es : List Entry, es.all Entry.isInt = false ↔ ∃ e ∈ es, e.isInt = false := by
    intro es; simp
  have hval : ∀ is : List Int, (is.map Entry.int).map Entry.value = is := by
    intro is; simp [Function.comp_def, Entry.value]
  have hint : ∀ is : List Int, (is.map Entry.int).all Entry.isInt = true := by
    intro is; simp [Entry.isInt]
  have hpair : ∀ es, indexPair junk m es = .ok none ↔ es.length ≠ 2 := by
    intro es
    match es with
    | [] => simp [indexPair]
    | [a] => simp [indexPair]
    | [a, b] => simp [indexPair, map_some_ne]
    | a :: b :: c :: r => simp [indexPair]
  have h2 : ∀ b l, (m.index2 junk b l).map some = (do let m' ← m.indexBatch b; let m'' ← m'.indexLength junk l; .ok (some m'')) := by
    intro b l
    unfold index2
    cases m.indexBatch b with
    | error e => rfl
    | ok m' => simp only [Except.bind_ok']; cases m'.indexLength junk l <;> rfl
  refine ⟨?_, ?_, ?_, ?_, ?_⟩
  · intro i
    cases i with
    | one e =>
      cases e with
      | tuple is =>
        simp only [index]
        split
        · simp [map_some_ne]
        · simp
      | _ => simp [index, map_some_ne]
    | bools bs => simp [index, map_some_ne]
    | mask2 r w => simp [index, map_some_ne]
    | other => simp [index]
    | list es =>
      simp only [index]
      cases h : es.all Entry.isInt with
      | true =>
        rw [if_pos rfl]
        simp only [map_some_ne, false_iff]
        rintro ⟨es', he | he, _, hx⟩ <;> cases he
        rw [(hall _).2 hx] at h; simp at h
      | false =>
        rw [if_neg (by simp), hpair]
        constructor
        · intro hl; exact ⟨es, Or.inl rfl, hl, (hall _).1 h⟩
        · rintro ⟨es', he | he, hl, _⟩ <;> cases he
          exact hl
    | tuple es =>
      simp only [index]
      cases h : es.all Entry.isInt with
      | true =>
        rw [if_pos rfl]
        constructor
        · intro hn
          exfalso
          split at hn
          · exact map_some_ne hn
          · simp at hn
        · rintro ⟨es', he | he, _, hx⟩ <;> cases he
          rw [(hall _).2 hx] at h; simp at h
      | false =>
        rw [if_neg (by simp), hpair]
        constructor
        · intro hl; exact ⟨es, Or.inr rfl, hl, (hall _).1 h⟩
        · rintro ⟨es', he | he, hl, _⟩ <;> cases he
          exact hl
  · intro b l
    rw [← h2]
    simp only [index]
    split
    · rename_i h
      cases b <;> cases l <;> simp [Entry.isInt] at h <;> rfl
    · rfl
  · intro b l h
    simp only [index]
    have : [b, l].all Entry.isInt = false := by simpa using h
    rw [if_neg (by simp [this]), if_neg (by simp [this])]
  · intro is
    simp only [index]
    rw [if_pos (hint is), hval]
  · intro is hl
    simp only [index]
    rw [if_pos (hint is), hval]
    split
    · simp at hl
    · rfl

/-- C154, the two entries. After the batch index, the length index may be `None` (everything is kept), an int, a slice, a mask, or a list, a tuple or a tensor of ints, which all mean the same; tensors without axes and with more than one are refused
(IndexError). As batch index, these are refused too (TypeError and IndexError). Missing: the cases in which the result is `None`. -/
theorem C154_entries_partial (junk : Int) (m : Meta) :
    (∀ (b : Entry) (m' : Meta), index junk m (.tuple [b, .none]) = .ok (some m') →
      (∀ i, index junk m (.tuple [b, .scalar i]) = .error .indexError) ∧ index junk m (.tuple [b, .multi]) = .error .indexError ∧
      (∀ i, index junk m (.tuple [b, .int i]) = (m'.indexLengthInt i).map some) ∧ (∀ s, index junk m (.tuple [b, .slice s]) = (m'.indexLengthSlice s).map some) ∧
      (∀ is, index junk m (.tuple [b, .list is]) = (m'.indexLengthList junk is).map some) ∧
      (∀ is, index junk m (.tuple [b, .tuple is]) = index junk m (.tuple [b, .list is])) ∧ (∀ is, index junk m (.tuple [b, .ints is]) = index junk m (.tuple [b, .list is])) ∧
      (∀ bs, index junk m (.tuple [b, .mask bs]) = (m'.indexLengthList junk (nonzeroFrom 0 bs)).map some)) ∧
    (∀ (l : Entry), (∀ i, index junk m (.tuple [.scalar i, l]) = .error .typeError) ∧ index junk m (.tuple [.multi, l]) = .error .indexError) ∧
    index junk m (.tuple [.none, .none]) = .ok (some m) ∧ (∀ i, index junk m (.tuple [.int i, .none]) = index junk m (.one (.int i))) ∧
    (∀ s, index junk m (.tuple [.slice s, .none]) = index junk m (.one (.slice s))) ∧ (∀ is, index junk m (.tuple [.list is, .none]) = index junk m (.one (.list is))) ∧
    (∀ is, index junk m (.tuple [.ints is, .none]) = index junk m (.one (.ints is))) ∧ (∀ bs, index junk m (.tuple [.mask bs, .none]) = index junk m (.one (.mask bs))) := by
  obtain ⟨-, h2, -⟩ := C154_index_partial junk m
  have hn : ∀ b : BIx, (do let m' ← m.indexBatch b; let m'' ← m'.indexLength junk .none; Except.ok (some m'')) = (m.indexBatch b).map some := by
    intro b
    cases m.indexBatch b <;> rfl
  refine ⟨?_, fun l => ⟨fun i => by rw [h2]; rfl, by rw [h2]; rfl⟩, ?_, ?_, ?_, ?_, ?_, ?_⟩
  · intro b m' h
    rw [h2] at h
    have hb : m.indexBatch b.batch = .ok m' := by
      rw [show Entry.none.length = .none from rfl, hn] at h
      cases hq : m.indexBatch b.batch with
      | error e => rw [hq] at h; cases h
      | ok q => rw [hq] at h; cases h; rfl
    simp only [h2, hb, Except.bind_ok']
    refine ⟨fun i => rfl, rfl, ?_, ?_, ?_, fun is => rfl, fun is => rfl, ?_⟩
    · intro i
      show (do let m'' ← m'.indexLengthInt i; Except.ok (some m'')) = _
      cases m'.indexLengthInt i <;> rfl
    · intro i
      show (do let m'' ← m'.indexLengthSlice i; Except.ok (some m'')) = _
      cases m'.indexLengthSlice i <;> rfl
    · intro i
      show (do let m'' ← m'.indexLengthList junk i; Except.ok (some m'')) = _
      cases m'.indexLengthList junk i <;> rfl
    · intro i
      show (do let m'' ← m'.indexLengthList junk (nonzeroFrom 0 i); Except.ok (some m'')) = _
      cases m'.indexLengthList junk (nonzeroFrom 0 i) <;> rfl
  · rw [h2]; rfl
  · intro i; rw [h2]; exact hn _
  · intro i; rw [h2]; exact hn _
  · intro i; rw [h2]; exact hn _
  · intro i; rw [h2]; exact hn _
  · intro i; rw [h2]; exact hn _

example : ∃ m', index 0 ex3 (.tuple [.list [2, 0], .none]) = .ok (some m') ∧ index 0 ex3 (.tuple [.list [2, 0], .scalar 1]) = .error .indexError ∧
    index 0 ex3 (.tuple [.list [2, 0], .ints [0, 1]]) = (m'.indexLengthList 0 [0, 1]).map some := ⟨_, rfl, by decide, by decide⟩

example : index 0 ex3 (.tuple [.list [2, 0], .slice { stop := some 1 }]) = .ok (some ⟨["c", "a"], [false, true], [false, false], [1, 1], some [7, 0]⟩) ∧
    index 0 ex3 (.list [.int 2, .int 0]) = .ok (some ⟨["c", "a"], [false, true], [true, false], [3, 4], some [7, 0]⟩) ∧
    index 0 ex3 (.tuple [.int 0, .int 0, .int 0]) = .error .typeError := by decide

end DS.Meta
