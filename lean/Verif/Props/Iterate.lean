import Verif.Model.Iterate
import Verif.Props.Getitem
/-! # C189: iterating over a StreamTensor -/

namespace DS.Tn
open Meta

variable {α : Type}

/-- Two frames of three rows, length first. -/
def exIter : STen Nat := ⟨⟨[2, 2], [LENGTH, BATCH], fun ix => 10 * ix.getD 0 0 + ix.getD 1 0⟩, ⟨["a", "b"], [true, true], [true, true], [2, 1], none⟩⟩

/-- **C189 is false of the code.** With the length axis first, iterating raises ValueError, although every `x[i]` works. -/
theorem C189_iter_false : exIter.Describes 1 0 ∧ iter exIter = .error .valueError ∧ ∀ i : Nat, i < 2 → ∃ z, getitem 0 exIter (.bare (.int i)) = .ok z ∧ z.t.shape = [2] := by
  refine ⟨⟨by decide, rfl, rfl, by decide, rfl, 2, rfl, by decide⟩, rfl, fun i hi => ?_⟩
  match i, hi with
  | 0, _ => exact ⟨_, rfl, rfl⟩
  | 1, _ => exact ⟨_, rfl, rfl⟩

theorem selects_unique {m a b : Meta} {sel : List Nat} (ha : m.Selects sel a) (hb : m.Selects sel b) : a = b := by
  refine ext_rows ha.1 hb.1 ?_ (ha.2.2.1.trans hb.2.2.1.symm)
  apply List.ext_getElem?
  intro k
  rw [rows_get _ ha.1, rows_get _ hb.1, ha.2.2.2, hb.2.2.2]

theorem getitem_int (junk : Int) (x : STen α) (b l : Nat) (hx : x.Describes b l) (w i : Nat) (hw : x.t.shape[0]? = some w) (hi : i < w) :
    getitem junk x (.bare (.int i)) = select junk x 0 i := by
  have hnd : 0 < x.t.ndim := by
    unfold Ten.ndim
    rcases Nat.eq_zero_or_pos x.t.shape.length with h | h
    · rw [List.getElem?_eq_none (by omega)] at hw; cases hw
    · exact h
  have hd : posOf x.t.ndim 0 = some 0 := by
    unfold posOf
    rw [if_pos (by omega)]
    rfl
  obtain ⟨t', ht, _⟩ := torch_select x.t.unnamed 0 i w i hw (by unfold posOf; rw [if_pos (by omega)]; simp)
  rw [C41_select junk x 0 0 hd, List.replicate_zero, List.nil_append]
  rw [C43_getitem_bare junk x b l hx (.int i) (by simp [Ix.OneAxis]) t' ht, C43_getitem junk x b l hx [.int i] (by simp [Ix.OneAxis]) (by simp) (by simp [Ix.adv]) t' ht]

/-- **C189, no axes.** A StreamTensor without axes cannot be iterated over: TypeError, as in torch. Missing: as in `C189_iter_partial`. -/
theorem C189_scalar_partial (x : STen α) (h : x.t.shape = []) : iter x = .error .typeError := by
  unfold iter
  rw [if_pos h]

example : iter (⟨⟨[], [], fun _ => 5⟩, ⟨["a"], [true], [true], [1], none⟩⟩ : STen Nat) = .error .typeError := C189_scalar_partial _ rfl

/-- **C189.** Unless the first axis is the length axis, iterating gives one StreamTensor for each position of the first axis, and the `i`-th is `x[i]`: same names, shape, metadata and entries.
Missing: the length axis first (`C189_iter_false`). -/
theorem C189_iter_partial (junk : Int) (x : STen α) (b l : Nat) (hx : x.Describes b l) (hl : l ≠ 0) (w : Nat) (hw : x.t.shape[0]? = some w) :
    ∃ ys, iter x = .ok ys ∧ ys.length = w ∧ ∀ (i : Nat) (y : STen α), ys[i]? = some y →
      ∃ z, getitem junk x (.bare (.int i)) = .ok z ∧ z.md = y.md ∧ z.t.names = y.t.names ∧ z.t.shape = y.t.shape ∧ ∀ ix, Inside ix z.t.shape → z.t.val ix = y.t.val ix := by
  have hne : x.t.shape ≠ [] := by
    intro h
    rw [h] at hw
    cases hw
  have hnd : 0 < x.t.ndim := List.length_pos_of_ne_nil hne
  have hd : posOf x.t.ndim 0 = some 0 := by
    unfold posOf
    rw [if_pos (by omega)]
    rfl
  have hin : ∀ (t : Ten α) (ix : List Nat), Inside ix t.shape → (∀ k j : Nat, ix[k]? = some j → ∀ n : Nat, t.shape[k]? = some n → j < n) ∧ ix.length = t.shape.length := by
    intro t ix h
    refine ⟨?_, h.length_eq⟩
    intro k j hj n hn
    obtain ⟨hk, rfl⟩ := List.getElem?_eq_some_iff.1 hj
    obtain ⟨hk', rfl⟩ := List.getElem?_eq_some_iff.1 hn
    exact (List.forall₂_iff_get.1 h).2 k hk hk'
  unfold iter
  rw [if_neg hne]
  by_cases hb : b = 0
  · subst hb
    obtain ⟨ys, h1, h2, h3⟩ := C48_unbind_batch x 0 l hx 0 hd
    have hwn : w = x.md.ids.length := by
      have := hx.rows
      rw [hw] at this
      exact Option.some.inj this
    refine ⟨ys, h1, h2.trans hwn.symm, ?_⟩
    intro i y hy
    obtain ⟨hs, hn, hsh, hv⟩ := h3 i y hy
    have hi : i < w := by
      rw [hwn, ← h2]
      exact (List.getElem?_eq_some_iff.1 hy).1
    obtain ⟨t', ht1, ht2, ht3, ht4, _⟩ := C41_select_result junk x 0 l hx 0 0 hd i w i hw (by unfold posOf; rw [if_pos (by omega)]; simp)
    rw [getitem_int junk x 0 l hx w i hw hi, ht4 rfl]
    obtain ⟨m', e, hm⟩ := C01_index_batch x.md hx.mdwf (.int i) (.ok [i]) (by
      show some ((orIndexError (posOf _ _)).map _) = _
      unfold posOf
      rw [if_pos (by omega)]
      simp [Except.map])
    rw [e]
    refine ⟨_, rfl, selects_unique hm hs, ht1.trans hn.symm, ht2.trans hsh.symm, ?_⟩
    intro ix hix
    obtain ⟨h5, h6⟩ := hin t' ix hix
    show t'.val ix = _
    rw [ht3 ix h5 h6, List.insertIdx_zero]
    exact (hv (i :: ix) rfl).symm
  · refine ⟨_, C48_unbind_other x b l hx 0 0 hd (Ne.symm hb) (Ne.symm hl), by simp [List.getD, hw], ?_⟩
    intro i y hy
    rw [List.getElem?_map] at hy
    have hi : i < w := by
      rcases Nat.lt_or_ge i w with h | h
      · exact h
      · rw [List.getElem?_eq_none (by simp [List.getD, hw]; exact h)] at hy; cases hy
    rw [List.getElem?_range (by simp [List.getD, hw]; exact hi)] at hy
    have hy := Option.some.inj hy
    subst hy
    obtain ⟨t', ht1, ht2, ht3, _, _, ht4⟩ := C41_select_result junk x b l hx 0 0 hd i w i hw (by unfold posOf; rw [if_pos (by omega)]; simp)
    rw [getitem_int junk x b l hx w i hw hi, ht4 (Ne.symm hb) (Ne.symm hl)]
    refine ⟨_, rfl, rfl, ht1, ht2, ?_⟩
    intro ix hix
    obtain ⟨h5, h6⟩ := hin t' ix hix
    show t'.val ix = _
    rw [ht3 ix h5 h6]
    rfl

example : ∃ x : STen (List Nat), x.Describes 0 2 ∧ x.t.shape[0]? = some 2 := ⟨_, exBFL_describes, rfl⟩

end DS.Tn
