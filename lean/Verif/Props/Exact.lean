import Verif.Props.Elementwise
import Verif.Props.TensorSplit
import Verif.Props.Flatten
/-! # C108, C98 and C38: exactly when the result is as wanted, and what happens otherwise -/

namespace DS.Tn

variable {α : Type}

theorem describes_iff {x : STen α} {b l : Nat} (h : x.Describes b l) {u out : Ten α} {k : Nat} (hwf : out.WF) (hk : k = out.shape.length - x.t.shape.length)
    (hsh : bshapeR x.t.shape.reverse u.shape.reverse = some out.shape.reverse) (hlen : x.t.shape.length ≤ out.shape.length)
    (hn : ∀ a s, x.t.names[a]? = some (some s) → out.names[a + k]? = some (some s)) :
    STen.Describes ⟨out, x.md⟩ (b + k) (l + k) ↔
      (∀ s, aligned u x.t.ndim b = some s → s = 1 ∨ s = x.md.ids.length) ∧ (aligned u x.t.ndim l = some 0 → ∀ n ∈ x.md.lengths, n = 0) := by
  constructor
  · intro hd
    subst hk
    refine ⟨?_, ?_⟩
    · intro s hs
      obtain ⟨z, h1, h2⟩ := ewise_size hsh hlen b _ h.rows
      have h3 := hd.rows
      rw [h1] at h3
      obtain rfl := Option.some.inj h3
      rcases h2 with ⟨hno, -⟩ | ⟨n, hn, hz⟩
      · rw [hno] at hs; simp at hs
      · rw [hn] at hs
        obtain rfl := Option.some.inj hs
        unfold bsize at hz
        split at hz
        · rename_i he; exact .inr he.symm
        · split at hz
          · exact .inr (by simpa using hz)
          · split at hz
            · rename_i he; exact .inl he
            · simp at hz
    · intro h0 n hn
      obtain ⟨w, hw, hf⟩ := h.fits
      obtain ⟨z, h1, h2⟩ := ewise_size hsh hlen l _ hw
      obtain ⟨z', h3, hf'⟩ := hd.fits
      rw [h1] at h3
      obtain rfl := Option.some.inj h3
      have := hf' n hn
      rcases h2 with ⟨hno, -⟩ | ⟨m, hm, hz⟩
      · rw [hno] at h0; simp at h0
      · rw [h0] at hm
        obtain rfl := Option.some.inj hm
        have : z = 0 := by
          unfold bsize at hz
          split at hz
          · simp at hz; omega
          · split at hz
            · simpa using hz.symm
            · simp at hz
        omega
  · rintro ⟨hb, hl⟩
    subst hk
    refine ⟨hwf, hn b _ h.batch, hn l _ h.length, h.mdwf, ?_, ?_⟩
    · obtain ⟨z, h1, h2⟩ := ewise_size hsh hlen b _ h.rows
      rw [h1]
      rcases h2 with ⟨-, rfl⟩ | ⟨n, hn, hz⟩
      · rfl
      · unfold bsize at hz
        rcases hb n hn with rfl | rfl
        · split at hz
          · simpa using hz.symm
          · split at hz
            · simpa using hz.symm
            · simp_all
        · simpa using hz.symm
    · obtain ⟨w, hw, hf⟩ := h.fits
      obtain ⟨z, h1, h2⟩ := ewise_size hsh hlen l _ hw
      refine ⟨z, h1, fun n hn => ⟨(hf n hn).1, ?_⟩⟩
      have := (hf n hn).2
      rcases h2 with ⟨-, rfl⟩ | ⟨s, hs, hz⟩
      · exact this
      · have h0 : s = 0 → n = 0 := by
          rintro rfl
          exact hl hs n hn
        unfold bsize at hz
        split at hz
        · simp at hz; omega
        · split at hz
          · simp at hz; omega
          · split at hz
            · simp at hz; omega
            · simp at hz

/-- **C108, exactly.** A default-valid elementwise function of a StreamTensor and a plain tensor, in either order, gives a StreamTensor that is described by its metadata if and only if the plain
tensor is not larger than the StreamTensor on the batch axis and, if it is empty along length, all sequences are empty. Missing: described results in the other cases. -/
theorem C108_exact_partial (f : α → α → α) (x : STen α) (u : Ten α) (b l : Nat) (h : x.Describes b l) (hu : u.WF) (y : STen α)
    (hy : ewiseValid f (.stream x) (.plain u) = .ok y ∨ ewiseValid f (.plain u) (.stream x) = .ok y) :
    y.Describes (b + (y.t.ndim - x.t.ndim)) (l + (y.t.ndim - x.t.ndim)) ↔
      (∀ s, aligned u x.t.ndim b = some s → s = 1 ∨ s = x.md.ids.length) ∧ (aligned u x.t.ndim l = some 0 → ∀ n ∈ x.md.lengths, n = 0) := by
  rcases hy with hy | hy
  · unfold ewiseValid defaultValid at hy
    obtain ⟨out, ho, hy⟩ := ok_of_bind hy
    simp only [streams, List.map_nil, allEq, Except.bind_ok', if_true, Except.ok.injEq] at hy
    subst hy
    obtain ⟨h1, h2, h3, h4, -, -⟩ := ewise_spec h.wf.1 hu.1 ho
    exact describes_iff h h1 rfl h2 (by rw [h3]; omega) h4
  · unfold ewiseValid defaultValid at hy
    obtain ⟨out, ho, hy⟩ := ok_of_bind hy
    simp only [streams, List.map_nil, allEq, Except.bind_ok', if_true, Except.ok.injEq] at hy
    subst hy
    obtain ⟨h1, h2, h3, -, h5, -⟩ := ewise_spec hu.1 h.wf.1 ho
    rw [bshapeR_comm] at h2
    exact describes_iff h h1 rfl h2 (by rw [h3]; omega) h5

/-- One sequence and a plain tensor of two rows: not described. Two sequences and the same plain tensor: described. -/
example : (∃ y, ewiseValid (fun a b => a ++ b) (.stream exOne) (.plain (exT [2, 1] [none, none])) = .ok y ∧ ¬ y.Describes 0 1) ∧ exOne.Describes 0 1 ∧
    ∃ y, ewiseValid (fun a b => a ++ b) (.stream ⟨exT [2, 3] [some "B", some "L"], exM2⟩) (.plain (exT [2, 1] [none, none])) = .ok y ∧ y.Describes 0 1 := by
  refine ⟨⟨_, rfl, ?_⟩, ⟨by decide, rfl, rfl, by decide, rfl, 3, rfl, by decide⟩, _, rfl, ⟨by decide, rfl, rfl, by decide, rfl, 3, rfl, by decide⟩⟩
  intro h
  exact absurd h.rows (by decide)

/-- **C98, batches without rows.** Every split along length raises RuntimeError, those included that torch accepts. Missing: the empty pieces that torch gives. -/
theorem C98_no_rows_partial (x : STen α) (b l : Nat) (hx : x.Describes b l) (d : Int) (hd : posOf x.t.ndim d = some l) (h0 : x.md.ids = []) (arg : Meta.SplitArg) :
    split x arg d = .error .runtimeError := by
  have hll : x.t.names.length = x.t.ndim := hx.wf.1
  have hlen : x.md.lengths = [] := by
    have := hx.mdwf.2.2.1
    rw [h0] at this
    exact List.eq_nil_of_length_eq_zero this
  unfold split
  rw [pyGet_names (by rw [hll]; exact hd) _ hx.length, Except.bind_ok', normDim_ok hd, Except.bind_ok']
  have hm : x.md.maxLength = .error .runtimeError := by unfold Meta.maxLength; rw [hlen]; rfl
  have hs : x.md.splitLength arg = .error .runtimeError := by
    cases arg <;> simp only [Meta.splitLength, hm] <;> rfl
  simp only [if_true, hs]
  have ht : (∃ ts, x.t.split l arg = .ok ts) ∨ x.t.split l arg = .error .runtimeError := by
    cases arg <;> simp only [Ten.split] <;> split <;> simp
    split <;> simp
  rcases ht with ⟨ts, ht⟩ | ht <;> rw [ht] <;> rfl

example : STen.Describes (⟨exT [0, 4] [some "B", some "L"], ⟨[], [], [], [], none⟩⟩ : STen (List Nat)) 0 1 ∧ posOf 2 (-1) = some 1 :=
  ⟨⟨by decide, rfl, rfl, by decide, rfl, 4, rfl, by decide⟩, by decide⟩

/-- **C98, arguments that torch refuses.** Whatever the axis: RuntimeError. Missing: the arguments that torch accepts (`C98_split_length_partial`, `C98_zero_partial`). -/
theorem C98_refused_partial (x : STen α) (hx : x.t.WF) (d : Int) (a : Nat) (hd : posOf x.t.ndim d = some a) (w : Nat) (hw : x.t.shape[a]? = some w) (arg : Meta.SplitArg) (h : TorchRefuses w arg) :
    split x arg d = .error .runtimeError := by
  have hg : x.t.shape.getD a 0 = w := by rw [List.getD_eq_getElem?_getD, hw]; rfl
  have hll : x.t.names.length = x.t.ndim := hx.1
  have ha : a < x.t.names.length := by
    rw [hll]
    exact (List.getElem?_eq_some_iff.1 hw).1
  unfold split
  rw [pyGet_names (by rw [hll]; exact hd) _ (List.getElem?_eq_getElem ha), Except.bind_ok', normDim_ok hd, Except.bind_ok']
  have ht : x.t.split a arg = .error .runtimeError := by
    cases arg with
    | size k =>
      simp only [Ten.split, hg]
      rw [if_pos]
      rcases h with h | h
      · exact .inl h
      · exact .inr ⟨h.1, by omega⟩
    | sections ss =>
      simp only [Ten.split, hg]
      rw [if_pos]
      rcases h with h | h
      · exact .inl (by simpa using h)
      · rw [Meta.total_isum] at h
        exact .inr h
  rw [ht]
  rfl

example : TorchRefuses 3 (.size 0) ∧ TorchRefuses 0 (.size (-1)) ∧ TorchRefuses 3 (.sections [4, -1]) ∧ TorchRefuses 3 (.sections [2]) ∧ ¬ TorchRefuses 0 (.size 0) ∧
    posOf 2 (-1) = some 1 := by
  refine ⟨.inr ⟨rfl, by omega⟩, .inl (by omega), .inl ⟨-1, by decide, by decide⟩, .inr (by decide), ?_, by decide⟩
  rintro (h | h) <;> omega

/-- **C98, pieces of size 0 of an empty tensor.** torch gives one empty piece; of a batch with rows but no frames ZeroDivisionError is raised. Missing: that piece. -/
theorem C98_zero_partial (x : STen α) (b l : Nat) (hx : x.Describes b l) (d : Int) (hd : posOf x.t.ndim d = some l) (hw : x.t.shape[l]? = some 0) (h0 : x.md.ids ≠ []) :
    x.t.split l (.size 0) = .ok [x.t] ∧ split x (.size 0) d = .error .zeroDivisionError := by
  have hg : x.t.shape.getD l 0 = 0 := by rw [List.getD_eq_getElem?_getD, hw]; rfl
  have hll : x.t.names.length = x.t.ndim := hx.wf.1
  obtain ⟨w', hw', hf⟩ := hx.fits
  obtain ⟨n, hn, -⟩ := longest_of_rows hx.mdwf h0 w' hf
  have ht : x.t.split l (.size 0) = .ok [x.t] := by
    simp only [Ten.split, hg]
    rw [if_neg (by omega), if_pos trivial]
  refine ⟨ht, ?_⟩
  unfold split
  rw [pyGet_names (by rw [hll]; exact hd) _ hx.length, Except.bind_ok', normDim_ok hd, Except.bind_ok', ht, Except.bind_ok', if_pos rfl]
  unfold Meta.splitLength
  simp only [hn.max, Except.bind_ok']
  rfl

/-- **C98 is false of the code** for pieces of size 0 of a batch without frames. -/
theorem C98_zero_false : ∃ x : STen (List Nat), x.Describes 0 1 ∧ (∃ t, x.t.split 1 (.size 0) = .ok [t]) ∧ split x (.size 0) 1 = .error .zeroDivisionError :=
  ⟨⟨exT [2, 0] [some "B", some "L"], ⟨["a", "b"], [true, true], [false, false], [0, 0], none⟩⟩, ⟨by decide, rfl, rfl, by decide, rfl, 0, rfl, by decide⟩, ⟨_, rfl⟩, rfl⟩

/-- **C38, a joined name that is taken.** If the name joined from the merged axes is that of another axis, flatten raises RuntimeError. Missing: a result; torch itself raises only for a
name that the caller has chosen. -/
theorem C38_flatten_clash_partial (x : STen α) (hx : x.t.WF) (s e : Int) (a b : Nat) (hs : posOf x.t.ndim s = some a)
    (he : posOf x.t.ndim e = some b) (hab : a ≤ b) (hne : e ≠ -1) (ns : List String) (hns : namesFromTo x.t.names a b = ns.map some)
    (hB : "B" ∉ ns) (hL : "L" ∉ ns) (hold : some ("_".intercalate ns) ∈ x.t.names.take a ++ x.t.names.drop (b + 1)) :
    flatten x s e = .error .runtimeError := by
  have hl : x.t.names.length = x.t.ndim := hx.1
  obtain ⟨h1, h2, h3⟩ := flatten_slices x.t.names s e a b (by rw [hl]; exact hs) (by rw [hl]; exact he) hab hne
  have e0 : x.t.unnamed.ndim = x.t.ndim := rfl
  unfold flatten Ten.flatten
  have hno : ¬ (BATCH ∈ namesFromTo x.t.names a b ∨ LENGTH ∈ namesFromTo x.t.names a b) := by
    rw [hns]; simp [BATCH, LENGTH, hB, hL]
  simp only [e0, normDim_ok hs, normDim_ok he, Except.bind_ok', if_neg (by omega : ¬ b < a), h1, if_neg hno, h2, h3]
  rw [hns, joinNames, mapM_some]
  simp only [Except.bind_ok']
  unfold Ten.rename
  rw [if_neg, if_neg]
  · rfl
  · rintro ⟨-, h⟩
    rw [namesOK_iff] at h
    have hp : (x.t.names.take a ++ [some ("_".intercalate ns)] ++ x.t.names.drop (b + 1)).Perm
        (some ("_".intercalate ns) :: (x.t.names.take a ++ x.t.names.drop (b + 1))) := by
      rw [List.append_assoc, List.singleton_append]
      exact List.perm_middle
    have hq := okNames_perm hp.symm h
    have := hq.1
    rw [List.filterMap_cons] at this
    simp only [id] at this
    rw [List.nodup_cons] at this
    apply this.1
    simpa using hold
  · intro h
    have h4 : some ("_".intercalate ns) ∈ ([none] : List (Option String)) := by rw [← h]; simp
    simp at h4

/-- A batch with axes F, G and already an axis `F_G`. -/
example : flatten ⟨exT [2, 4, 5, 3, 2] [some "B", some "F", some "G", some "L", some "F_G"], exM2⟩ 1 2 = .error .runtimeError ∧
    (exT [2, 4, 5, 3, 2] [some "B", some "F", some "G", some "L", some "F_G"]).WF := ⟨rfl, by decide⟩

end DS.Tn
