import Verif.Model.Index
import Verif.Props.Reduce
import Verif.Props.Getitem
/-! # C172: axes out of range -/

namespace DS.Tn
open Meta
variable {α : Type}

/-- `dim` is not an axis of a tensor with `n` axes. -/
def OutOfRange (n : Nat) (dim : Int) : Prop := dim < -(n : Int) ∨ (n : Int) ≤ dim

instance (n : Nat) (dim : Int) : Decidable (OutOfRange n dim) := by unfold OutOfRange; infer_instance

/-- **C172 is false of the code.** `x.select(-5, 1)` of a tensor with two axes is not refused: it selects row 1, as `x.select(0, 1)` does. -/
theorem C172_select_false : OutOfRange 2 (-5) ∧ ∃ y, select 0 ⟨exBL, exM2⟩ (-5) 1 = .ok y ∧ y.md.ids = ["b"] ∧ y.t.shape = [3] :=
  ⟨by decide, _, rfl, rfl, rfl⟩

theorem normDim_out {n : Nat} {d : Int} (h : OutOfRange n d) : normDim n d = .error .indexError := by
  unfold OutOfRange at h
  unfold normDim
  rw [if_neg (by omega), if_neg (by omega)]

theorem pyGet_out {β : Type} {xs : List β} {d : Int} (h : OutOfRange xs.length d) : pyGet xs d = .error .indexError := by
  unfold OutOfRange at h
  have : getNonneg xs (if d < 0 then d + xs.length else d) = none := by
    unfold getNonneg
    split
    · split
      · rw [List.getElem?_eq_none (by omega)]
      · rfl
    · rw [if_pos (by omega), List.getElem?_eq_none (by omega)]
  unfold pyGet
  simp only [this]

/-- C172, the part that holds: the other overrides that take an axis refuse an axis out of range with IndexError. Missing: `select` with an axis below the range. -/
theorem C172_axis_partial (junk : Int) (x : STen α) (hx : x.t.WF) (dim : Int) (h : OutOfRange x.t.ndim dim) :
    (∀ arg, split x arg dim = .error .indexError) ∧ unbind x dim = .error .indexError ∧ (∀ start n, narrow junk x dim start n = .error .indexError) ∧
    (∀ index, indexSelect junk x dim index = .error .indexError) ∧ (∀ index, gather junk x dim index = .error .indexError) ∧ (∀ index, takeAlongDim junk x dim index = .error .indexError) ∧
    squeezeDim x dim = .error .indexError ∧ (∀ e, flatten x dim e = .error .indexError) ∧ (∀ o os, cat (.stream x) (o :: os) dim = .error .indexError) ∧
    (∀ s, flatten x s dim = .error .indexError) ∧ ∀ dims, dim ∈ dims → permute x dims = .error .indexError := by
  have hl : x.t.names.length = x.t.ndim := hx.1
  have hn := normDim_out h
  have hg : pyGet x.t.names dim = .error .indexError := pyGet_out (by rw [hl]; exact h)
  have hu : x.t.unnamed.ndim = x.t.ndim := rfl
  refine ⟨fun arg => by unfold split; rw [hg]; rfl, by unfold unbind; rw [hg]; rfl, fun s n => by unfold narrow Ten.narrow; rw [hn]; rfl,
    fun i => by unfold indexSelect Ten.indexSelect; rw [hu, hn]; rfl, fun i => by unfold gather gatherTen; rw [hu, hn]; rfl, fun i => by unfold takeAlongDim takeAlongTen; rw [hu, hn]; rfl,
    by unfold squeezeDim Ten.squeezeAt; rw [hu, hn]; rfl, fun e => by unfold flatten Ten.flatten; rw [hu, hn]; rfl, fun o os => ?_, fun s => ?_, fun dims hd => ?_⟩
  · unfold cat
    dsimp only
    have : dimIs BATCH dim (streams (.stream x :: o :: os)) = .error .indexError := by
      unfold streams dimIs
      rw [hg]; rfl
    rw [this]; rfl
  · unfold flatten Ten.flatten
    rw [hu, hn, normDim_eq]
    cases posOf x.t.ndim s <;> rfl
  · unfold permute Ten.permute
    have : dims.mapM (normDim x.t.unnamed.ndim) = .error .indexError := by
      rw [hu]
      induction dims with
      | nil => simp at hd
      | cons d ds ih =>
        rw [List.mapM_cons]
        rcases List.mem_cons.1 hd with rfl | hd
        · rw [hn]; rfl
        · rw [ih hd, normDim_eq]
          cases posOf x.t.ndim d <;> rfl
    rw [this]; rfl

example : exBL.WF ∧ OutOfRange exBL.ndim 2 ∧ OutOfRange exBL.ndim (-3) := by decide

/-- C172, new axes: `unsqueeze` takes axes of the result, and refuses others with IndexError. Missing: `select`. -/
theorem C172_unsqueeze_partial (x : STen α) (dim : Int) (h : OutOfRange (x.t.ndim + 1) dim) : unsqueeze x dim = .error .indexError := by
  unfold unsqueeze Ten.unsqueeze
  rw [show x.t.unnamed.ndim = x.t.ndim from rfl, normDim_out h]; rfl

/-- C172, `select` exactly: an axis below the range counts as axis 0. Missing: a refusal. -/
theorem C172_below_partial (junk : Int) (x : STen α) (dim i : Int) (h : dim < -(x.t.ndim : Int)) : select junk x dim i = select junk x 0 i := by
  have h1 : ¬ dim ≥ 0 := by omega
  have h2 : ((x.t.ndim : Int) + dim).toNat = 0 := by omega
  unfold select
  simp only [if_neg h1, h2]
  rfl

theorem sels_above (k : Nat) (dims : List Nat) (m : Nat) (i : Int) (h : dims.length ≤ m) : torchSels k dims (List.replicate m (.slice {}) ++ [.int i]) = .error .indexError := by
  induction dims generalizing m with
  | nil =>
    cases m with
    | zero => rfl
    | succ m => rfl
  | cons n dims ih =>
    cases m with
    | zero => simp at h
    | succ m =>
      have h1 : ∃ s, torchSel n (.slice {}) = .ok s := ⟨_, rfl⟩
      obtain ⟨s, hs⟩ := h1
      rw [List.replicate_succ, List.cons_append]
      show (torchSel n (.slice {}) >>= _) = _
      rw [hs, Except.bind_ok', ih m (by simpa using h)]
      rfl

/-- C172, `select` with an axis above the range: IndexError, as in torch. Missing: an axis below the range. -/
theorem C172_above_partial (junk : Int) (x : STen α) (dim i : Int) (h : (x.t.ndim : Int) ≤ dim) : select junk x dim i = .error .indexError := by
  unfold select getitem torchGetitem
  have h1 : dim ≥ 0 := by omega
  simp only [if_pos h1, Top.entries]
  rw [sels_above _ _ _ _ (by show x.t.shape.length ≤ _; have : x.t.ndim = x.t.shape.length := rfl; omega)]
  rfl

example : select 0 ⟨exBL, exM2⟩ 2 0 = .error .indexError ∧ (∃ y, select 0 ⟨exBL, exM2⟩ 1 0 = .ok y) ∧ (∃ y, unsqueeze ⟨exBL, exM2⟩ 2 = .ok y) ∧ OutOfRange (exBL.ndim + 1) 3 := ⟨rfl, ⟨_, rfl⟩, ⟨_, rfl⟩, by decide⟩

end DS.Tn
