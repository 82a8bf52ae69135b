import Verif.Model.Dispatch
import Verif.Model.Take
import Verif.Spec.Tensor
import Verif.Props.Recouple
/-!
# The dispatch tables (C141-C143)
-/

namespace DS.Disp

open DS.Tn

set_option maxRecDepth 10000

/-- The number of names that the tables use. -/
def known : Nat := Op.names.length

theorem same_code {g h : Fn} (e : g.same h = true) : g = h := by
  cases g <;> cases h <;> simp only [Fn.same, Bool.false_eq_true, beq_iff_eq, Nat.beq_eq_true_eq] at e <;> rename_i a b
  · cases a; cases b; simp_all
  · cases a; cases b; simp_all
  · rw [e]

/-- Nothing else is in a table. -/
theorem unknown (c : Category) (o : Op) (h : known ≤ o.code) : listed c (.f o) = false ∧ listed c (.m o) = false := by
  have key : ∀ T ∈ [validListed, validOps, customizedListed, decoupleListed, recoupleListed, recoupleOps, inplaceRecoupleListed, inplaceRecoupleOps,
      defaultValidListed, defaultValidOps], ∀ g ∈ T, (match g with | .f o => o.code | .m o => o.code | .getter _ => 0) < known := by decide +kernel
  have no : ∀ g : Fn, (g = .f o ∨ g = .m o) → ∀ T ∈ [validListed, validOps, customizedListed, decoupleListed, recoupleListed, recoupleOps, inplaceRecoupleListed,
      inplaceRecoupleOps, defaultValidListed, defaultValidOps], isIn g T = false := by
    intro g hg T hT
    by_contra hc
    obtain ⟨g', hg', e⟩ := List.any_eq_true.1 (Bool.eq_true_of_not_eq_false hc)
    have := same_code e
    subst this
    have := key T hT g hg'
    rcases hg with rfl | rfl <;> simp only at this <;> omega
  simp only [List.mem_cons, List.not_mem_nil, or_false, forall_eq_or_imp, forall_eq] at no
  obtain ⟨⟨h1, h2, h3, h4, h5, h6, h7, h8, h9, h10⟩, k1, k2, k3, k4, k5, k6, k7, k8, k9, k10⟩ := no
  cases c <;> simp_all [listed]

/-- A property of functions and methods holds if it holds for the names in the list, for functions in no table, and for getters. -/
theorem Fn.all {P : Fn → Prop} (hf : ∀ n ∈ List.range known, P (.f ⟨n⟩)) (hm : ∀ n ∈ List.range known, P (.m ⟨n⟩))
    (hu : ∀ g : Fn, (∀ c, listed c g = false) → (∀ n ∈ List.range known, g ≠ .f ⟨n⟩ ∧ g ≠ .m ⟨n⟩) → P g) (hg : ∀ n, P (.getter n)) (g : Fn) : P g := by
  cases g with
  | f o =>
    by_cases h : o.code < known
    · exact hf o.code (List.mem_range.2 h)
    · refine hu _ (fun c => (unknown c o (by omega)).1) fun n hn => ⟨?_, by simp⟩
      rintro ⟨⟩; exact h (List.mem_range.1 hn)
  | m o =>
    by_cases h : o.code < known
    · exact hm o.code (List.mem_range.2 h)
    · refine hu _ (fun c => (unknown c o (by omega)).2) fun n hn => ⟨by simp, ?_⟩
      rintro ⟨⟩; exact h (List.mem_range.1 hn)
  | getter n => exact hg n

/-- The categories in the order of the tables. -/
def cats : List Category := [.valid, .customized, .decouple, .recouple, .inplaceRecouple, .defaultValid]

theorem mem_cats (c : Category) : c ∈ cats := by cases c <;> decide

/-! ## C141: every function has one treatment -/

/-- **C141 is false of the code.** `torch.transpose` is in two tables, and is treated as the first of them says (see C35 for what comes of it). -/
theorem C141_tables_false : ¬ ∀ (g : Fn) (c c' : Category), listed c g = true → listed c' g = true → c = c' := by
  intro h
  exact absurd (h (.f .transpose) .recouple .defaultValid (by decide +kernel) (by decide +kernel)) (by decide)

/-- **C141, exactly.** A function is in two tables iff it is `torch.transpose`, `torch.sigmoid`, `Tensor.sigmoid` (recoupled and default-valid; they are recoupled) or `torch.fake_quantize_per_tensor_affine` (overridden and decoupled; it is overridden); every other function is treated
as its table says, or, if it is in none, as default-valid with a warning; and the warning is given for no other function. Missing: the four functions. -/
theorem C141_tables_partial (g : Fn) :
    ((∃ c c' : Category, c ≠ c' ∧ listed c g = true ∧ listed c' g = true) ↔
      g = .f .transpose ∨ g = .f .sigmoid ∨ g = .m .sigmoid ∨ g = .f .fake_quantize_per_tensor_affine) ∧
    (g = .f .transpose ∨ g = .f .sigmoid ∨ g = .m .sigmoid → dispatch g = .recouple) ∧
    (g = .f .fake_quantize_per_tensor_affine → dispatch g = .customized) ∧
    (listed (dispatch g) g = true ∨ dispatch g = .defaultValid ∧ ∀ c, listed c g = false) ∧
    (warns g = true ↔ ∀ c, listed c g = false) := by
  have key : ∀ g : Fn, (((∃ c ∈ cats, ∃ c' ∈ cats, c ≠ c' ∧ listed c g = true ∧ listed c' g = true) ↔
      g = .f .transpose ∨ g = .f .sigmoid ∨ g = .m .sigmoid ∨ g = .f .fake_quantize_per_tensor_affine) ∧
    (g = .f .transpose ∨ g = .f .sigmoid ∨ g = .m .sigmoid → dispatch g = .recouple) ∧
    (g = .f .fake_quantize_per_tensor_affine → dispatch g = .customized) ∧
    (listed (dispatch g) g = true ∨ dispatch g = .defaultValid ∧ ∀ c ∈ cats, listed c g = false) ∧
    (warns g = true ↔ ∀ c ∈ cats, listed c g = false)) := by
    apply Fn.all
    · decide +kernel
    · decide +kernel
    · intro g h hn
      have h1 := (hn Op.transpose.code (by decide)).1
      have h2 := (hn Op.sigmoid.code (by decide)).1
      have h3 := (hn Op.sigmoid.code (by decide)).2
      have h4 := (hn Op.fake_quantize_per_tensor_affine.code (by decide)).1
      simp [h, dispatch, warns, h1, h2, h3, h4]
    · intro n
      have h : ∀ T ∈ [customizedListed, decoupleListed, recoupleListed, recoupleOps, inplaceRecoupleListed, inplaceRecoupleOps, defaultValidListed, defaultValidOps],
          isIn (.getter n) T = false := by
        intro T hT
        have key : ∀ T ∈ [customizedListed, decoupleListed, recoupleListed, recoupleOps, inplaceRecoupleListed, inplaceRecoupleOps, defaultValidListed, defaultValidOps],
            T.all (fun g => match g with | .getter _ => false | _ => true) = true := by decide +kernel
        refine List.any_eq_false.2 fun g hg => ?_
        have := List.all_eq_true.1 (key T hT) g hg
        cases g <;> simp_all [Fn.same]
      simp only [List.mem_cons, List.not_mem_nil, or_false, forall_eq_or_imp, forall_eq] at h
      obtain ⟨h3, h4, h5, h6, h7, h8, h9, h10⟩ := h
      simp [cats, listed, dispatch, warns, h3, h4, h5, h6, h7, h8, h9, h10]
  obtain ⟨h1, h2, h3, h4, h5⟩ := key g
  refine ⟨⟨?_, ?_⟩, h2, h3, ?_, ?_⟩
  · rintro ⟨c, c', h⟩
    exact h1.1 ⟨c, mem_cats c, c', mem_cats c', h⟩
  · intro h
    obtain ⟨c, -, c', -, h⟩ := h1.2 h
    exact ⟨c, c', h⟩
  · exact h4.imp_right fun h => ⟨h.1, fun c => h.2 c (mem_cats c)⟩
  · exact h5.trans ⟨fun h c => h c (mem_cats c), fun h c _ => h c⟩

example : dispatch (.m .add) = .defaultValid ∧ warns (.m .add) = false ∧ warns (.f .sum) = true ∧ dispatch (.getter "T") = .valid ∧
    dispatch (.m .clamp_) = .valid ∧ dispatch (.m .fmod_) = .inplaceRecouple := by decide +kernel

/-! ## C142: a method is treated like the function -/

/-- **C142 is false of the code.** `torch.masked_select` falls back to a plain tensor (C126), the method `x.masked_select` is in no table; and so are, of decoupled functions, the methods `argmax`, `argmin`, `argsort`, of recoupled ones `adjoint`, of valid ones `equal`. `torch.transpose` is recoupled, `x.transpose` default-valid. -/
theorem C142_methods_false :
    (dispatch (.f .masked_select) = .customized ∧ warns (.m .masked_select) = true) ∧
    (∀ o : Op, o = .argmax ∨ o = .argmin ∨ o = .argsort → dispatch (.f o) = .decouple ∧ warns (.m o) = true) ∧
    (dispatch (.f .adjoint) = .recouple ∧ warns (.m .adjoint) = true) ∧
    (dispatch (.f .equal) = .valid ∧ warns (.m .equal) = true) ∧
    (dispatch (.f .transpose) = .recouple ∧ dispatch (.m .transpose) = .defaultValid) := by
  refine ⟨by decide +kernel, ?_, by decide +kernel, by decide +kernel, by decide +kernel⟩
  rintro o (rfl | rfl | rfl) <;> decide +kernel

/-- **C142 is false of the code, consequence.** Whatever the stream and the mask, `x.masked_select(mask)`, being default-valid, never falls back: when torch accepts the mask, the result is a StreamTensor with all the metadata of `x` and a single axis, which they cannot describe. -/
theorem C142_masked_select_false {α : Type} (x y : STen α) (m : Ten Bool) (h : defaultValid [x] (maskedSelectTen x.t m) = .ok y) :
    y.md = x.md ∧ y.t.names = [none] ∧ ∀ b l, ¬ y.Describes b l := by
  unfold maskedSelectTen at h
  cases hs : bshapeR x.t.shape.reverse m.shape.reverse with
  | none => simp [hs, defaultValid, Except.bind_error'] at h
  | some s =>
    simp only [hs, defaultValid, Except.bind_ok', List.map_nil, allEq] at h
    simp at h
    subst h
    refine ⟨rfl, rfl, fun b l hd => ?_⟩
    have := hd.batch
    cases b <;> simp [BATCH] at this

/-- A batch of two sequences: with the mask `True` everywhere, the method gives a StreamTensor of six entries with two rows of metadata. -/
example : (defaultValid [⟨exBL, exM2⟩] (maskedSelectTen exBL ⟨[2, 3], [none, none], fun _ => true⟩)).toOption.map
    (fun y => (y.t.shape, y.md.ids)) = some ([6], exM2.ids) := by decide +kernel

/-- **C142, the part that holds.** If both the function and the method are in some table, both are treated alike, except `transpose`, and `real` and `imag`, whose methods are the properties that StreamTensor redefines by the functions (tensor.py:855-861). Missing: `transpose`, and methods in no table. -/
theorem C142_methods_partial (o : Op) (hf : ∃ c, listed c (.f o) = true) (hm : ∃ c, listed c (.m o) = true) :
    dispatch (.f o) ≠ dispatch (.m o) ↔ o = .transpose ∨ o = .real ∨ o = .imag := by
  have key : ∀ n ∈ List.range known, (∃ c ∈ cats, listed c (.f ⟨n⟩) = true) → (∃ c ∈ cats, listed c (.m ⟨n⟩) = true) →
      (dispatch (.f ⟨n⟩) ≠ dispatch (.m ⟨n⟩) ↔ (⟨n⟩ : Op) = .transpose ∨ (⟨n⟩ : Op) = .real ∨ (⟨n⟩ : Op) = .imag) := by
    decide +kernel
  obtain ⟨c, hc⟩ := hf
  obtain ⟨c', hc'⟩ := hm
  have hk : o.code < known := by
    by_contra h
    rw [(unknown c o (by omega)).1] at hc
    cases hc
  exact key o.code (List.mem_range.2 hk) ⟨c, mem_cats c, hc⟩ ⟨c', mem_cats c', hc'⟩

example : listed .recouple (.f .where) = true ∧ listed .recouple (.m .where) = true := by decide +kernel

/-- **C142, in-place functions.** An in-place function that is in some table (`torch.clamp_`) is treated like the method of the same name (`x.clamp_`). Missing: functions that are not in place. -/
theorem C142_inplace_partial (o : Op) (h : o.name.toList.getLast? = some '_') (hf : ∃ c, listed c (.f o) = true) : dispatch (.f o) = dispatch (.m o) := by
  have key : ∀ n ∈ List.range known, (∃ c ∈ cats, listed c (.f ⟨n⟩) = true) → (Op.mk n).name.toList.getLast? = some '_' → dispatch (.f ⟨n⟩) = dispatch (.m ⟨n⟩) := by
    decide +kernel
  obtain ⟨c, hc⟩ := hf
  have hk : o.code < known := by
    by_contra h
    rw [(unknown c o (by omega)).1] at hc
    cases hc
  exact key o.code (List.mem_range.2 hk) ⟨c, mem_cats c, hc⟩ h

example : (Op.clamp_).name.toList.getLast? = some '_' ∧ listed .valid (.f .clamp_) = true ∧ dispatch (.m .clamp_) = .valid := by decide +kernel

/-! ## C143: in-place methods return the tensor they were called on -/

/-- The convention of torch: in-place operations end in an underscore (special methods end in two). -/
def Op.Inplace (o : Op) : Prop := o.name.toList.getLast? = some '_' ∧ ¬ o.name.toList.dropLast.getLast? = some '_'

instance (o : Op) : Decidable o.Inplace := by unfold Op.Inplace; infer_instance

/-- **C143 is false of the code.** `x.scatter_(…)` is recoupled: it returns another object than `x`. -/
theorem C143_inplace_false : ¬ ∀ o : Op, o.Inplace → inplaceReturns (dispatch (.m o)) = .same := by
  intro h
  exact absurd (h .scatter_ (by decide +kernel)) (by decide +kernel)

/-- **C143, exactly.** Every in-place method of the tables returns the tensor itself, except `scatter_` (recoupled), `scatter_add_` and `scatter_reduce_` (overridden, see C129). Missing: these three. -/
theorem C143_inplace_partial (o : Op) (h : o.Inplace) :
    inplaceReturns (dispatch (.m o)) = .new ↔ o = .scatter_ ∨ o = .scatter_add_ ∨ o = .scatter_reduce_ := by
  have key : ∀ n ∈ List.range known, Op.Inplace ⟨n⟩ → (inplaceReturns (dispatch (.m ⟨n⟩)) = .new ↔
      (⟨n⟩ : Op) = .scatter_ ∨ (⟨n⟩ : Op) = .scatter_add_ ∨ (⟨n⟩ : Op) = .scatter_reduce_) := by
    decide +kernel
  have hk : o.code < known := by
    by_contra hc
    have e : o.name = "" := by
      unfold Op.name
      rw [List.getD_eq_getElem?_getD, List.getElem?_eq_none (by unfold known at hc; omega)]
      rfl
    unfold Op.Inplace at h
    rw [e] at h
    exact absurd h.1 (by decide +kernel)
  exact key o.code (List.mem_range.2 hk) h

example : Op.Inplace .heaviside_ ∧ Op.Inplace .clamp_ ∧ ¬ Op.Inplace .__add__ ∧ ¬ Op.Inplace .add := by decide +kernel

/-- The treatments of an operation and of its in-place form belong together: both leave the metadata alone and hand StreamTensors to torch, or both take names and metadata off and put them on again. -/
def Matching (c c' : Category) : Prop := (c = .defaultValid ∧ c' = .valid) ∨ (c = .recouple ∧ c' = .inplaceRecouple)

instance (c c' : Category) : Decidable (Matching c c') := by unfold Matching; infer_instance

theorem name_known {o : Op} (h : o.name ≠ "") : o.code < known := by
  by_contra hc
  apply h
  unfold Op.name
  rw [List.getD_eq_getElem?_getD, List.getElem?_eq_none (by unfold known at hc; omega)]
  rfl

/-- **C143, an operation and its in-place form.** If both `x.o(…)` and `x.o_(…)` occur in the tables, the two are treated in the same way (default-valid and valid, or recoupled and recoupled in place), except `sigmoid` (recoupled, while `sigmoid_` is valid), `conj_physical` (default-valid, while
`conj_physical_` is recoupled), and `scatter`, `scatter_add` and `scatter_reduce`, whose in-place forms are treated as if they were not in place. Missing: these five. -/
theorem C143_pairs_partial (o o' : Op) (h : o'.name = o.name ++ "_") (ho : o.name ≠ "") :
    ¬ Matching (dispatch (.m o)) (dispatch (.m o')) ↔ o = .sigmoid ∨ o = .conj_physical ∨ o = .scatter ∨ o = .scatter_add ∨ o = .scatter_reduce := by
  have key : ∀ k ∈ List.range known, (Op.mk k).name.toList.getLast? = some '_' → ∀ n ∈ List.range known, (Op.mk k).name = (Op.mk n).name ++ "_" →
      (¬ Matching (dispatch (.m ⟨n⟩)) (dispatch (.m ⟨k⟩)) ↔
        (⟨n⟩ : Op) = .sigmoid ∨ (⟨n⟩ : Op) = .conj_physical ∨ (⟨n⟩ : Op) = .scatter ∨ (⟨n⟩ : Op) = .scatter_add ∨ (⟨n⟩ : Op) = .scatter_reduce) := by
    decide +kernel
  have hl : o'.name.toList.getLast? = some '_' := by rw [h]; simp
  have hk' : o'.code < known := by
    apply name_known
    intro e
    rw [e] at hl
    exact absurd hl (by decide)
  exact key o'.code (List.mem_range.2 hk') hl o.code (List.mem_range.2 (name_known ho)) h

example : Op.add_.name = Op.add.name ++ "_" ∧ Matching (dispatch (.m .add)) (dispatch (.m .add_)) ∧ Op.fmod_.name = Op.fmod.name ++ "_" ∧ Matching (dispatch (.m .fmod)) (dispatch (.m .fmod_)) ∧
    Op.sigmoid_.name = Op.sigmoid.name ++ "_" := by decide +kernel

end DS.Disp
