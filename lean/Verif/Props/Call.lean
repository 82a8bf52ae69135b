import Verif.Model.Call
import Verif.Props.Gather
/-!
# How arguments reach the overrides (C144-C146)
-/

namespace DS.Call

open DS.Disp DS.Tn

/-! ## C144: the overrides take their arguments as torch does -/

/-- What it takes for a signature to accept every call that another one accepts, after `k` arguments have been put in front: the same names in the same places, all names known, nothing more required. -/
def Compatible (k : Nat) (t o : Sig) : Prop :=
  k ≤ o.pos.length ∧ t.star = false ∧ t.pos.map Prod.fst <+: (o.pos.map Prod.fst).drop k ∧ (∀ n ∈ t.names, n ∈ o.names ∧ n ∉ (o.pos.map Prod.fst).take k) ∧
    ∀ p ∈ o.pos ++ o.kwonly, p.2 = true → p.1 ∈ (o.pos.map Prod.fst).take k ∨ p ∈ t.pos ++ t.kwonly

instance (k : Nat) (t o : Sig) : Decidable (Compatible k t o) := by unfold Compatible; infer_instance

theorem zip_prefix {V : Type} : ∀ {a b : List String} {args : List V}, a <+: b → args.length ≤ a.length → b.zip args = a.zip args := by
  intro a
  induction a with
  | nil =>
    intro b args _ h
    have : args = [] := List.length_eq_zero_iff.1 (by simpa using h)
    simp [this]
  | cons x a ih =>
    intro b args hab h
    obtain ⟨c, rfl⟩ := hab
    cases args with
    | nil => simp
    | cons v args =>
      simp only [List.cons_append, List.zip_cons_cons, List.cons.injEq, true_and]
      exact ih ⟨c, rfl⟩ (by simpa using h)

theorem zip_front {V : Type} : ∀ (names : List String) (pre args : List V), pre.length ≤ names.length →
    names.zip (pre ++ args) = (names.take pre.length).zip pre ++ (names.drop pre.length).zip args := by
  intro names pre
  induction pre generalizing names with
  | nil => simp
  | cons v pre ih =>
    intro args h
    cases names with
    | nil => simp at h
    | cons n names => simp [ih names args (by simpa using h)]

theorem bind_compat {V : Type} {t o : Sig} (pre args : List V) (kw r : List (String × V)) (hc : Compatible pre.length t o)
    (h : bind t args kw = .ok r) : bind o (pre ++ args) kw = .ok (((o.pos.map Prod.fst).take pre.length).zip pre ++ r) := by
  obtain ⟨hk, hs, hp, hn, hr⟩ := hc
  simp only [bind, hs, and_true] at h
  split at h
  · cases h
  rename_i h1
  split at h
  · cases h
  rename_i h2
  split at h
  · cases h
  rename_i h3
  cases h
  have hlen := hp.length_le
  simp only [List.length_map, List.length_drop] at hlen
  have hz : (o.pos.map Prod.fst).zip (pre ++ args) =
      ((o.pos.map Prod.fst).take pre.length).zip pre ++ (t.pos.map Prod.fst).zip args := by
    rw [zip_front _ _ _ (by simpa using hk), zip_prefix hp (by simp; omega)]
  have hfst : (((o.pos.map Prod.fst).take pre.length).zip pre).map Prod.fst = (o.pos.map Prod.fst).take pre.length := by
    apply List.map_fst_zip
    simp
  simp only [bind, hz]
  rw [if_neg (by simp only [List.length_append]; omega), if_neg, if_neg]
  · simp
  · rintro ⟨p, hp', hp2, hno⟩
    refine hno ?_
    rcases hr p hp' hp2 with h' | h'
    · simp only [List.map_append, List.mem_append, hfst]
      exact .inl (.inl h')
    · have := h3
      simp only [not_exists, not_and, not_not] at this
      have := this p h' hp2
      simp only [List.map_append, List.mem_append] at this ⊢
      tauto
  · rintro ⟨k, hk', hbad⟩
    have := h2
    simp only [not_exists, not_and, not_or, not_not] at this
    obtain ⟨hka, hkb⟩ := this k hk'
    obtain ⟨ho, hnf⟩ := hn k hka
    rcases hbad with hb | hb
    · exact hb ho
    · simp only [List.map_append, List.mem_append, hfst] at hb
      exact hb.elim hnf hkb

/-- The overrides that do not take their arguments as torch does. -/
def differing : List Fn :=
  [.f .permute, .f .unbind, .f .frexp, .f .take_along_dim, .m .take_along_dim, .f .take, .m .take, .f .select_copy, .m .scatter_reduce_]

/-- **C144 is false of the code.** Calls that torch accepts and the override refuses with TypeError: `torch.permute(input=x, dims=d)`, `torch.unbind(input=x)` (the parameter is called `tensor`), `torch.frexp(x, out=o)`, `torch.select_copy(x, d, i, out=o)` (no such parameter),
`torch.take_along_dim(x, i)` (the axis is required), `torch.take(x, index=i)` (called `indices`), and `x.permute(dims=d)`. -/
theorem C144_refused_false {V : Type} (e : Entry) (he : e ∈ entries) (x a b c : V) :
    (e.fn = .f .permute → bind e.torch [] [("input", x), ("dims", a)] = .ok [("input", x), ("dims", a)] ∧ e.call x [] [("input", x), ("dims", a)] = .error .typeError) ∧
    (e.fn = .f .unbind → bind e.torch [] [("input", x)] = .ok [("input", x)] ∧ e.call x [] [("input", x)] = .error .typeError) ∧
    (e.fn = .f .frexp → bind e.torch [x] [("out", a)] = .ok [("input", x), ("out", a)] ∧ e.call x [x] [("out", a)] = .error .typeError) ∧
    (e.fn = .f .select_copy → bind e.torch [x, a, b] [("out", c)] = .ok [("input", x), ("dim", a), ("index", b), ("out", c)] ∧
      e.call x [x, a, b] [("out", c)] = .error .typeError) ∧
    (e.fn = .f .take_along_dim → bind e.torch [x, a] [] = .ok [("input", x), ("indices", a)] ∧ e.call x [x, a] [] = .error .typeError) ∧
    (e.fn = .m .take_along_dim → bind e.torch [a] [] = .ok [("indices", a)] ∧ e.call x [a] [] = .error .typeError) ∧
    (e.fn = .f .take → bind e.torch [x] [("index", a)] = .ok [("input", x), ("index", a)] ∧ e.call x [x] [("index", a)] = .error .typeError) ∧
    (e.fn = .m .take → bind e.torch [] [("index", a)] = .ok [("index", a)] ∧ e.call x [] [("index", a)] = .error .typeError) ∧
    bind permuteSig [x] [("dims", a)] = .error .typeError := by
  refine ⟨?_, ?_, ?_, ?_, ?_, ?_, ?_, ?_, by simp [bind, permuteSig, Sig.names, req]⟩ <;> intro hf <;>
    (simp only [entries, List.mem_cons, List.not_mem_nil, or_false] at he
     rcases he with he | he | he | he | he | he | he | he | he | he | he | he | he | he | he | he | he | he | he | he | he | he | he | he | he | he | he | he | he | he | he | he | he | he | he | he | he | he | he) <;>
    subst he <;> first | (exfalso; revert hf; decide) | simp [bind, Entry.call, Sig.names, req, opt]

/-- C144, `x.permute(...)`: the override takes the axes by position, in any number, and refuses every keyword. -/
theorem C144_permute_method {V : Type} (x : V) (args : List V) (kw : List (String × V)) :
    bind permuteSig (x :: args) [] = .ok [("tensor", x)] ∧ (kw ≠ [] → bind permuteSig (x :: args) kw = .error .typeError) := by
  constructor
  · simp [bind, permuteSig, req]
  · intro h
    obtain ⟨⟨k, v⟩, kw, rfl⟩ := List.exists_cons_of_ne_nil h
    unfold bind
    simp only
    rw [if_neg (by simp [permuteSig]), if_pos]
    refine ⟨k, by simp, ?_⟩
    by_cases hk : k = "tensor"
    · right
      simp [permuteSig, req, hk]
    · left
      simp [permuteSig, req, Sig.names, hk]

example : bind permuteSig ["x", "0", "2", "1"] [] = .ok [("tensor", "x")] := (C144_permute_method "x" ["0", "2", "1"] [("dims", "d")]).1

/-- **C144 is false of the code, order.** `x.scatter_reduce_(dim, index, src, reduce)`, the order that torch documents: the override takes the third argument for the reduction and the fourth for the source. (torch then gets a tensor as reduction and refuses.) By keyword the call binds well. -/
theorem C144_order_false {V : Type} (e : Entry) (he : e ∈ entries) (hf : e.fn = .m .scatter_reduce_) (x d i s r : V) :
    bind e.torch [d, i, s, r] [] = .ok [("dim", d), ("index", i), ("src", s), ("reduce", r)] ∧
    e.call x [d, i, s, r] [] = .ok [("input", x), ("dim", d), ("index", i), ("reduce", s), ("src", r)] ∧
    e.call x [d, i] [("src", s), ("reduce", r)] = .ok [("input", x), ("dim", d), ("index", i), ("src", s), ("reduce", r)] := by
  simp only [entries, List.mem_cons, List.not_mem_nil, or_false] at he
  rcases he with he | he | he | he | he | he | he | he | he | he | he | he | he | he | he | he | he | he | he | he | he | he | he | he | he | he | he | he | he | he | he | he | he | he | he | he | he | he | he <;>
    subst he <;> first | (exfalso; revert hf; decide) | simp [bind, Entry.call, Sig.names, req, opt]

/-- **C144 is false of the code, `axis`.** torch accepts the keyword `axis` for `dim`; no override does. -/
theorem C144_axis_false {V : Type} (e : Entry) (he : e ∈ entries) (x a : V) (args : List V) (kw : List (String × V)) (ha : ("axis", a) ∈ kw) :
    e.call x args kw = .error .typeError := by
  have key : ∀ e ∈ entries, "axis" ∉ e.ov.names ∧ e.ov.star = false := by
    simp [entries, Sig.names, req, opt]
  obtain ⟨hn, hs⟩ := key e he
  have : ∀ args : List V, bind e.ov args kw = .error .typeError := by
    intro args
    unfold bind
    simp only
    split
    · rfl
    · rw [if_pos ⟨"axis", List.mem_map.2 ⟨_, ha, rfl⟩, .inl hn⟩]
  unfold Entry.call
  split <;> exact this _

/-- **C144, the part that holds.** For every other override: each call that torch accepts, with any arguments and keywords, binds, and every parameter is given the value that torch would give it; for a method the tensor itself is the first. Missing: the functions in `differing`, by the theorems above. -/
theorem C144_binds_partial {V : Type} (e : Entry) (he : e ∈ entries) (hd : e.fn ∉ differing) (x : V) (args : List V) (kw r : List (String × V))
    (h : bind e.torch args kw = .ok r) :
    e.call x args kw = .ok r ∨ (∃ o, e.fn = .m o) ∧ ∃ self, self ∉ e.torch.names ∧ e.call x args kw = .ok ((self, x) :: r) := by
  have key : ∀ e ∈ entries, e.fn ∉ differing → Compatible (match e.fn with | .m _ => 1 | _ => 0) e.torch e.ov := by
    decide +kernel
  have hc := key e he hd
  unfold Entry.call
  cases hf : e.fn with
  | m o =>
    rw [hf] at hc
    simp only at hc
    right
    refine ⟨⟨o, rfl⟩, ?_⟩
    have hb := bind_compat [x] args kw r hc h
    have h1 := hc.1
    obtain ⟨p, ps, hp⟩ : ∃ p ps, e.ov.pos = p :: ps := by
      cases hx : e.ov.pos with
      | nil => rw [hx] at h1; simp at h1
      | cons p ps => exact ⟨p, ps, rfl⟩
    refine ⟨p.1, ?_, ?_⟩
    · intro hm
      have := (hc.2.2.2.1 p.1 hm).2
      simp [hp] at this
    · simpa [hp] using hb
  | f o =>
    rw [hf] at hc
    simp only at hc
    left
    simpa using bind_compat [] args kw r hc h
  | getter n =>
    rw [hf] at hc
    simp only at hc
    left
    simpa using bind_compat [] args kw r hc h

/-- `torch.scatter_reduce(x, 1, index=i, src=s, reduce="sum")`. -/
example : ∃ e ∈ entries, e.fn = .f .scatter_reduce ∧ e.fn ∉ differing ∧
    bind e.torch [0, 1] [("index", 2), ("src", 3), ("reduce", 4)] = .ok [("input", 0), ("dim", 1), ("index", 2), ("src", 3), ("reduce", 4)] :=
  ⟨⟨.f .scatter_reduce, ⟨[req "input", req "dim", req "index", req "src", req "reduce"], false, [opt "include_self", opt "out"]⟩,
     ⟨[req "input", req "dim", req "index", req "src", req "reduce"], false, [opt "out", opt "include_self"]⟩⟩, by simp [entries, req, opt], by decide, by decide,
    by decide +kernel⟩

/-- Every override but `__getitem__`, and the two methods described separately (`permute`, `split`), is in the list. -/
example : ∀ g ∈ customizedListed, g ∈ entries.map (·.fn) ∨ g = .m .__getitem__ ∨ g = .m .permute ∨ g = .m .split := by decide +kernel

/-! ## C145: an axis may be given by name -/

section
variable {α : Type}

theorem nameAxis_unnamed (t : Ten α) (n : String) : nameAxis t.unnamed n = .error .runtimeError := by
  simp [nameAxis, Ten.unnamed]

/-- **C145 is false of the code.** Whatever the tensor and the name: `unbind`, `select`, `index_select`, `gather`, `squeeze`, `torch.transpose` and `cat` of two or more tensors refuse an axis given by name. -/
theorem C145_names_false (junk : Int) (x : STen α) (n : String) :
    unbindAx x (.name n) = .error .typeError ∧
    (∀ i, selectAx junk x i (.name n) = .error .typeError) ∧
    (∀ ix, indexSelectAx junk x ix (.name n) = .error .runtimeError) ∧
    (∀ ix, gatherAx junk x ix (.name n) = .error .runtimeError) ∧
    squeezeAx x (.name n) = .error .runtimeError ∧
    (∀ a, transposeAx x (.name n) a = .error .runtimeError) ∧
    (∀ p q qs, (∃ o ∈ p :: q :: qs, ∃ y : STen α, o = Opd.stream y) → catAx p (q :: qs) (.name n) = .error .typeError) := by
  refine ⟨rfl, fun _ => rfl, fun ix => ?_, fun ix => ?_, ?_, fun a => ?_, ?_⟩
  · simp [indexSelectAx, nameAxis_unnamed, Except.bind_error']
  · simp [gatherAx, nameAxis_unnamed, Except.bind_error']
  · simp [squeezeAx, nameAxis_unnamed, Except.bind_error']
  · cases a <;> simp [transposeAx, axisOf, nameAxis_unnamed, Except.bind_error']
  · rintro p q qs -
    simp only [catAx]
    cases streams (p :: q :: qs) with
    | nil => rfl
    | cons y ys => simp [pyGetAx, List.mapM_cons, Except.bind_error']

/-- **C145, the part that holds.** `cat` of a single tensor, and functions in no table such as `x.sum("L")`: with the name of axis `a` they do what they do with its position, in either spelling. Missing: the overrides. -/
theorem C145_names_partial (f : List α → α) (x : STen α) (n : String) (a : Nat) (hw : x.t.WF) (ha : x.t.names[a]? = some (some n))
    (kd : Bool) (o : Opd α) :
    reduceAx f x kd (.name n) = reduceStream f x a kd ∧
    reduceAx f x kd (.name n) = reduceStream f x ((a : Int) - x.t.ndim) kd ∧
    catAx o [] (.name n) = .ok o := by
  have hlt : a < x.t.names.length := by
    by_contra h
    rw [List.getElem?_eq_none (by omega)] at ha
    cases ha
  have hidx : x.t.names.idxOf (some n) = a := (names_idxOf hw ha).2
  have hna : nameAxis x.t n = .ok a := by
    unfold nameAxis
    rw [if_pos (List.mem_of_getElem? ha), hidx]
  have h1 : reduceAx f x kd (.name n) = reduceStream f x a kd := by
    simp [reduceAx, axisOf, hna, Except.bind_ok']
  refine ⟨h1, ?_, rfl⟩
  rw [h1]
  have hl : a < x.t.ndim := by
    unfold Ten.ndim
    rw [← hw.1]; exact hlt
  have e1 : normDim x.t.ndim (a : Int) = .ok a := by
    unfold normDim
    rw [if_pos (by omega)]
    simp
  have e2 : normDim x.t.ndim ((a : Int) - x.t.ndim) = .ok a := by
    unfold normDim
    rw [if_neg (by omega), if_pos (by omega)]
    simp
  simp only [reduceStream, reduceTen, e1, e2]

/-- The sum over length of a `(B, L)` tensor, by name. -/
example : exBL.WF ∧ exBL.names[1]? = some (some "L") ∧
    (reduceAx (fun xs => xs.flatten) ⟨exBL, exM2⟩ false (.name "L")).toOption.map (fun y => (y.t.names, y.t.shape)) = some ([some "B"], [2]) := by
  refine ⟨by decide +kernel, by decide +kernel, by decide +kernel⟩

/-! ## C146: several axes may be given as one tuple -/

/-- **C146 is false of the code.** No call of the methods `permute` and `squeeze` with a tuple of axes succeeds, whatever the tensor and the axes. When torch accepts the axes, TypeError. -/
theorem C146_tuple_false (x : STen α) (dims : List Int) :
    (∀ y, permuteTuple x dims ≠ .ok y) ∧ (∀ y, squeezeTuple x dims ≠ .ok y) ∧
    ((∃ t, x.t.unnamed.permute dims = .ok t) → permuteTuple x dims = .error .typeError) ∧
    ((∃ ds : List Nat, dims.mapM (normDim x.t.ndim) = .ok ds ∧ ds.Nodup) → squeezeTuple x dims = .error .typeError) := by
  refine ⟨fun y h => ?_, fun y h => ?_, ?_, ?_⟩
  · unfold permuteTuple at h
    cases hp : x.t.unnamed.permute dims <;> simp [hp, Except.bind_error', Except.bind_ok'] at h
  · unfold squeezeTuple at h
    cases hp : dims.mapM (normDim x.t.ndim) with
    | error e => simp [hp, Except.bind_error'] at h
    | ok ds =>
      simp only [hp, Except.bind_ok'] at h
      split at h <;> cases h
  · rintro ⟨t, ht⟩
    simp [permuteTuple, ht, Except.bind_ok']
  · rintro ⟨ds, hd, hn⟩
    simp [squeezeTuple, hd, hn, Except.bind_ok']

/-- **C146, the part that holds.** `torch.permute(x, dims)` with a tuple is what `x.permute(*dims)` is (C34): `permute` binds the tuple to `dims`. Missing: the methods. -/
theorem C146_tuple_partial {V : Type} (x d : V) : ∃ e ∈ entries, e.fn = .f .permute ∧ e.call x [x, d] [] = .ok [("tensor", x), ("dims", d)] := by
  refine ⟨⟨.f .permute, ⟨[req "input", req "dims"], false, []⟩, ⟨[req "tensor", req "dims"], false, []⟩⟩, by simp [entries, req, opt], rfl, ?_⟩
  simp [bind, Entry.call, Sig.names, req]

example : exBL.unnamed.permute [1, 0] |>.isOk := by decide +kernel

end

end DS.Call
