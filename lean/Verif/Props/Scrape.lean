import Verif.Model.Scrape
import Verif.Lemmas.Tensor
/-! # C183, C184: the lists of pointwise functions -/

namespace DS.Scrape

/-- How a function is spelled in the lists. -/
def spell : Attr → Txt
  | .torch n => n
  | .tensor n => ['T', 'e', 'n', 's', 'o', 'r', '.'] ++ n

/-- The name of an attribute. -/
def Attr.name : Attr → Txt
  | .torch n => n
  | .tensor n => n

/-- Attributes are named by identifiers: no dots, no line breaks (and no empty names). -/
def Identifiers (has : Attr → Bool) : Prop := ∀ a, has a = true → a.name ≠ [] ∧ '.' ∉ a.name ∧ '\n' ∉ a.name

theorem split_join (ns : List Txt) (hne : ns ≠ []) (h : ∀ n ∈ ns, '\n' ∉ n) : splitLines (joinLines ns) = ns := by
  have one : ∀ (a : Txt), '\n' ∉ a → splitLines a = [a] := by
    intro a ha
    induction a with
    | nil => rfl
    | cons c cs ih =>
      simp only [List.mem_cons, not_or] at ha
      rw [splitLines, if_neg (fun e => ha.1 e.symm), ih ha.2]
  have two : ∀ (a r : Txt), '\n' ∉ a → splitLines (a ++ '\n' :: r) = a :: splitLines r := by
    intro a r ha
    induction a with
    | nil => rw [List.nil_append, splitLines, if_pos rfl]
    | cons c cs ih =>
      simp only [List.mem_cons, not_or] at ha
      rw [List.cons_append, splitLines, if_neg (fun e => ha.1 e.symm), ih ha.2]
  induction ns with
  | nil => exact absurd rfl hne
  | cons a r ih =>
    cases r with
    | nil => exact one a (h a (by simp))
    | cons b r =>
      rw [joinLines, two a _ (h a (by simp)), ih (by simp) (fun n hn => h n (by simp [hn]))]

theorem prefix_dot {n : Txt} (h : '.' ∉ n) : prefixTensor.isPrefixOf n = false := by
  rw [Bool.eq_false_iff]
  intro hp
  rw [List.isPrefixOf_iff_prefix] at hp
  exact h (hp.subset (by simp [prefixTensor]))

theorem remove_id {n : Txt} (h : '.' ∉ n) : removeTensor 0 n = n := by
  induction n with
  | nil => rfl
  | cons c cs ih =>
    rw [removeTensor, if_neg (by rw [prefix_dot h]; simp), ih (fun hm => h (by simp [hm]))]

theorem attr_spell (has : Attr → Bool) (hid : Identifiers has) (a : Attr) (ha : has a = true) : getTensorAttr has (spell a) = .ok a := by
  obtain ⟨-, h2, -⟩ := hid a ha
  cases a with
  | torch n =>
    have hp : prefixTensor.isPrefixOf n = false := prefix_dot h2
    show getTensorAttr has n = _
    simp only [getTensorAttr, hp, Bool.false_eq_true, if_false, ha, if_true]
  | tensor n =>
    have e : spell (.tensor n) = prefixTensor ++ n := rfl
    have hp : prefixTensor.isPrefixOf (prefixTensor ++ n) = true := by rw [List.isPrefixOf_iff_prefix]; exact List.prefix_append _ _
    have hr : removeTensor 0 (prefixTensor ++ n) = n := by
      have : removeTensor 0 (prefixTensor ++ n) = removeTensor 6 (prefixTensor.tail ++ n) := by
        conv_lhs => rw [show prefixTensor ++ n = 'T' :: (prefixTensor.tail ++ n) from rfl, removeTensor]
        exact if_pos hp
      rw [this]
      exact remove_id h2
    rw [e]
    simp only [getTensorAttr, hp, if_true, hr, ha]

theorem names_spell (has : Attr → Bool) (docs : List Txt) (n : Txt) (h : n ∈ funcNames has docs) : ∃ a, has a = true ∧ n = spell a := by
  unfold funcNames at h
  rw [List.mem_flatMap] at h
  obtain ⟨d, -, h⟩ := h
  simp only [List.mem_append] at h
  rcases h with ((h | h) | h) | h
  · split at h
    · rename_i hh
      exact ⟨_, hh, by simpa [spell] using h⟩
    · simp at h
  · split at h
    · rename_i hh
      exact ⟨_, hh, by simpa [spell, prefixTensor] using h⟩
    · simp at h
  · split at h
    · rename_i hh
      exact ⟨_, hh, by simpa [spell] using h⟩
    · simp at h
  · split at h
    · rename_i hh
      exact ⟨_, hh, by simpa [spell, prefixTensor] using h⟩
    · simp at h

/-- **C183 is false of the code.** If the script finds no function for one of the lists, an empty file is written, and importing the package raises AttributeError: the file is read as one line, the name of which is
empty. Without a file (a package that was installed without `doc_scrape`) IndexError is raised. -/
theorem C183_empty_false (has : Attr → Bool) (hid : Identifiers has) (probe : Txt → Probe) (docs : List Txt) (v : Verdict) (h : listOf has probe docs v = []) :
    load has [written has probe docs v] = .error .attributeError ∧ load has [] = .error .indexError := by
  refine ⟨?_, rfl⟩
  unfold load written
  rw [h]
  simp only [joinLines, splitLines, List.mapM_cons]
  have : has (.torch []) = false := by
    rw [Bool.eq_false_iff]
    intro hh
    exact (hid _ hh).1 rfl
  have e : getTensorAttr has [] = .error .attributeError := by
    simp only [getTensorAttr]
    have hf : (if prefixTensor.isPrefixOf [] = true then Attr.tensor (removeTensor 0 []) else Attr.torch []) = .torch [] := rfl
    rw [hf, this]
    rfl
  rw [e]
  rfl

/-- Torch with one function, `abs`, that works in place and out of place. -/
def exHas (a : Attr) : Bool := [.torch "abs".toList, .tensor "abs".toList, .torch "abs_".toList, .tensor "abs_".toList].contains a

/-- No function of this torch needs `recouple`. -/
example : Identifiers exHas ∧ listOf exHas (fun _ => ⟨true, true, true⟩) ["abs".toList] .recouple = [] ∧
    load exHas [written exHas (fun _ => ⟨true, true, true⟩) ["abs".toList] .valid] = .ok [.torch "abs_".toList, .tensor "abs_".toList] := by
  refine ⟨?_, by decide +kernel, by rfl⟩
  intro a ha
  simp only [exHas, List.contains_eq_mem, decide_eq_true_eq, List.mem_cons, List.not_mem_nil, or_false] at ha
  rcases ha with rfl | rfl | rfl | rfl <;> decide

/-- **C183, the part that holds.** A list with functions is read back as exactly the functions that the script has put in, in order, whatever further files there are. Missing: empty lists. -/
theorem C183_lists_partial (has : Attr → Bool) (hid : Identifiers has) (probe : Txt → Probe) (docs : List Txt) (v : Verdict) (h : listOf has probe docs v ≠ []) (more : List Txt) :
    ∃ fs, load has (written has probe docs v :: more) = .ok fs ∧ fs.map spell = listOf has probe docs v ∧ ∀ f ∈ fs, has f = true := by
  have hsp : ∀ n ∈ listOf has probe docs v, ∃ a, has a = true ∧ n = spell a := fun n hn => names_spell has docs n (List.mem_filter.1 hn).1
  unfold load written
  simp only
  rw [split_join _ h]
  · generalize listOf has probe docs v = ns at hsp
    clear h
    induction ns with
    | nil => exact ⟨[], rfl, rfl, by simp⟩
    | cons n ns ih =>
      obtain ⟨fs, e1, e2, e3⟩ := ih (fun m hm => hsp m (by simp [hm]))
      obtain ⟨a, ha, rfl⟩ := hsp n (by simp)
      refine ⟨a :: fs, ?_, by simp [e2], ?_⟩
      · rw [List.mapM_cons, attr_spell has hid a ha, Except.bind_ok', e1]
        rfl
      · intro f hf
        rcases List.mem_cons.1 hf with rfl | hf
        · exact ha
        · exact e3 f hf
  · intro n hn hnl
    obtain ⟨a, ha, rfl⟩ := hsp n hn
    have := (hid a ha).2.2
    cases a with
    | torch n => exact this hnl
    | tensor n =>
      simp only [spell, List.mem_append] at hnl
      rcases hnl with hnl | hnl
      · revert hnl; decide
      · exact this hnl

/-- **C184.** However the trials end: every name that is tried and not left out is in exactly one list; the two lists for in-place functions hold names that end with an underscore, the two others names that do not; only
functions that gave the expected result are in them. -/
theorem C184_partition (has : Attr → Bool) (probe : Txt → Probe) (docs : List Txt) (n : Txt) (hn : n ∈ funcNames has docs) :
    (skipped n = true → ∀ v, n ∉ listOf has probe docs v) ∧ (skipped n = false → ∃ v, n ∈ listOf has probe docs v ∧ ∀ w, n ∈ listOf has probe docs w → w = v) ∧
    (∀ v, n ∈ listOf has probe docs v →
      ((v = .valid ∨ v = .inplaceRecouple) → ∃ m, n = m ++ ['_']) ∧ ((v = .defaultValid ∨ v = .recouple) → ¬ ∃ m, n = m ++ ['_']) ∧
      ((v = .valid ∨ v = .defaultValid) → (probe n).accepts = true ∧ (probe n).direct = true) ∧
      ((v = .recouple ∨ v = .inplaceRecouple) → (probe n).accepts = true ∧ (probe n).recoupled = true)) := by
  have mem : ∀ v, n ∈ listOf has probe docs v ↔ skipped n = false ∧ verdict n (probe n) = v := by
    intro v
    unfold listOf
    rw [List.mem_filter]
    simp [hn]
  refine ⟨?_, ?_, ?_⟩
  · intro hs v hv
    rw [mem] at hv
    rw [hs] at hv
    simp at hv
  · intro hs
    refine ⟨verdict n (probe n), (mem _).2 ⟨hs, rfl⟩, ?_⟩
    intro w hw
    exact ((mem w).1 hw).2.symm
  · intro v hv
    obtain ⟨-, hv⟩ := (mem v).1 hv
    have hend : endsWith n ['_'] = true ↔ ∃ m, n = m ++ ['_'] := by
      unfold endsWith
      rw [List.isSuffixOf_iff_suffix]
      constructor
      · rintro ⟨m, hm⟩
        exact ⟨m, hm.symm⟩
      · rintro ⟨m, hm⟩
        exact ⟨m, hm.symm⟩
    rw [← hend]
    unfold verdict at hv
    subst hv
    cases (probe n).accepts <;> cases (probe n).direct <;> cases (probe n).recoupled <;> cases endsWith n ['_'] <;> simp

theorem contains_iff (sub t : Txt) : contains sub t = true ↔ sub <:+: t := by
  induction t with
  | nil => simp [contains, List.isPrefixOf_iff_prefix]
  | cons c cs ih => simp only [contains, Bool.or_eq_true, ih, List.isPrefixOf_iff_prefix, List.infix_cons_iff]

/-- C184: the names that are left out are those that contain `quantize` and those that end with `real`, `imag`, `frexp` or `gradient`. -/
theorem C184_skipped (n : Txt) :
    skipped n = true ↔ "quantize".toList <:+: n ∨ "real".toList <:+ n ∨ "imag".toList <:+ n ∨ "frexp".toList <:+ n ∨ "gradient".toList <:+ n := by
  simp only [skipped, endsWith, Bool.or_eq_true, contains_iff, List.isSuffixOf_iff_suffix, or_assoc]

example : skipped "Tensor.frexp".toList = true ∧ skipped "fake_quantize_per_tensor_affine".toList = true ∧ skipped "abs_".toList = false := by decide +kernel

example : "Tensor.abs_".toList ∈ funcNames exHas ["abs".toList] ∧ "abs".toList ∈ listOf exHas (fun _ => ⟨true, false, true⟩) ["abs".toList] .recouple ∧
    "abs_".toList ∈ listOf exHas (fun _ => ⟨true, false, true⟩) ["abs".toList] .inplaceRecouple := by decide +kernel

end DS.Scrape
