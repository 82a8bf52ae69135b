import Verif.Model.Construct
import Verif.Props.Axes
/-!
# C117–C121: constructing StreamTensors and metadata, transposing, nested structures, random StreamTensors
-/

namespace DS.Tn

section
variable {α : Type}

theorem refineAll_unnamed (s : List Nat) : ∀ (ns : List (Option String)), ns.length = s.length → refineAll (s.map fun _ => none) ns = .ok ns := by
  induction s with
  | nil => intro ns h; rw [List.length_eq_zero_iff.1 h]; rfl
  | cons a s ih =>
    intro ns h
    cases ns with
    | nil => simp at h
    | cons n ns =>
      simp only [List.map_cons, refineAll, refineName, Except.bind_ok']
      rw [ih ns (by simpa using h)]
      rfl

theorem refineAll_self : ∀ ns : List (Option String), refineAll ns ns = .ok ns
  | [] => rfl
  | n :: ns => by
    have h : refineName n n = .ok n := by cases n <;> simp [refineName]
    simp only [refineAll, h, refineAll_self ns, Except.bind_ok']

theorem refineAll_ok : ∀ (as bs cs : List (Option String)), refineAll as bs = .ok cs → cs = bs ∧ as.length = bs.length ∧ ∀ (k : Nat) (a : String), as[k]? = some (some a) → bs[k]? = some (some a)
  | [], [], cs => by intro h; simp only [refineAll, Except.ok.injEq] at h; simp [← h]
  | [], b :: bs, cs => by intro h; simp [refineAll] at h
  | a :: as, [], cs => by intro h; simp [refineAll] at h
  | a :: as, b :: bs, cs => by
    intro h
    simp only [refineAll] at h
    obtain ⟨c, h1, h'⟩ := ok_of_bind h
    obtain ⟨ds, h2, h''⟩ := ok_of_bind h'
    simp only [Except.ok.injEq] at h''
    obtain ⟨rfl, h3, h4⟩ := refineAll_ok as bs ds h2
    have hc : c = b ∧ ∀ n, a = some n → b = some n := by
      cases a with
      | none => simp only [refineName, Except.ok.injEq] at h1; simp [h1]
      | some n =>
        simp only [refineName] at h1
        split at h1
        · rename_i hb
          simp only [Except.ok.injEq] at h1
          simp [← h1, hb]
        · simp at h1
    refine ⟨by rw [← h'', hc.1], by simp [h3], ?_⟩
    intro k n hk
    cases k with
    | zero =>
      simp only [List.getElem?_cons_zero, Option.some.injEq] at hk ⊢
      exact hc.2 n hk
    | succ k =>
      simp only [List.getElem?_cons_succ] at hk ⊢
      exact h4 k n hk

theorem refineAll_error : ∀ (as bs : List (Option String)) (e : PyErr), refineAll as bs = .error e → e = .runtimeError := by
  intro as bs e hr
  induction as generalizing bs with
  | nil => cases bs <;> simp [refineAll] at hr; exact hr.symm
  | cons a as ih =>
    cases bs with
    | nil => simp [refineAll] at hr; exact hr.symm
    | cons b bs =>
      simp only [refineAll] at hr
      cases h1 : refineName a b with
      | error e' =>
        rw [h1, Except.bind_error'] at hr
        simp only [Except.error.injEq] at hr
        subst hr
        cases a with
        | none => simp [refineName] at h1
        | some a =>
          simp only [refineName] at h1
          split at h1
          · simp at h1
          · simpa using h1.symm
      | ok c =>
        rw [h1, Except.bind_ok'] at hr
        cases h2 : refineAll as bs with
        | error e' =>
          rw [h2, Except.bind_error'] at hr
          simp only [Except.error.injEq] at hr
          subst hr
          exact ih bs h2
        | ok cs =>
          rw [h2, Except.bind_ok'] at hr
          simp at hr

theorem refineAll_refuses : ∀ (as bs : List (Option String)), (as.length ≠ bs.length ∨ ∃ (k : Nat) (a : String), as[k]? = some (some a) ∧ bs[k]? ≠ some (some a)) → refineAll as bs = .error .runtimeError := by
  intro as bs h
  cases hr : refineAll as bs with
  | ok cs =>
    obtain ⟨-, h1, h2⟩ := refineAll_ok as bs cs hr
    rcases h with h | ⟨k, a, h3, h4⟩
    · exact absurd h1 h
    · exact absurd (h2 k a h3) h4
  | error e => rw [refineAll_error as bs e hr]

/-- **C117.** What `decouple` takes apart, `as_stream_tensor` and `stream_tensor` put together again: data, names and metadata are the old ones, with or without names on the data; a StreamTensor
is returned as it is. -/
theorem C117_rebuild (x : STen α) (hx : x.t.WF) :
    asStream (.plain (decouple x false).1) (some (decouple x false).2.1) (some (decouple x false).2.2) = .ok x ∧
    asStream (.plain (decouple x true).1) (some (decouple x true).2.1) none = .ok x ∧
    asStream (.plain (decouple x true).1) (some (decouple x true).2.1) (some (decouple x true).2.2) = .ok x ∧
    asStream (.stream x) none none = .ok x ∧ asStream (.stream x) none (some x.t.names) = .ok x ∧
    streamTensor (.plain (decouple x false).1) (decouple x false).2.1 (decouple x false).2.2 = .ok x := by
  have hok := (namesOK_iff x.t.names).2 hx.2
  refine ⟨?_, rfl, ?_, rfl, ?_, ?_⟩
  · simp only [asStream, decouple, Opd.ten, Ten.refineNamed, Bool.false_eq_true, if_false]
    rw [show x.t.unnamed.names = x.t.shape.map fun _ => none from rfl, refineAll_unnamed _ _ hx.1]
    simp only [Except.bind_ok', hok, if_true]
    rfl
  · simp only [asStream, decouple, Opd.ten, Ten.refineNamed, if_true]
    rw [refineAll_self]
    simp only [Except.bind_ok', hok, if_true]
  · simp only [asStream, Opd.ten, Ten.refineNamed]
    rw [refineAll_self]
    simp only [Except.bind_ok', hok, if_true, Opd.md]
  · simp only [streamTensor, decouple, Opd.ten, Bool.false_eq_true, if_false]
    rw [rename_ok _ _ (by simpa [Ten.ndim, Ten.unnamed] using hx.1) hx.2]
    rfl

/-- **C117.** `as_stream_tensor` with names gives the data exactly these names, changes nothing else and never renames an axis that has a name; it raises RuntimeError if an axis has another name (or the number of names is
wrong). -/
theorem C117_names (d : Opd α) (m : Meta) (ns : List (Option String)) :
    (∀ y, asStream d (some m) (some ns) = .ok y → y.t.shape = d.ten.shape ∧ y.t.val = d.ten.val ∧ y.t.names = ns ∧ y.md = m ∧
      ∀ (k : Nat) (a : String), d.ten.names[k]? = some (some a) → y.t.names[k]? = some (some a)) ∧
    ((d.ten.names.length ≠ ns.length ∨ ∃ (k : Nat) (a : String), d.ten.names[k]? = some (some a) ∧ ns[k]? ≠ some (some a)) → asStream d (some m) (some ns) = .error .runtimeError) := by
  constructor
  · intro y h
    simp only [asStream, Ten.refineNamed] at h
    cases h1 : refineAll d.ten.names ns with
    | error e => rw [h1] at h; simp [Except.bind_error'] at h
    | ok cs =>
      obtain ⟨rfl, -, h3⟩ := refineAll_ok _ _ _ h1
      rw [h1] at h
      simp only [Except.bind_ok'] at h
      cases hc : namesOK cs with
      | false => rw [hc] at h; simp [Except.bind_error'] at h
      | true =>
        rw [hc] at h
        simp only [if_true, Except.bind_ok', Except.ok.injEq] at h
        subst h
        exact ⟨rfl, rfl, rfl, rfl, h3⟩
  · intro h
    simp only [asStream, Ten.refineNamed]
    rw [refineAll_refuses _ _ h]
    rfl

/-- **C117.** Names that occur twice or are empty are refused as well (RuntimeError). -/
theorem C117_invalid_names (d : Opd α) (m : Option Meta) (ns : List (Option String)) (h : ¬ (ns.filterMap id).Nodup ∨ some "" ∈ ns) :
    asStream d m (some ns) = .error .runtimeError := by
  simp only [asStream, Ten.refineNamed]
  cases h1 : refineAll d.ten.names ns with
  | error e =>
    rw [refineAll_error _ _ _ h1]
    rfl
  | ok cs =>
    obtain ⟨rfl, -, -⟩ := refineAll_ok _ _ _ h1
    have hc : namesOK cs = false := by
      unfold namesOK
      rcases h with h | h
      · rw [decide_eq_false h]
        rfl
      · simp [h]
    simp only [Except.bind_ok', hc]
    rfl

example : asStream (.plain (⟨[2, 3], [none, some "L"], fun _ => 0⟩ : Ten Nat)) none (some [some "L", some "L"]) = .error .runtimeError :=
  C117_invalid_names _ _ _ (.inl (by decide))

/-- **C117.** Plain data without metadata are refused (AttributeError). -/
theorem C117_no_metadata (t : Ten α) : asStream (.plain t) none none = .error .attributeError := rfl

/-- A batch of two sequences with two features and three frames. -/
def exX : STen Nat := ⟨⟨[2, 2, 3], [some "B", some "F", some "L"], fun ix => ix.getD 0 0 * 100 + ix.getD 1 0 * 10 + ix.getD 2 0⟩, ⟨["a", "b"], [true, false], [false, true], [3, 2], none⟩⟩

example : exX.t.WF := by decide
example : (asStream (.plain exX.t) (some exX.md) (some [some "B", some "G", some "L"])).toOption.isNone := rfl

/-- **C118.** `x.T` reverses the axes together with their names, keeps metadata and data, and is its own inverse. -/
theorem C118_T (x : STen α) (hx : x.t.WF) :
    ∃ y, x.T = .ok y ∧ y.md = x.md ∧ y.t.names = x.t.names.reverse ∧ y.t.shape = x.t.shape.reverse ∧
      (∀ ix : List Nat, ix.length = x.t.ndim → y.t.val ix.reverse = x.t.val ix) ∧
      ∃ z, y.T = .ok z ∧ z.md = x.md ∧ z.t.names = x.t.names ∧ z.t.shape = x.t.shape ∧ ∀ ix : List Nat, ix.length = x.t.ndim → z.t.val ix = x.t.val ix := by
  have key : ∀ w : STen α, w.t.WF → ∃ y, w.T = .ok y ∧ y.md = w.md ∧ y.t.names = w.t.names.reverse ∧ y.t.shape = w.t.shape.reverse ∧
      ∀ ix : List Nat, ix.length = w.t.ndim → y.t.val ix.reverse = w.t.val ix := by
    intro w hw
    have hpos : ∀ (n : Nat) (l : List Nat), (∀ a ∈ l, a < n) → positions n (l.map fun (k : Nat) => (k : Int)) = some l := by
      intro n l
      induction l with
      | nil => intro _; rfl
      | cons a l ih =>
        intro h
        have h1 := posOf_nat n a (h a (by simp))
        have h2 := ih fun b hb => h b (by simp [hb])
        have hp : positions n (((a :: l).map fun (k : Nat) => (k : Int))) = match posOf n (a : Int), positions n (l.map fun (k : Nat) => (k : Int)) with
          | some k, some ks => some (k :: ks)
          | _, _ => none := rfl
        rw [hp, h1, h2]
    obtain ⟨y, h1, h2, h3, h4, h5, h6⟩ := C34_permute w hw _ (List.range w.t.ndim).reverse (hpos w.t.ndim _ (by simp)) (List.reverse_perm _)
    have hget : ∀ j : Nat, j < w.t.ndim → (List.range w.t.ndim).reverse[j]? = some (w.t.ndim - 1 - j) := by
      intro j hj
      rw [List.getElem?_reverse (by simpa using hj), List.getElem?_range (by simp; omega)]
      simp
    refine ⟨y, h1, h2, ?_, ?_, ?_⟩
    · refine List.ext_getElem? fun j => ?_
      by_cases hj : j < w.t.ndim
      · rw [(h5 j _ (hget j hj)).1, List.getElem?_reverse (by rw [hw.1]; exact hj), hw.1]
        rfl
      · rw [List.getElem?_eq_none (by omega), List.getElem?_eq_none (by rw [List.length_reverse, hw.1]; unfold Ten.ndim at hj; omega)]
    · refine List.ext_getElem? fun j => ?_
      by_cases hj : j < w.t.ndim
      · rw [(h5 j _ (hget j hj)).2, List.getElem?_reverse hj]
        rfl
      · rw [List.getElem?_eq_none (by omega), List.getElem?_eq_none (by rw [List.length_reverse]; unfold Ten.ndim at hj; omega)]
    · intro ix hix
      rw [← h6 ix hix]
      congr 1
      rw [List.map_reverse]
      congr 1
      refine List.ext_getElem (by simp [hix]) fun j h7 h8 => ?_
      simp [List.getD_eq_getElem?_getD, h7]
  obtain ⟨y, h1, h2, h3, h4, h5⟩ := key x hx
  have hy : y.t.WF := by
    refine ⟨by rw [h3, h4]; simp [hx.1], ?_⟩
    rw [h3]
    exact okNames_perm (List.reverse_perm _) hx.2
  obtain ⟨z, g1, g2, g3, g4, g5⟩ := key y hy
  refine ⟨y, h1, h2, h3, h4, h5, z, g1, by rw [g2, h2], by rw [g3, h3, List.reverse_reverse], by rw [g4, h4, List.reverse_reverse], ?_⟩
  intro ix hix
  have hn : y.t.ndim = x.t.ndim := by unfold Ten.ndim; rw [h4]; simp
  have := g5 ix.reverse (by rw [hn]; simpa using hix)
  rw [List.reverse_reverse] at this
  rw [this, h5 ix hix]

/-- **C118.** The metadata describe the transposed data. -/
theorem C118_describes (x : STen α) (b l : Nat) (h : x.Describes b l) : ∃ y, x.T = .ok y ∧ y.Describes (x.t.ndim - 1 - b) (x.t.ndim - 1 - l) := by
  obtain ⟨y, h1, h2, h3, h4, -⟩ := C118_T x h.wf
  obtain ⟨w, hw, hf⟩ := h.fits
  have hb : b < x.t.shape.length := (List.getElem?_eq_some_iff.1 h.rows).1
  have hl : l < x.t.shape.length := (List.getElem?_eq_some_iff.1 hw).1
  have hn := h.wf.1
  have rev : ∀ {β : Type} (xs : List β) (k : Nat), xs.length = x.t.ndim → k < x.t.ndim → xs.reverse[x.t.ndim - 1 - k]? = xs[k]? := by
    intro β xs k hx hk
    rw [List.getElem?_reverse (by omega), hx]
    congr 1
    omega
  refine ⟨y, h1, ?_, ?_, ?_, ?_, ?_, ?_⟩
  · refine ⟨by rw [h3, h4]; simp [hn], ?_⟩
    rw [h3]
    exact okNames_perm (List.reverse_perm _) h.wf.2
  · rw [h3, rev _ _ hn hb]; exact h.batch
  · rw [h3, rev _ _ hn hl]; exact h.length
  · rw [h2]; exact h.mdwf
  · rw [h2, h4, rev _ _ rfl hb]; exact h.rows
  · refine ⟨w, ?_, by rw [h2]; exact hf⟩
    rw [h4, rev _ _ rfl hl]; exact hw

example : (exX.T.map fun y => (y.t.names, y.t.shape, y.t.val [2, 1, 0], exX.t.val [0, 1, 2])) = .ok ([some "L", some "F", some "B"], [3, 2, 2], 12, 12) := by decide

/-! ## Nested structures -/

mutual
/-- The innermost objects from left to right. -/
def leaves : Obj α → List (Obj α)
  | .seq _ xs => leavesAll xs
  | .map _ _ xs => leavesAll xs
  | .set xs => leavesAll xs
  | x => [x]
/-- Of all objects of a list. -/
def leavesAll : List (Obj α) → List (Obj α)
  | [] => []
  | x :: xs => leaves x ++ leavesAll xs
end

mutual
/-- The structure without its contents. -/
def skeleton : Obj α → Obj Unit
  | .seq k xs => .seq k (skeletons xs)
  | .map k ks xs => .map k ks (skeletons xs)
  | .set xs => .set (skeletons xs)
  | _ => .atom
/-- Of all objects of a list. -/
def skeletons : List (Obj α) → List (Obj Unit)
  | [] => []
  | x :: xs => skeleton x :: skeletons xs
end

mutual
/-- Only lists, tuples and dicts as containers. -/
def Ordinary : Obj α → Prop
  | .seq k xs => k ≠ .namedtuple ∧ OrdinaryAll xs
  | .map k _ xs => k = .dict ∧ OrdinaryAll xs
  | .set _ => False
  | _ => True
/-- All objects of a list. -/
def OrdinaryAll : List (Obj α) → Prop
  | [] => True
  | x :: xs => Ordinary x ∧ OrdinaryAll xs
end

/-- A leaf without names and metadata. -/
def bareLeaf : Obj α → Obj α
  | .stream x => .ten x.t.unnamed
  | x => x

/-- Metadata and names of a leaf. -/
def leafMeta : Obj α → Option (Meta × List (Option String))
  | .stream x => some (x.md, x.t.names)
  | _ => none

mutual
theorem decoupleRec_spec : ∀ x : Obj α, Ordinary x → ∃ y ms, decoupleRec x = .ok (y, ms) ∧ leaves y = (leaves x).map bareLeaf ∧ skeleton y = skeleton x ∧ ms = (leaves x).filterMap leafMeta
  | .stream x, _ => ⟨_, _, rfl, rfl, rfl, rfl⟩
  | .ten t, _ => ⟨_, _, rfl, rfl, rfl, rfl⟩
  | .str s, _ => ⟨_, _, rfl, rfl, rfl, rfl⟩
  | .atom, _ => ⟨_, _, rfl, rfl, rfl, rfl⟩
  | .set xs, h => absurd h (by simp [Ordinary])
  | .map .defaultdict ks xs, h => absurd h (by simp [Ordinary])
  | .map .dict ks xs, h => by
    obtain ⟨ys, ms, h1, h2, h3, h4⟩ := decoupleRecs_spec xs (by simpa [Ordinary] using h)
    refine ⟨.map .dict ks ys, ms, ?_, ?_, ?_, ?_⟩
    · rw [decoupleRec, h1, Except.bind_ok']
    · simpa only [leaves] using h2
    · simp only [skeleton, h3]
    · simpa only [leaves] using h4
  | .seq .namedtuple xs, h => absurd h (by simp [Ordinary])
  | .seq .list xs, h => by
    obtain ⟨ys, ms, h1, h2, h3, h4⟩ := decoupleRecs_spec xs (by simpa [Ordinary] using h)
    refine ⟨.seq .list ys, ms, ?_, ?_, ?_, ?_⟩
    · simp only [decoupleRec, h1, Except.bind_ok']
    · simpa only [leaves] using h2
    · simp only [skeleton, h3]
    · simpa only [leaves] using h4
  | .seq .tuple xs, h => by
    obtain ⟨ys, ms, h1, h2, h3, h4⟩ := decoupleRecs_spec xs (by simpa [Ordinary] using h)
    refine ⟨.seq .tuple ys, ms, ?_, ?_, ?_, ?_⟩
    · simp only [decoupleRec, h1, Except.bind_ok']
    · simpa only [leaves] using h2
    · simp only [skeleton, h3]
    · simpa only [leaves] using h4

theorem decoupleRecs_spec : ∀ xs : List (Obj α), OrdinaryAll xs →
    ∃ ys ms, decoupleRecs xs = .ok (ys, ms) ∧ leavesAll ys = (leavesAll xs).map bareLeaf ∧ skeletons ys = skeletons xs ∧ ms = (leavesAll xs).filterMap leafMeta
  | [], _ => ⟨[], [], rfl, rfl, rfl, rfl⟩
  | x :: xs, h => by
    have h' : Ordinary x ∧ OrdinaryAll xs := by simpa [OrdinaryAll] using h
    obtain ⟨y, m, h1, h2, h3, h4⟩ := decoupleRec_spec x h'.1
    obtain ⟨ys, ms, g1, g2, g3, g4⟩ := decoupleRecs_spec xs h'.2
    refine ⟨y :: ys, m ++ ms, ?_, ?_, ?_, ?_⟩
    · simp only [decoupleRecs, h1, g1, Except.bind_ok']
    · simp only [leavesAll, h2, g2, List.map_append]
    · simp only [skeletons, h3, g3]
    · simp only [leavesAll, h4, g4, List.filterMap_append]
end

/-- **C119, what holds.** In a nesting of lists, tuples and dicts of any depth every StreamTensor is replaced by its plain data and everything else stays; metadata and names are collected from left to right. Missing: other
containers (see `C119_nested_false`). -/
theorem C119_nested_partial (x : Obj α) (hx : Ordinary x) :
    ∃ y ms, decoupleRec x = .ok (y, ms) ∧ skeleton y = skeleton x ∧ leaves y = (leaves x).map bareLeaf ∧ ms = (leaves x).filterMap leafMeta ∧ ∀ z, Obj.stream z ∉ leaves y := by
  obtain ⟨y, ms, h1, h2, h3, h4⟩ := decoupleRec_spec x hx
  refine ⟨y, ms, h1, h3, h2, h4, ?_⟩
  intro z hz
  rw [h2, List.mem_map] at hz
  obtain ⟨w, -, hw⟩ := hz
  cases w <;> simp [bareLeaf] at hw

/-- **C119 is false of the code.** A named tuple of two tensors and a `defaultdict` raise TypeError, a named tuple with one field loses its content (the field becomes a generator), and StreamTensors in other containers
stay. -/
theorem C119_nested_false : decoupleRec (.seq .namedtuple [.stream exX, .atom]) = .error .typeError ∧ decoupleRec (.map .defaultdict ["k"] [.stream exX]) = .error .typeError ∧
    decoupleRec (.seq .namedtuple [.stream exX]) = .ok (.seq .namedtuple [.atom], []) ∧ decoupleRec (.set [.stream exX]) = .ok (.set [.stream exX], []) :=
  ⟨rfl, rfl, rfl, rfl⟩

/-- A tuple with a dict and a list inside. -/
example : Ordinary (.seq .tuple [.stream exX, .map .dict ["k", "l"] [.atom, .seq .list [.stream exX, .str "s"]]]) := by simp [Ordinary, OrdinaryAll]

/-! ## Random StreamTensors -/

/-- **C120.** A random StreamTensor has metadata that describe it, with distinct ids, whatever was drawn (lengths between 0 and the size of the length axis, one draw per row). -/
theorem C120_rand (data : Ten α) (names : List (Option String)) (lens : List Int) (sos eos : List Bool) (b l n w : Nat)
    (hn : names.length = data.ndim) (hok : (names.filterMap id).Nodup ∧ some "" ∉ names) (hb : names[b]? = some BATCH) (hl : names[l]? = some LENGTH)
    (hsb : data.shape[b]? = some n) (hsl : data.shape[l]? = some w) (h1 : lens.length = n) (h2 : sos.length = n) (h3 : eos.length = n) (h4 : ∀ x ∈ lens, 0 ≤ x ∧ x ≤ w) :
    ∃ x, randStream data names lens sos eos = .ok x ∧ x.Describes b l ∧ x.md.ids.Nodup ∧ x.t.shape = data.shape ∧ x.t.val = data.val ∧ x.t.names = names ∧ x.md.lengths = lens ∧ x.md.sos = sos ∧ x.md.eos = eos := by
  have hr : data.unnamed.rename names = .ok { data with names := names } := rename_ok data.unnamed names hn hok
  have hi : names.idxOf BATCH = b := by
    have := nameIndex_of hok.1 hb
    unfold nameIndex at this
    rw [if_pos (show some "B" ∈ names from List.mem_of_getElem? hb)] at this
    exact Except.ok.inj this
  have hlen : ((List.range n).map toString).length = n := by simp
  have hinj : ((List.range n).map toString : List String).Nodup := by
    refine List.Nodup.map ?_ List.nodup_range
    intro i j hij
    have := congrArg (fun s : String => Nat.ofDigitChars 10 s.toList 0) (show Nat.repr i = Nat.repr j from hij)
    simpa [Nat.repr, Nat.ofDigitChars_toDigits] using this
  refine ⟨⟨{ data with names := names }, ⟨(List.range n).map toString, sos, eos, lens, none⟩⟩, ?_, ⟨⟨hn, hok⟩, hb, hl, ⟨by simp [h2], by simp [h3], by simp [h1], by simp⟩, ?_, ⟨w, hsl, h4⟩⟩, hinj, rfl, rfl, rfl, rfl, rfl, rfl⟩
  · simp only [randStream, hr, Except.bind_ok']
    rw [if_pos ⟨List.mem_of_getElem? hb, List.mem_of_getElem? hl⟩, hi]
    rw [show data.shape.getD b 0 = n by simp [List.getD_eq_getElem?_getD, hsb]]
    rw [Meta.init, if_pos ⟨by rw [hlen, h1], by rw [h1, h2], by rw [h2, h3]⟩]
    rfl
  · rw [hsb, hlen]

example : ((randStream exX.t [some "B", some "F", some "L"] [1, 3] [true, true] [false, true]).map fun x => (x.md.ids, x.md.lengths)) = .ok (["0", "1"], [1, 3]) := by decide

/-! ## The metadata constructor -/

/-- The columns are one-dimensional and of equal length. -/
def RawMeta.Good (m : RawMeta) : Prop :=
  m.sos.shape = [m.ids.length] ∧ m.eos.shape = [m.ids.length] ∧ m.lengths.shape = [m.ids.length] ∧
    ∀ c, m.chunk = some c → ∃ vs, c = .ten [m.ids.length] vs

/-- The number of rows that an argument stands for; `none` if it has no rows (a 0-d tensor) or too many axes. -/
def Arg.rows {A : Type} : Arg A → Option Nat
  | .scalar _ => some 1
  | .list as => some as.length
  | .ten [n] _ => some n
  | .ten _ _ => none

/-- **C121 is false of the code.** A two-dimensional `sos` is accepted (the check of tensor.py:157 looks at `lengths` twice), and chunk indices are accepted in any number and are not converted: a list or an int, as the
signature allows, stays a list or an int. -/
theorem C121_constructor_false :
    (∃ m, buildMeta (.str "a") (.ten [1, 2] [true, false]) (.scalar true) (.scalar 3) none = .ok m ∧ ¬m.Good) ∧
    (∃ m, buildMeta (.str "a") (.scalar true) (.scalar true) (.scalar 3) (some (.ten [2] [0, 1])) = .ok m ∧ ¬m.Good) ∧
    (∃ m, buildMeta (.str "a") (.scalar true) (.scalar true) (.scalar 3) (some (.scalar 0)) = .ok m ∧ ¬m.Good) ∧
    (∃ m, buildMeta (.str "a") (.scalar true) (.scalar true) (.scalar 3) (some (.list [0])) = .ok m ∧ ¬m.Good) := by
  refine ⟨⟨_, rfl, ?_⟩, ⟨_, rfl, ?_⟩, ⟨_, rfl, ?_⟩, ⟨_, rfl, ?_⟩⟩ <;> simp [RawMeta.Good, Arg.wrap, Arg.col]

/-- **C121, what holds.** Without chunk indices, and if `sos` has at most one axis: the constructor succeeds exactly if `ids` are strings and all columns stand for the same number of rows, and the columns it stores then are
one-dimensional, of equal length, and have the given entries. Missing: chunk indices, `sos` with two axes (`C121_constructor_exact_partial`). -/
theorem C121_constructor_partial (ids : IdArg) (sos eos : Arg Bool) (lengths : Arg Int) (hs : ∀ s vs, sos = .ten s vs → s.length ≤ 1) :
    ((∃ m, buildMeta ids sos eos lengths none = .ok m) ↔
      (∃ ns : List String, ids.items = ns.map some ∧ sos.rows = some ns.length ∧ eos.rows = some ns.length ∧ lengths.rows = some ns.length)) ∧
    ∀ m, buildMeta ids sos eos lengths none = .ok m → m.Good ∧ m.ids.map some = ids.items ∧ m.sos = sos.wrap.col ∧ m.eos = eos.wrap.col ∧ m.lengths = lengths.wrap.col := by
  have hmap : ∀ xs : List (Option String), (∃ ns, xs.mapM id = some ns) ↔ ∃ ns : List String, xs = ns.map some := by
    intro xs
    constructor
    · rintro ⟨ns, h⟩
      refine ⟨ns, ?_⟩
      induction xs generalizing ns with
      | nil => simp at h; subst h; rfl
      | cons x xs ih =>
        rw [List.mapM_cons] at h
        cases x with
        | none => simp at h
        | some s =>
          cases h2 : xs.mapM id with
          | none => rw [h2] at h; simp at h
          | some ms =>
            rw [h2] at h
            simp at h
            rw [← h, List.map_cons, ← ih ms h2]
    · rintro ⟨ns, rfl⟩
      refine ⟨ns, ?_⟩
      induction ns with
      | nil => rfl
      | cons n ns ih => rw [List.map_cons, List.mapM_cons, ih]; rfl
  have hone : ∀ {A : Type} (x : Arg A) (n : Nat), x.rows = some n ↔ (x.wrap.len = .ok n ∧ x.wrap.col.shape.length ≤ 1) := by
    intro A x n
    cases x with
    | scalar a => simp [Arg.rows, Arg.wrap, Arg.len, Arg.col]
    | list as => simp [Arg.rows, Arg.wrap, Arg.len, Arg.col]
    | ten s as =>
      cases s with
      | nil => simp [Arg.rows, Arg.wrap, Arg.len]
      | cons m s =>
        cases s with
        | nil => simp [Arg.rows, Arg.wrap, Arg.len, Arg.col]
        | cons k s => simp [Arg.rows, Arg.wrap, Arg.len, Arg.col]
  have hshape : ∀ {A : Type} (x : Arg A) (n : Nat), x.wrap.len = .ok n → x.wrap.col.shape.length ≤ 1 → x.wrap.col.shape = [n] := by
    intro A x n
    cases x with
    | scalar a => simp [Arg.wrap, Arg.len, Arg.col]
    | list as => simp [Arg.wrap, Arg.len, Arg.col]
    | ten s as =>
      cases s with
      | nil => simp [Arg.wrap, Arg.len]
      | cons m s =>
        cases s with
        | nil => simp [Arg.wrap, Arg.len, Arg.col]
        | cons k s => simp [Arg.wrap, Arg.len, Arg.col]
  have hsl : sos.wrap.col.shape.length ≤ 1 := by
    cases sos with
    | scalar a => simp [Arg.wrap, Arg.col]
    | list as => simp [Arg.wrap, Arg.col]
    | ten s as => simpa [Arg.wrap, Arg.col] using hs s as rfl
  have hback : ∀ m, buildMeta ids sos eos lengths none = .ok m → (m.ids.map some = ids.items ∧ m.sos = sos.wrap.col ∧ m.eos = eos.wrap.col ∧ m.lengths = lengths.wrap.col ∧ m.chunk = none) ∧
      lengths.wrap.len = .ok m.ids.length ∧ sos.wrap.len = .ok m.ids.length ∧ eos.wrap.len = .ok m.ids.length ∧ lengths.wrap.col.shape.length ≤ 1 ∧ eos.wrap.col.shape.length ≤ 1 := by
    intro m h
    unfold buildMeta at h
    obtain ⟨k1, e1, h⟩ := ok_of_bind h
    split at h
    · simp at h
    rename_i hk1
    obtain ⟨k2, e2, h⟩ := ok_of_bind h
    split at h
    · simp at h
    rename_i hk2
    obtain ⟨k3, e3, h⟩ := ok_of_bind h
    split at h
    · simp at h
    rename_i hk3
    split at h
    · simp at h
    rename_i ns hns
    simp only at h
    split at h
    · simp at h
    rename_i hc
    simp only [Except.ok.injEq] at h
    subst h
    obtain ⟨ns', hns'⟩ := (hmap _).1 ⟨ns, hns⟩
    have hnn : ns' = ns := by
      rw [hns'] at hns
      have : (ns'.map some).mapM id = some ns' := by
        clear hns' hns
        induction ns' with
        | nil => rfl
        | cons n ns ih => rw [List.map_cons, List.mapM_cons, ih]; rfl
      rw [this] at hns
      simpa using hns
    subst hnn
    have hl : ids.items.length = ns'.length := by rw [hns']; simp
    refine ⟨⟨hns'.symm, rfl, rfl, rfl, rfl⟩, ?_, ?_, ?_, ?_, ?_⟩
    · rw [e1]; congr 1; show _ = ns'.length; omega
    · rw [e2]; congr 1; show _ = ns'.length; omega
    · rw [e3]; congr 1; show _ = ns'.length; omega
    · omega
    · omega
  constructor
  · constructor
    · rintro ⟨m, h⟩
      obtain ⟨⟨h1, -⟩, h2, h3, h4, h5, h6⟩ := hback m h
      exact ⟨m.ids, h1.symm, (hone _ _).2 ⟨h3, hsl⟩, (hone _ _).2 ⟨h4, h6⟩, (hone _ _).2 ⟨h2, h5⟩⟩
    · rintro ⟨ns, h1, h2, h3, h4⟩
      obtain ⟨a1, a2⟩ := (hone _ _).1 h2
      obtain ⟨b1, b2⟩ := (hone _ _).1 h3
      obtain ⟨c1, c2⟩ := (hone _ _).1 h4
      obtain ⟨ns', h5⟩ := (hmap _).2 ⟨ns, h1⟩
      have hl : ids.items.length = ns.length := by rw [h1]; simp
      refine ⟨⟨ns', sos.wrap.col, eos.wrap.col, lengths.wrap.col, none⟩, ?_⟩
      unfold buildMeta
      rw [c1, Except.bind_ok', if_neg (by omega), a1, Except.bind_ok', if_neg (by omega), b1, Except.bind_ok', if_neg (by omega), h5]
      simp only
      rw [if_neg (by omega)]
  · intro m h
    obtain ⟨⟨h1, g2, g3, g4, g5⟩, h2, h3, h4, h5, h6⟩ := hback m h
    refine ⟨⟨?_, ?_, ?_, ?_⟩, h1, g2, g3, g4⟩
    · rw [g2]; exact hshape _ _ h3 hsl
    · rw [g3]; exact hshape _ _ h4 h6
    · rw [g4]; exact hshape _ _ h2 h5
    · intro c hc; rw [g5] at hc; simp at hc

example : (buildMeta (.list [some "a", some "b"]) (.list [true, false]) (.ten [2] [false, true]) (.ten [2] [3, 4]) none).toOption.isSome := by decide
example : buildMeta (.list [some "a", some "b"]) (.list [true]) (.ten [2] [false, true]) (.ten [2] [3, 4]) none = .error .valueError := by decide

theorem mapM_id_some (xs : List (Option String)) (ns : List String) : xs.mapM id = some ns ↔ xs = ns.map some := by
  induction xs generalizing ns with
  | nil =>
    constructor
    · intro h
      have : ns = [] := (Option.some.inj h).symm
      rw [this]; rfl
    · intro h
      rw [List.map_eq_nil_iff.1 h.symm]; rfl
  | cons x xs ih =>
    rw [List.mapM_cons]
    cases x with
    | none =>
      constructor
      · intro h; exact absurd h (by simp)
      · intro h; cases ns <;> simp at h
    | some s =>
      cases h2 : xs.mapM id with
      | none =>
        constructor
        · intro h; exact absurd h (by simp)
        · intro h
          cases ns with
          | nil => simp at h
          | cons n ns =>
            rw [(ih ns).2 (by simpa using (List.cons.inj h).2)] at h2
            exact absurd h2 (by simp)
      | some ms =>
        have := (ih ms).1 h2
        subst this
        simp only [id, Option.pure_def, Option.bind_eq_bind, Option.bind_some, Option.some.injEq]
        constructor
        · rintro rfl; rfl
        · intro h
          cases ns with
          | nil => simp at h
          | cons n ns =>
            simp only [List.map_cons, List.cons.injEq, Option.some.injEq] at h
            rw [h.1, (List.map_inj_right (fun _ _ => Option.some.inj)).1 h.2]

/-- The number of entries along the first axis; `none` for a 0-d tensor. -/
def Arg.first {A : Type} : Arg A → Option Nat
  | .scalar _ => some 1
  | .list as => some as.length
  | .ten [] _ => none
  | .ten (n :: _) _ => some n

/-- A 0-d tensor. -/
def Arg.zeroDim {A : Type} (x : Arg A) : Prop := ∃ vs, x = .ten [] vs

theorem wrap_len {A : Type} (x : Arg A) : (∃ n, x.wrap.len = .ok n ∧ x.first = some n) ∨ (x.wrap.len = .error .typeError ∧ x.zeroDim ∧ x.first = none) := by
  cases x with
  | scalar a => exact .inl ⟨1, rfl, rfl⟩
  | list as => exact .inl ⟨as.length, rfl, rfl⟩
  | ten s as =>
    cases s with
    | nil => exact .inr ⟨rfl, ⟨as, rfl⟩, rfl⟩
    | cons n s => exact .inl ⟨n, rfl, rfl⟩

theorem rows_first {A : Type} (x : Arg A) (n : Nat) : x.rows = some n ↔ x.first = some n ∧ x.wrap.col.shape.length ≤ 1 := by
  cases x with
  | scalar a => simp [Arg.rows, Arg.first, Arg.wrap, Arg.col]
  | list as => simp [Arg.rows, Arg.first, Arg.wrap, Arg.col]
  | ten s as =>
    cases s with
    | nil => simp [Arg.rows, Arg.first, Arg.wrap]
    | cons m s =>
      cases s with
      | nil => simp [Arg.rows, Arg.first, Arg.wrap, Arg.col]
      | cons k s => simp [Arg.rows, Arg.first, Arg.wrap, Arg.col]

/-- **C121.** The constructor cannot tell a string from a list of one string, nor one flag or length from a list of one; a list of strings is stored as it is, and so are the entries of a tensor. -/
theorem C121_forms (s : String) (ids : IdArg) (sos eos : Arg Bool) (lengths : Arg Int) (chunk : Option (Arg Int)) (b : Bool) (k : Int) :
    buildMeta (.str s) sos eos lengths chunk = buildMeta (.list [some s]) sos eos lengths chunk ∧
    buildMeta ids (.scalar b) eos lengths chunk = buildMeta ids (.list [b]) eos lengths chunk ∧
    buildMeta ids sos (.scalar b) lengths chunk = buildMeta ids sos (.list [b]) lengths chunk ∧
    buildMeta ids sos eos (.scalar k) chunk = buildMeta ids sos eos (.list [k]) chunk ∧
    ∀ (ns : List String) (ss es : List Bool) (ls : List Int), ss.length = ns.length → es.length = ns.length → ls.length = ns.length →
      buildMeta (.list (ns.map some)) (.list ss) (.ten [ns.length] es) (.list ls) chunk =
        .ok ⟨ns, ⟨[ns.length], ss⟩, ⟨[ns.length], es⟩, ⟨[ns.length], ls⟩, chunk⟩ := by
  refine ⟨rfl, rfl, rfl, rfl, ?_⟩
  intro ns ss es ls h1 h2 h3
  have hm : (ns.map some).mapM (m := Option) id = some ns := (mapM_id_some _ _).2 rfl
  simp [buildMeta, IdArg.items, Arg.wrap, Arg.len, Arg.col, h1, h3, hm, Except.bind_ok']

example : ([true, false] : List Bool).length = ["ab", "c"].length ∧ ([5, 3] : List Int).length = ["ab", "c"].length := by decide

/-- **C121, exactly.** The constructor accepts whatever chunk indices it is given and stores them as they are, and a `sos` with any number of axes as long as its first axis has one entry per row; ids that are not
strings, and `lengths` and `eos` that do not stand for as many rows as there are ids, are refused. Refusals are ValueErrors, unless one of the columns is a 0-d tensor, which may be a TypeError. Missing: a check of the
chunk indices and of the axes of `sos`. -/
theorem C121_constructor_exact_partial (ids : IdArg) (sos eos : Arg Bool) (lengths : Arg Int) (chunk : Option (Arg Int)) :
    (∀ m, buildMeta ids sos eos lengths chunk = .ok m ↔
      (ids.items = m.ids.map some ∧ sos.first = some m.ids.length ∧ eos.rows = some m.ids.length ∧ lengths.rows = some m.ids.length ∧
        m.sos = sos.wrap.col ∧ m.eos = eos.wrap.col ∧ m.lengths = lengths.wrap.col ∧ m.chunk = chunk)) ∧
    ∀ e, buildMeta ids sos eos lengths chunk = .error e → e = .valueError ∨ (e = .typeError ∧ (sos.zeroDim ∨ eos.zeroDim ∨ lengths.zeroDim)) := by
  simp only [rows_first]
  unfold buildMeta
  rcases wrap_len lengths with ⟨k1, e1, f1⟩ | ⟨e1, z1, f1⟩
  swap
  · rw [e1, f1]
    refine ⟨fun m => ⟨fun h => absurd h (by simp [Except.bind_error']), by simp⟩, fun e h => .inr ⟨?_, .inr (.inr z1)⟩⟩
    rw [Except.bind_error'] at h
    exact (Except.error.inj h).symm
  rw [e1, f1, Except.bind_ok']
  by_cases hn : ids.items.length ≠ k1
  · rw [if_pos hn]
    refine ⟨fun m => ⟨fun h => absurd h (by simp), ?_⟩, fun e h => .inl (Except.error.inj h).symm⟩
    rintro ⟨h, -, -, ⟨h2, -⟩, -⟩
    rw [h, List.length_map] at hn
    exact absurd (Option.some.inj h2).symm hn
  rw [if_neg hn]
  rcases wrap_len sos with ⟨k2, e2, f2⟩ | ⟨e2, z2, f2⟩
  swap
  · rw [e2, f2]
    refine ⟨fun m => ⟨fun h => absurd h (by simp [Except.bind_error']), by simp⟩, fun e h => .inr ⟨?_, .inl z2⟩⟩
    rw [Except.bind_error'] at h
    exact (Except.error.inj h).symm
  rw [e2, f2, Except.bind_ok']
  by_cases hn2 : k1 ≠ k2
  · rw [if_pos hn2]
    refine ⟨fun m => ⟨fun h => absurd h (by simp), ?_⟩, fun e h => .inl (Except.error.inj h).symm⟩
    rintro ⟨h, h1, -, ⟨h2, -⟩, -⟩
    simp at h1 h2; omega
  rw [if_neg hn2]
  rcases wrap_len eos with ⟨k3, e3, f3⟩ | ⟨e3, z3, f3⟩
  swap
  · rw [e3, f3]
    refine ⟨fun m => ⟨fun h => absurd h (by simp [Except.bind_error']), by simp⟩, fun e h => .inr ⟨?_, .inr (.inl z3)⟩⟩
    rw [Except.bind_error'] at h
    exact (Except.error.inj h).symm
  rw [e3, f3, Except.bind_ok']
  by_cases hn3 : k2 ≠ k3
  · rw [if_pos hn3]
    refine ⟨fun m => ⟨fun h => absurd h (by simp), ?_⟩, fun e h => .inl (Except.error.inj h).symm⟩
    rintro ⟨h, h1, ⟨h3, -⟩, -⟩
    simp at h1 h3; omega
  rw [if_neg hn3]
  cases hm : ids.items.mapM id with
  | none =>
    refine ⟨fun m => ⟨fun h => absurd h (by simp), ?_⟩, fun e h => .inl (Except.error.inj h).symm⟩
    rintro ⟨h, -⟩
    rw [(mapM_id_some _ _).2 h] at hm
    exact absurd hm (by simp)
  | some ns =>
    have hns := (mapM_id_some _ _).1 hm
    have hl : ids.items.length = ns.length := by rw [hns, List.length_map]
    simp only
    by_cases hc : lengths.wrap.col.shape.length > 1 ∨ eos.wrap.col.shape.length > 1 ∨ lengths.wrap.col.shape.length > 1
    · rw [if_pos hc]
      refine ⟨fun m => ⟨fun h => absurd h (by simp), ?_⟩, fun e h => .inl (Except.error.inj h).symm⟩
      rintro ⟨-, -, ⟨-, h3⟩, ⟨-, h4⟩, -⟩
      omega
    · rw [if_neg hc]
      refine ⟨fun m => ⟨?_, ?_⟩, fun e h => absurd h (by simp)⟩
      · intro h
        have := Except.ok.inj h
        subst this
        simp only [Option.some.injEq]
        exact ⟨hns, by omega, ⟨by omega, by omega⟩, ⟨by omega, by omega⟩, trivial, trivial, trivial, trivial⟩
      · rintro ⟨h, -, -, -, g1, g2, g3, g4⟩
        rw [hns] at h
        have : ns = m.ids := (List.map_inj_right (fun _ _ => Option.some.inj)).1 h
        subst this
        rw [← g1, ← g2, ← g3, ← g4]

example : buildMeta (.list [some "a", none]) (.list [true, false]) (.ten [2] [false, true]) (.ten [2] [3, 4]) none = .error .valueError := by decide
example : buildMeta (.str "a") (.scalar true) (.ten [] [true]) (.scalar 3) none = .error .typeError := by decide

end
end DS.Tn
