import Verif.Model.Heap
import Verif.Lemmas.Gather
import Verif.Lemmas.Tensor
/-! # C27, C88: clones and batch-indexed metadata, storage sharing -/

namespace DS.Heap

/-- Every cell the object shows is allocated. -/
def Alloc (h : Mem) (o : Obj) : Prop := ∀ c, (o c).cell < h.next

/-- No storage in common on the pairs of columns selected by `P`. -/
def Apart (P : Col → Col → Prop) (o o' : Obj) : Prop := ∀ x y, P x y → (o x).cell ≠ (o' y).cell

theorem read_alloc (h : Mem) (v : List Int) (r : Ref) (hr : r.cell < h.next) : (h.alloc v).1.read r = h.read r := by
  unfold Mem.read Mem.alloc
  have : ¬ r.cell = h.next := by omega
  simp [this]

theorem read_fresh (h : Mem) (v : List Int) : (h.alloc v).1.read (h.alloc v).2 = v := by
  unfold Mem.read Mem.alloc
  simp only [if_true]
  apply List.ext_getElem
  · simp
  · intro i h1 h2; simp at h1; simp [h1]

theorem alloc_next (h : Mem) (v : List Int) : (h.alloc v).1.next = h.next + 1 := rfl
theorem alloc_cell (h : Mem) (v : List Int) : (h.alloc v).2.cell = h.next := rfl

theorem write_next (h : Mem) (r : Ref) (k : Nat) (v : Int) : (h.write r k v).next = h.next := by
  unfold Mem.write; split <;> rfl

theorem read_write (h : Mem) (r r' : Ref) (k : Nat) (v : Int) (hne : r'.cell ≠ r.cell) : (h.write r k v).read r' = h.read r' := by
  unfold Mem.write
  split
  · unfold Mem.read; simp [hne]
  · rfl

/-- A use of a forced object keeps the other object's reports, on the columns apart from the one written. -/
theorem act_apart (h : Mem) (o o' : Obj) (P : Col → Col → Prop) (ho : Alloc h o) (ho' : Alloc h o') (hP : Apart P o o') (x : Act) :
    Alloc (act h o x).1 (act h o x).2 ∧ Alloc (act h o x).1 o' ∧ Apart P (act h o x).2 o' ∧ h.next ≤ (act h o x).1.next ∧
      ∀ y, (∀ c, P c y) → (act h o x).1.read (o' y) = h.read (o' y) := by
  cases x with
  | read c => exact ⟨ho, ho', hP, Nat.le_refl _, fun _ _ => rfl⟩
  | write c k v =>
    refine ⟨fun x => ?_, fun x => ?_, hP, ?_, fun y hy => ?_⟩
    · simp only [act, write_next]; exact ho x
    · simp only [act, write_next]; exact ho' x
    · simp only [act, write_next]; omega
    · exact read_write _ _ _ _ _ (Ne.symm (hP c y (hy c)))
  | assign c v =>
    refine ⟨fun x => ?_, fun x => ?_, fun x y hxy => ?_, ?_, fun y _ => ?_⟩
    · simp only [act, alloc_next]
      split
      · rw [alloc_cell]; omega
      · have := ho x; omega
    · simp only [act, alloc_next]; have := ho' x; omega
    · simp only [act]
      split
      · rw [alloc_cell]; have := ho' y; omega
      · exact hP x y hxy
    · simp only [act, alloc_next]; omega
    · exact read_alloc _ _ _ (ho' y)

/-- Both objects are forced, allocated, and apart on `P`. -/
def Inv (P : Col → Col → Prop) (s : State) : Prop :=
  ∃ o o', s.a = .forced o ∧ s.b = .forced o' ∧ Alloc s.mem o ∧ Alloc s.mem o' ∧ Apart P o o'

theorem step_inv (P : Col → Col → Prop) (s : State) (who : Bool) (x : Act) (h : Inv P s) :
    Inv P (step s who x) ∧
      (∀ y, (∀ c, P c y) → who = true → (step s who x).report false y = s.report false y) ∧
      (∀ y, (∀ c, P y c) → who = false → (step s who x).report true y = s.report true y) := by
  obtain ⟨o, o', ha, hb, h1, h2, h3⟩ := h
  cases who with
  | true =>
    have := act_apart s.mem o o' P h1 h2 h3 x
    simp only [step, ha, force, if_true]
    refine ⟨⟨_, o', rfl, hb, this.1, this.2.1, this.2.2.1⟩, ?_, by simp⟩
    intro y hy _
    simp only [State.report, hb, Proxy.obj]
    exact this.2.2.2.2 y hy
  | false =>
    have := act_apart s.mem o' o (fun x y => P y x) h2 h1 (fun x y hxy => Ne.symm (h3 y x hxy)) x
    simp only [step, hb, force]
    refine ⟨⟨o, _, ha, rfl, this.2.1, this.1, fun x y hxy => Ne.symm (this.2.2.1 y x hxy)⟩, by simp, ?_⟩
    intro y hy _
    simp only [State.report, ha, Proxy.obj]
    exact this.2.2.2.2 y hy

theorem run_inv (P : Col → Col → Prop) (s : State) (ops : List (Bool × Act)) (h : Inv P s) : Inv P (run s ops) := by
  unfold run
  induction ops generalizing s with
  | nil => exact h
  | cons x ops ih => exact ih _ (step_inv P s x.1 x.2 h).1

/-- A use of one object does not change what the other reports in column `c`. -/
def Independent (s : State) (c : Col) : Prop :=
  ∀ x, (step s true x).report false c = s.report false c ∧ (step s false x).report true c = s.report true c

/-- The library's ordinary metadata objects: each column has its own storage. -/
def Ordinary (h : Mem) (o : Obj) : Prop := Alloc h o ∧ ∀ x y, x ≠ y → (o x).cell ≠ (o y).cell

/-- A heap with one ordinary object in it, for the concrete instances: two rows. -/
def mem0 : Mem := ⟨fun | 0 => [1, 1] | 1 => [0, 1] | 2 => [3, 4] | 3 => [0, 5] | _ => [], 4⟩
/-- See `mem0`. -/
def obj0 : Obj := fun | .sos => ⟨0, [0, 1]⟩ | .eos => ⟨1, [0, 1]⟩ | .lengths => ⟨2, [0, 1]⟩ | .chunk => ⟨3, [0, 1]⟩

theorem obj0_ordinary : Ordinary mem0 obj0 := by
  refine ⟨fun c => by cases c <;> decide, fun x y => by cases x <;> cases y <;> decide⟩

/-- **C27 is false of the code.** A clone that has not been used yet reports later in-place changes of the original;
and chunk indices are shared even after the clone was used. -/
theorem C27_clone_false :
    (run ⟨mem0, .forced obj0, clone obj0⟩ [(true, .write .lengths 0 7)]).report false .lengths = [7, 4] ∧
    (run ⟨mem0, .forced obj0, clone obj0⟩ [(false, .read .lengths), (true, .write .chunk 0 7)]).report false .chunk = [7, 5] := by
  decide

theorem copyOnInit_spec (h : Mem) (o : Obj) (ho : Ordinary h o) :
    Alloc (copyOnInit h o).1 o ∧ Alloc (copyOnInit h o).1 (copyOnInit h o).2 ∧
      Apart (fun x y => x ≠ .chunk ∨ y ≠ .chunk) o (copyOnInit h o).2 ∧
      ∀ c, (copyOnInit h o).1.read ((copyOnInit h o).2 c) = h.read (o c) ∧ (copyOnInit h o).1.read (o c) = h.read (o c) := by
  obtain ⟨ha, hd⟩ := ho
  have b1 := ha .sos; have b2 := ha .eos; have b3 := ha .lengths; have b4 := ha .chunk
  refine ⟨fun c => ?_, fun c => ?_, fun x y hxy => ?_, fun c => ?_⟩
  · have := ha c; simp only [copyOnInit, alloc_next]; omega
  · cases c <;> simp only [copyOnInit, alloc_next, alloc_cell] <;> omega
  · cases y
    · have := ha x; simp only [copyOnInit, alloc_cell]; omega
    · have := ha x; simp only [copyOnInit, alloc_cell, alloc_next]; omega
    · have := ha x; simp only [copyOnInit, alloc_cell, alloc_next]; omega
    · simp only [copyOnInit]
      exact hd x .chunk (by simpa using hxy)
  · have k : ∀ c, (copyOnInit h o).1.read (o c) = h.read (o c) := by
      intro c
      have := ha c
      simp only [copyOnInit]
      rw [read_alloc _ _ _ (by simp only [alloc_next]; omega), read_alloc _ _ _ (by simp only [alloc_next]; omega), read_alloc _ _ _ (by omega)]
    refine ⟨?_, k c⟩
    cases c with
    | sos =>
      simp only [copyOnInit]
      rw [read_alloc _ _ _ (by simp only [alloc_next, alloc_cell]; omega), read_alloc _ _ _ (by simp only [alloc_next, alloc_cell]; omega), read_fresh]
    | eos =>
      simp only [copyOnInit]
      rw [read_alloc _ _ _ (by simp only [alloc_next, alloc_cell]; omega), read_fresh, read_alloc _ _ _ (by omega)]
    | lengths =>
      simp only [copyOnInit]
      rw [read_fresh, read_alloc _ _ _ (by simp only [alloc_next]; omega), read_alloc _ _ _ (by omega)]
    | chunk => exact k .chunk

/-- C27, what holds: (1) if the clone is used once before anything else happens, it reports the original's columns, and from then on, after
any history of uses of both objects (in-place writes and assignments included), a use of one changes no sos, eos or length
reported by the other. (2) Even before its first use, the clone is not affected by assignments to the original's attributes.
Missing: in-place changes of the original before the clone's first use, and chunk indices; see `C27_clone_false`. -/
theorem C27_clone_partial (h : Mem) (o : Obj) (ho : Ordinary h o) :
    (∀ c c', (step ⟨h, .forced o, clone o⟩ false (.read c')).report false c = h.read (o c)) ∧
    (∀ c' ops c, c ≠ Col.chunk → Independent (run (step ⟨h, .forced o, clone o⟩ false (.read c')) ops) c) ∧
    (∀ assigns : List (Col × List Int), ∀ c,
      (run ⟨h, .forced o, clone o⟩ (assigns.map fun p => (true, Act.assign p.1 p.2))).report false c = h.read (o c)) := by
  obtain ⟨k1, k2, k3, k4⟩ := copyOnInit_spec h o ho
  refine ⟨fun c c' => ?_, fun c' ops c hc x => ?_, fun assigns c => ?_⟩
  · simp only [step, clone, force, act, State.report, Proxy.obj]
    exact (k4 c).1
  · have hi : Inv (fun x y => x ≠ .chunk ∨ y ≠ .chunk) (step ⟨h, .forced o, clone o⟩ false (.read c')) :=
      ⟨o, (copyOnInit h o).2, rfl, rfl, k1, k2, k3⟩
    have hr := run_inv _ _ ops hi
    exact ⟨(step_inv _ _ true x hr).2.1 c (fun d => .inr hc) rfl, (step_inv _ _ false x hr).2.2 c (fun d => .inl hc) rfl⟩
  · have key : ∀ (assigns : List (Col × List Int)) (h' : Mem) (o' : Obj), Alloc h' o →
        (run ⟨h', .forced o', clone o⟩ (assigns.map fun p => (true, Act.assign p.1 p.2))).report false c = h'.read (o c) := by
      intro assigns
      induction assigns with
      | nil => intro h' o' _; rfl
      | cons p ps ih =>
        intro h' o' ha
        have := ih (h'.alloc p.2).1 (fun x => if x = p.1 then (h'.alloc p.2).2 else o' x)
          (fun c => by have := ha c; rw [alloc_next]; omega)
        rw [read_alloc _ _ _ (ha c)] at this
        exact this
    exact key assigns h o ho.1

example : Ordinary mem0 obj0 ∧
    (run (step ⟨mem0, .forced obj0, clone obj0⟩ false (.read .sos)) [(true, .write .lengths 0 7), (false, .write .lengths 1 9)]).report false .lengths = [3, 9] ∧
    (run (step ⟨mem0, .forced obj0, clone obj0⟩ false (.read .sos)) [(true, .write .lengths 0 7), (false, .write .lengths 1 9)]).report true .lengths = [7, 4] :=
  ⟨obj0_ordinary, by decide, by decide⟩

/-- **C88 is false of the code.** A batch slice shares storage with its source: an in-place write (such as
`sub.starting_lengths += 1`) on the slice changes the source. -/
theorem C88_slice_false :
    ∃ h s, indexBatch mem0 obj0 (.slice { start := some 1 }) = .ok (h, s) ∧
      (run ⟨h, .forced obj0, s⟩ [(false, .write .lengths 0 7)]).report true .lengths = [3, 7] := by
  refine ⟨_, _, rfl, by decide⟩

/-- The index kinds that copy. -/
def Copies : Meta.BIx → Prop
  | .int _ => True
  | .list _ => True
  | .ints _ => True
  | .mask _ => True
  | .bools _ => True
  | _ => False

theorem indexCol_copy (h : Mem) (r : Ref) (ix : Meta.BIx) (hix : Copies ix) (h' : Mem) (r' : Ref) (e : indexCol h r ix = .ok (h', r')) :
    r'.cell = h.next ∧ h'.next = h.next + 1 ∧ ∀ q : Ref, q.cell < h.next → h'.read q = h.read q := by
  have key : ∀ v, h.alloc v = (h', r') → r'.cell = h.next ∧ h'.next = h.next + 1 ∧ ∀ q : Ref, q.cell < h.next → h'.read q = h.read q := by
    intro v hv
    obtain ⟨rfl, rfl⟩ := Prod.mk.inj hv
    exact ⟨rfl, rfl, fun q hq => read_alloc h v q hq⟩
  cases ix with
  | none | slice | tuple | scalar | multi => exact absurd hix (by simp [Copies])
  | int i =>
    simp only [indexCol] at e
    cases hp : pyGather r.pos [i] with
    | error => rw [hp] at e; simp [Except.bind_error'] at e
    | ok p => rw [hp, Except.bind_ok'] at e; exact key _ (Except.ok.inj e)
  | list is =>
    simp only [indexCol] at e
    cases hp : pyGather r.pos is with
    | error => rw [hp] at e; simp [Except.bind_error'] at e
    | ok p => rw [hp, Except.bind_ok'] at e; exact key _ (Except.ok.inj e)
  | ints is =>
    simp only [indexCol] at e
    cases hp : pyGather r.pos is with
    | error => rw [hp] at e; simp [Except.bind_error'] at e
    | ok p => rw [hp, Except.bind_ok'] at e; exact key _ (Except.ok.inj e)
  | mask bs =>
    simp only [indexCol] at e
    cases hp : torchMask r.pos bs with
    | error => rw [hp] at e; simp [Except.bind_error'] at e
    | ok p => rw [hp, Except.bind_ok'] at e; exact key _ (Except.ok.inj e)
  | bools bs =>
    simp only [indexCol] at e
    cases hp : torchMask r.pos bs with
    | error => rw [hp] at e; simp [Except.bind_error'] at e
    | ok p => rw [hp, Except.bind_ok'] at e; exact key _ (Except.ok.inj e)

/-- C88, what holds: metadata obtained with an int, a list, an integer tensor or a mask share nothing with their source: indexing
changes nothing the source reports, and after any history of uses of both, a use of one changes no column reported by the other.
Missing: slices (`C88_slice_false`); for `None` see `C88_none_partial`. -/
theorem C88_index_partial (h : Mem) (o : Obj) (ho : Alloc h o) (ix : Meta.BIx) (hix : Copies ix) (h' : Mem) (s : Proxy)
    (e : indexBatch h o ix = .ok (h', s)) :
    (∀ c, h'.read (o c) = h.read (o c)) ∧ ∀ ops c, Independent (run ⟨h', .forced o, .forced (force h' s).2⟩ ops) c := by
  have hne : ¬ ix = .none := by intro h; subst h; exact hix
  unfold indexBatch at e
  rw [if_neg hne] at e
  cases e1 : indexCol h (o .sos) ix with
  | error => rw [e1] at e; simp [Except.bind_error'] at e
  | ok p1 =>
  obtain ⟨h1, r1⟩ := p1
  simp only [e1, Except.bind_ok'] at e
  cases e2 : indexCol h1 (o .eos) ix with
  | error => rw [e2] at e; simp [Except.bind_error'] at e
  | ok p2 =>
  obtain ⟨h2, r2⟩ := p2
  simp only [e2, Except.bind_ok'] at e
  cases e3 : indexCol h2 (o .lengths) ix with
  | error => rw [e3] at e; simp [Except.bind_error'] at e
  | ok p3 =>
  obtain ⟨h3, r3⟩ := p3
  simp only [e3, Except.bind_ok'] at e
  cases e4 : indexCol h3 (o .chunk) ix with
  | error => rw [e4] at e; simp [Except.bind_error'] at e
  | ok p4 =>
  obtain ⟨h4, r4⟩ := p4
  simp only [e4, Except.bind_ok', Except.ok.injEq, Prod.mk.injEq] at e
  obtain ⟨rfl, rfl⟩ := e
  obtain ⟨a1, b1, c1⟩ := indexCol_copy _ _ _ hix _ _ e1
  obtain ⟨a2, b2, c2⟩ := indexCol_copy _ _ _ hix _ _ e2
  obtain ⟨a3, b3, c3⟩ := indexCol_copy _ _ _ hix _ _ e3
  obtain ⟨a4, b4, c4⟩ := indexCol_copy _ _ _ hix _ _ e4
  constructor
  · intro c
    have := ho c
    rw [c4 _ (by omega), c3 _ (by omega), c2 _ (by omega), c1 _ (by omega)]
  · intro ops c x
    have hi : Inv (fun _ _ => True) ⟨h4, .forced o, .forced (fun | .sos => r1 | .eos => r2 | .lengths => r3 | .chunk => r4)⟩ := by
      refine ⟨o, _, rfl, rfl, fun c => ?_, fun c => ?_, fun x y _ => ?_⟩
      · have := ho c; simp only; omega
      · cases c <;> simp only <;> omega
      · have := ho x; cases y <;> simp only <;> omega
    have hr := run_inv _ _ ops hi
    exact ⟨(step_inv _ _ true x hr).2.1 c (fun d => trivial) rfl, (step_inv _ _ false x hr).2.2 c (fun d => trivial) rfl⟩

example : Copies (.mask [false, true]) ∧ (∃ h s, indexBatch mem0 obj0 (.mask [false, true]) = .ok (h, s) ∧
      (run ⟨h, .forced obj0, s⟩ [(false, .write .lengths 0 7)]).report true .lengths = [3, 4] ∧
      (run ⟨h, .forced obj0, s⟩ [(false, .write .lengths 0 7)]).report false .lengths = [7]) :=
  ⟨trivial, _, _, rfl, by decide, by decide⟩

/-- C88 for the index `None`, what holds: the result is a clone; once it was used it reports the source's columns, and from then on, after any history of uses of both, a use of one changes no sos, eos or length reported by the
other. Missing: what is missing for clones (`C27_clone_false`). -/
theorem C88_none_partial (h : Mem) (o : Obj) (ho : Ordinary h o) (h' : Mem) (s : Proxy) (e : indexBatch h o .none = .ok (h', s)) :
    (∀ c, h'.read (o c) = h.read (o c)) ∧ (∀ c c', (step ⟨h', .forced o, s⟩ false (.read c')).report false c = h.read (o c)) ∧
    (∀ c' ops c, c ≠ Col.chunk → Independent (run (step ⟨h', .forced o, s⟩ false (.read c')) ops) c) := by
  simp only [indexBatch, if_true, Except.ok.injEq, Prod.mk.injEq] at e
  obtain ⟨rfl, rfl⟩ := e
  obtain ⟨h1, h2, -⟩ := C27_clone_partial h o ho
  exact ⟨fun _ => rfl, h1, h2⟩

example : ∃ h s, indexBatch mem0 obj0 .none = .ok (h, s) ∧ (run (step ⟨h, .forced obj0, s⟩ false (.read .sos)) [(false, .write .lengths 0 7)]).report true .lengths = [3, 4] :=
  ⟨_, _, rfl, by decide⟩

theorem getNonneg_map {α β : Type} (f : α → β) (xs : List α) (i : Int) : getNonneg (xs.map f) i = (getNonneg xs i).map f := by
  unfold getNonneg
  split <;> simp

theorem pyGet_map {α β : Type} (f : α → β) (xs : List α) (i : Int) : pyGet (xs.map f) i = (pyGet xs i).map f := by
  simp only [pyGet, getNonneg_map, List.length_map]
  cases getNonneg xs (if i < 0 then i + (xs.length : Int) else i) <;> rfl

theorem pyGather_map {α β : Type} (f : α → β) (xs : List α) (is : List Int) : pyGather (xs.map f) is = (pyGather xs is).map (List.map f) := by
  induction is with
  | nil => rfl
  | cons i is ih =>
    simp only [pyGather, pyGet_map, ih]
    cases pyGet xs i with
    | error e => rfl
    | ok x => cases pyGather xs is <;> rfl

theorem torchSlice_map {α β : Type} (f : α → β) (xs : List α) (s : Slice) : torchSlice (xs.map f) s = (torchSlice xs s).map (List.map f) := by
  simp only [torchSlice, pySlice, List.length_map]
  split
  · rfl
  · cases s.indices xs.length with
    | error e => rfl
    | ok p =>
      simp only [bind, Except.bind, Except.map, List.map_filterMap]
      congr 2
      funext i
      exact getNonneg_map f xs i

theorem torchMask_map' {α β : Type} (f : α → β) (xs : List α) (bs : List Bool) : torchMask (xs.map f) bs = (torchMask xs bs).map (List.map f) := by
  simp only [torchMask, List.length_map]
  split
  · simp only [Except.map, List.zip_map_left, List.filterMap_map, List.map_filterMap]
    congr 2
    funext p
    simp only [Function.comp, Prod.map]
    cases p.2 <;> simp
  · rfl

/-- Indexing of a 1-D tensor by a batch index that is no tuple, no 0-d tensor and has one axis. -/
def pickCol {α : Type} (xs : List α) : Meta.BIx → Py (List α)
  | .slice s => torchSlice xs s
  | .mask bs | .bools bs => torchMask xs bs
  | .int i => pyGather xs [i]
  | .list is | .ints is => pyGather xs is
  | _ => .error .indexError

theorem pickCol_map {α β : Type} (f : α → β) (xs : List α) (ix : Meta.BIx) : pickCol (xs.map f) ix = (pickCol xs ix).map (List.map f) := by
  cases ix <;> simp only [pickCol, torchSlice_map, torchMask_map', pyGather_map] <;> rfl

theorem indexCol_reads (h : Mem) (r : Ref) (ix : Meta.BIx) (v : List Int) (hr : r.cell < h.next) (e : pickCol (h.read r) ix = .ok v) :
    ∃ h' r', indexCol h r ix = .ok (h', r') ∧ h'.read r' = v ∧ (∀ q : Ref, q.cell < h.next → h'.read q = h.read q) ∧
      h.next ≤ h'.next ∧ r'.cell < h'.next := by
  unfold Mem.read at e
  rw [pickCol_map] at e
  obtain ⟨p, hp, rfl⟩ : ∃ p, pickCol r.pos ix = .ok p ∧ v = h.read ⟨r.cell, p⟩ := by
    cases hq : pickCol r.pos ix with
    | error x => rw [hq] at e; simp [Except.map] at e
    | ok p => rw [hq] at e; exact ⟨p, rfl, by simpa [Except.map, Mem.read] using e.symm⟩
  have key : ∃ h' r', (.ok (h.alloc (h.read ⟨r.cell, p⟩)) : Py (Mem × Ref)) = .ok (h', r') ∧ h'.read r' = h.read ⟨r.cell, p⟩ ∧ (∀ q : Ref, q.cell < h.next → h'.read q = h.read q) ∧
      h.next ≤ h'.next ∧ r'.cell < h'.next :=
    ⟨_, _, rfl, read_fresh _ _, fun q hq => read_alloc _ _ _ hq, Nat.le_succ _, Nat.lt_succ_self _⟩
  cases ix <;> simp only [pickCol, reduceCtorEq] at hp <;> simp only [indexCol, hp, Except.bind_ok']
  case slice s => exact ⟨_, _, rfl, rfl, fun _ _ => rfl, le_refl _, hr⟩
  all_goals exact key

/-- The tensors of `o` hold the columns of `m`, which has chunk indices. -/
structure HoldsCols (h : Mem) (o : Obj) (m : Meta) : Prop where
  sos : h.read (o .sos) = m.sos.map fun b => if b then 1 else 0
  eos : h.read (o .eos) = m.eos.map fun b => if b then 1 else 0
  lengths : h.read (o .lengths) = m.lengths
  chunk : m.chunk = some (h.read (o .chunk))

theorem init_cols (ids : List String) (sos eos : List Bool) (lengths : List Int) (chunk : Option (List Int)) (m : Meta) (e : Meta.init ids sos eos lengths chunk = .ok m) :
    m.sos = sos ∧ m.eos = eos ∧ m.lengths = lengths ∧ m.chunk = chunk := by
  unfold Meta.init at e
  split at e
  · cases e; exact ⟨rfl, rfl, rfl, rfl⟩
  · simp at e

theorem onChunk_some (f : List Int → Py (List Int)) (c : List Int) (d : Option (List Int)) (e : Meta.onChunk f (some c) = .ok d) :
    ∃ v, f c = .ok v ∧ d = some v := by
  simp only [Meta.onChunk] at e
  obtain ⟨v, hv, e⟩ := ok_of_bind e
  exact ⟨v, hv, by simpa using e.symm⟩

theorem indexBatch_picks (m m' : Meta) (c : List Int) (hc : m.chunk = some c) (ix : Meta.BIx) (hix : Copies ix ∨ ∃ s, ix = .slice s)
    (e : m.indexBatch ix = .ok m') :
    pickCol m.sos ix = .ok m'.sos ∧ pickCol m.eos ix = .ok m'.eos ∧ pickCol m.lengths ix = .ok m'.lengths ∧
      ∃ c', pickCol c ix = .ok c' ∧ m'.chunk = some c' := by
  cases ix <;> simp only [Copies, reduceCtorEq, exists_false, or_false, false_or] at hix <;>
    simp only [Meta.indexBatch, Meta.indexBatch.gather, hc] at e <;>
    (obtain ⟨ids, -, e⟩ := ok_of_bind e
     obtain ⟨s, hs, e⟩ := ok_of_bind e
     obtain ⟨s2, hs2, e⟩ := ok_of_bind e
     obtain ⟨s3, hs3, e⟩ := ok_of_bind e
     obtain ⟨s4, hs4, e⟩ := ok_of_bind e
     obtain ⟨c', hc', rfl⟩ := onChunk_some _ _ _ hs4
     obtain ⟨r1, r2, r3, r4⟩ := init_cols _ _ _ _ _ _ e
     rw [r1, r2, r3, r4]
     exact ⟨hs, hs2, hs3, c', hc', rfl⟩)

/-- C88 (and C27), the two models agree: the object that `index_batch` gives on the heap holds the columns that `index_batch` gives for values (C1), and nothing that was held before has changed.
Missing: tuples and 0-d tensors, which raise for values (C85), and objects without chunk indices. -/
theorem C88_values_partial (h : Mem) (o : Obj) (ho : Alloc h o) (m m' : Meta) (hm : HoldsCols h o m) (ix : Meta.BIx) (hix : Copies ix ∨ ∃ s, ix = .slice s)
    (e : m.indexBatch ix = .ok m') :
    ∃ h' p, indexBatch h o ix = .ok (h', p) ∧ HoldsCols (force h' p).1 (force h' p).2 m' ∧ HoldsCols (force h' p).1 o m := by
  obtain ⟨p1, p2, p3, c', p4, hc'⟩ := indexBatch_picks m m' _ hm.chunk ix hix e
  have q1 : pickCol (h.read (o .sos)) ix = .ok (m'.sos.map fun b => if b then 1 else 0) := by rw [hm.sos, pickCol_map, p1]; rfl
  obtain ⟨h1, r1, e1, v1, k1, n1, l1⟩ := indexCol_reads h (o .sos) ix _ (ho _) q1
  have q2 : pickCol (h1.read (o .eos)) ix = .ok (m'.eos.map fun b => if b then 1 else 0) := by rw [k1 _ (ho _), hm.eos, pickCol_map, p2]; rfl
  obtain ⟨h2, r2, e2, v2, k2, n2, l2⟩ := indexCol_reads h1 (o .eos) ix _ (lt_of_lt_of_le (ho _) n1) q2
  have a2 : ∀ c, (o c).cell < h2.next := fun c => lt_of_lt_of_le (ho c) (le_trans n1 n2)
  have b2 : ∀ c, h2.read (o c) = h.read (o c) := fun c => by rw [k2 _ (lt_of_lt_of_le (ho c) n1), k1 _ (ho c)]
  have q3 : pickCol (h2.read (o .lengths)) ix = .ok m'.lengths := by rw [b2, hm.lengths, p3]
  obtain ⟨h3, r3, e3, v3, k3, n3, l3⟩ := indexCol_reads h2 (o .lengths) ix _ (a2 _) q3
  have a3 : ∀ c, (o c).cell < h3.next := fun c => lt_of_lt_of_le (a2 c) n3
  have b3 : ∀ c, h3.read (o c) = h.read (o c) := fun c => by rw [k3 _ (a2 c), b2]
  have q4 : pickCol (h3.read (o .chunk)) ix = .ok c' := by rw [b3, p4]
  obtain ⟨h4, r4, e4, v4, k4, n4, l4⟩ := indexCol_reads h3 (o .chunk) ix _ (a3 _) q4
  have b4 : ∀ c, h4.read (o c) = h.read (o c) := fun c => by rw [k4 _ (a3 c), b3]
  have w3 : h4.read r3 = m'.lengths := by rw [k4 _ l3, v3]
  have w2 : h4.read r2 = m'.eos.map fun b => if b then 1 else 0 := by rw [k4 _ (lt_of_lt_of_le l2 n3), k3 _ l2]; exact v2
  have w1 : h4.read r1 = m'.sos.map fun b => if b then 1 else 0 := by rw [k4 _ (lt_of_lt_of_le l1 (le_trans n2 n3)), k3 _ (lt_of_lt_of_le l1 n2), k2 _ l1]; exact v1
  have hn : ix ≠ .none := by rintro rfl; simp [Copies] at hix
  refine ⟨h4, .pending false (fun | .sos => r1 | .eos => r2 | .lengths => r3 | .chunk => r4), ?_, ⟨w1, w2, w3, ?_⟩, ⟨?_, ?_, ?_, ?_⟩⟩
  · simp only [indexBatch, if_neg hn, e1, e2, e3, e4, Except.bind_ok']
    rfl
  · rw [hc', ← v4]; rfl
  · exact (b4 _).trans hm.sos
  · exact (b4 _).trans hm.eos
  · exact (b4 _).trans hm.lengths
  · rw [hm.chunk]; exact congrArg some (b4 _).symm

example : ∃ m', Meta.indexBatch ⟨["a", "b"], [true, true], [false, true], [3, 4], some [0, 5]⟩ (.slice ⟨some 1, none, none⟩) = .ok m' ∧
    ∃ h' p, indexBatch mem0 obj0 (.slice ⟨some 1, none, none⟩) = .ok (h', p) ∧ HoldsCols (force h' p).1 (force h' p).2 m' := by
  refine ⟨⟨["b"], [true], [true], [4], some [5]⟩, by decide, ?_⟩
  obtain ⟨h', p, e, r, -⟩ := C88_values_partial mem0 obj0 obj0_ordinary.1 ⟨["a", "b"], [true, true], [false, true], [3, 4], some [0, 5]⟩ ⟨["b"], [true], [true], [4], some [5]⟩
    ⟨by decide, by decide, by decide, by decide⟩ (.slice ⟨some 1, none, none⟩) (.inr ⟨_, rfl⟩) (by decide)
  exact ⟨h', p, e, r⟩

end DS.Heap
