import Verif.Model.Cache
import Verif.Lemmas.Length
/-! # C25, C26: cached summaries -/

namespace DS.Cache

/-- What a summary means for given columns. -/
def truth (sos eos : List Bool) (lengths : List Int) : Summary → Py Val
  | .minLength => (torchMin lengths).map .inl
  | .maxLength => (torchMax lengths).map .inl
  | .anyStarting => .ok (.inr (decide (true ∈ sos)))
  | .anyEnding => .ok (.inr (decide (true ∈ eos)))
  | .allStarting => .ok (.inr (decide (∀ b ∈ sos, b = true)))
  | .allEnding => .ok (.inr (decide (∀ b ∈ eos, b = true)))
  | .anyStartingOrEnding => .ok (.inr (decide (true ∈ sos ∨ true ∈ eos)))
  | .allStartingAndEnding => .ok (.inr (decide ((∀ b ∈ sos, b = true) ∧ (∀ b ∈ eos, b = true))))

/-- The length summaries are not stale. -/
def LInv (s : State) : Prop :=
  s.lengthsUpdated = true ∨ ∃ a b, torchMin s.lengths = .ok a ∧ torchMax s.lengths = .ok b ∧ s.minLength = some a ∧ s.maxLength = some b

/-- The logical summaries are not stale. -/
def FInv (s : State) : Prop :=
  s.sosOrEosUpdated = true ∨
    (s.anyStarting = some (s.sos.any id) ∧ s.anyEnding = some (s.eos.any id) ∧ s.allStarting = some (s.sos.all id) ∧
      s.allEnding = some (s.eos.all id) ∧ s.anyStartingOrEnding = some (s.sos.any id || s.eos.any id) ∧
      s.allStartingAndEnding = some (s.sos.all id && s.eos.all id))

theorem updateLengths_inv {s s' : State} (h : updateLengths s = .ok s') :
    s'.lengths = s.lengths ∧ s'.sos = s.sos ∧ s'.eos = s.eos ∧ (LInv s → LInv s') ∧ (FInv s → FInv s') := by
  unfold updateLengths at h
  split at h
  · cases h1 : torchMin s.lengths with
    | error e => rw [h1] at h; simp [Except.bind_error'] at h
    | ok a =>
      cases h2 : torchMax s.lengths with
      | error e => rw [h1, h2] at h; simp [Except.bind_error', Except.bind_ok'] at h
      | ok b =>
        rw [h1, h2] at h
        simp only [Except.bind_ok', Except.ok.injEq] at h
        subst h
        exact ⟨rfl, rfl, rfl, fun _ => .inr ⟨a, b, h1, h2, rfl, rfl⟩, fun h => h⟩
  · simp at h; subst h; exact ⟨rfl, rfl, rfl, id, id⟩

theorem updateLogicals_inv (s : State) :
    (updateLogicals s).lengths = s.lengths ∧ (updateLogicals s).sos = s.sos ∧ (updateLogicals s).eos = s.eos ∧
      (LInv s → LInv (updateLogicals s)) ∧ (FInv s → FInv (updateLogicals s)) := by
  unfold updateLogicals
  split
  · exact ⟨rfl, rfl, rfl, fun h => h, fun _ => .inr ⟨rfl, rfl, rfl, rfl, rfl, rfl⟩⟩
  · exact ⟨rfl, rfl, rfl, id, id⟩

theorem read_state {s s' : State} {q : Summary} {v : Val} (h : read s q = .ok (v, s')) :
    updateLengths s = .ok s' ∨ s' = updateLogicals s := by
  cases q <;> simp only [read] at h
  case minLength | maxLength =>
    left
    cases h1 : updateLengths s with
    | error e => rw [h1] at h; simp [Except.bind_error'] at h
    | ok t =>
      rw [h1] at h
      simp only [Except.bind_ok'] at h
      congr 1
      first
        | (cases h2 : cachedInt t.minLength with
            | error e => rw [h2] at h; simp [Except.bind_error'] at h
            | ok w => rw [h2] at h; simp only [Except.bind_ok', Except.ok.injEq, Prod.mk.injEq] at h; exact h.2)
        | (cases h2 : cachedInt t.maxLength with
            | error e => rw [h2] at h; simp [Except.bind_error'] at h
            | ok w => rw [h2] at h; simp only [Except.bind_ok', Except.ok.injEq, Prod.mk.injEq] at h; exact h.2)
  all_goals
    right
    revert h
    generalize cachedBool _ = c
    cases c with
    | error e => intro h; simp [Except.bind_error'] at h
    | ok w => intro h; simp only [Except.bind_ok', Except.ok.injEq, Prod.mk.injEq] at h; exact h.2.symm

theorem read_inv {s s' : State} {q : Summary} {v : Val} (h : read s q = .ok (v, s')) :
    s'.lengths = s.lengths ∧ s'.sos = s.sos ∧ s'.eos = s.eos ∧ (LInv s → LInv s') ∧ (FInv s → FInv s') := by
  rcases read_state h with h | rfl
  · exact updateLengths_inv h
  · exact updateLogicals_inv s

theorem setStarting_inv (s : State) (v : List Int) : (LInv s → LInv (setStarting s v)) ∧ (FInv s → FInv (setStarting s v)) := by
  unfold setStarting
  split
  · exact ⟨fun _ => .inl rfl, fun h => h⟩
  · exact ⟨id, id⟩

theorem setEnding_inv (s : State) (v : List Int) : (LInv s → LInv (setEnding s v)) ∧ (FInv s → FInv (setEnding s v)) := by
  unfold setEnding
  split
  · exact ⟨fun _ => .inl rfl, fun h => h⟩
  · exact ⟨id, id⟩

theorem step_inv (s : State) (op : Op) (hop : op.assigns = true) (h : LInv s ∧ FInv s) : LInv (step s op) ∧ FInv (step s op) := by
  cases op with
  | setSos v => exact ⟨h.1, .inl rfl⟩
  | setEos v => exact ⟨h.1, .inl rfl⟩
  | setLengths v => exact ⟨.inl rfl, h.2⟩
  | setStarting v => exact ⟨(setStarting_inv s v).1 h.1, (setStarting_inv s v).2 h.2⟩
  | setEnding v => exact ⟨(setEnding_inv s v).1 h.1, (setEnding_inv s v).2 h.2⟩
  | addLengths k => exact ⟨.inl rfl, h.2⟩
  | addStarting k =>
    simp only [step]; split
    · exact ⟨(setStarting_inv s _).1 h.1, (setStarting_inv s _).2 h.2⟩
    · exact h
  | addEnding k =>
    simp only [step]; split
    · exact ⟨(setEnding_inv s _).1 h.1, (setEnding_inv s _).2 h.2⟩
    · exact h
  | read q =>
    simp only [step]; split
    · rename_i s' heq
      have := read_inv heq
      exact ⟨this.2.2.2.1 h.1, this.2.2.2.2 h.2⟩
    · exact h
  | writeLength i v => simp [Op.assigns] at hop
  | writeSos i v => simp [Op.assigns] at hop
  | writeEos i v => simp [Op.assigns] at hop

theorem run_inv (s : State) (ops : List Op) (hops : ∀ op ∈ ops, op.assigns = true) (h : LInv s ∧ FInv s) : LInv (run s ops) ∧ FInv (run s ops) := by
  unfold run
  induction ops generalizing s with
  | nil => exact h
  | cons op ops ih =>
    exact ih (step s op) (fun o ho => hops o (by simp [ho])) (step_inv s op (hops op (by simp)) h)

theorem any_mem (bs : List Bool) : bs.any id = decide (true ∈ bs) := by
  induction bs with
  | nil => rfl
  | cons b bs ih => cases b <;> simp_all

theorem all_mem (bs : List Bool) : bs.all id = decide (∀ b ∈ bs, b = true) := by
  induction bs with
  | nil => rfl
  | cons b bs ih => cases b <;> simp_all

theorem torchMinMax_error (xs : List Int) : (torchMin xs = .error .runtimeError ∧ torchMax xs = .error .runtimeError) ∨
    ∃ a b, torchMin xs = .ok a ∧ torchMax xs = .ok b := by
  cases xs with
  | nil => left; exact ⟨rfl, rfl⟩
  | cons x xs => right; exact ⟨_, _, rfl, rfl⟩

theorem read_lengths (s : State) (h : LInv s) :
    (read s .minLength).map (·.1) = truth s.sos s.eos s.lengths .minLength ∧
    (read s .maxLength).map (·.1) = truth s.sos s.eos s.lengths .maxLength := by
  have key : (∃ t, updateLengths s = .ok t ∧ ∃ a b, torchMin s.lengths = .ok a ∧ torchMax s.lengths = .ok b ∧ t.minLength = some a ∧ t.maxLength = some b) ∨
      (updateLengths s = .error .runtimeError ∧ torchMin s.lengths = .error .runtimeError ∧ torchMax s.lengths = .error .runtimeError) := by
    unfold updateLengths
    by_cases hu : s.lengthsUpdated = true
    · rw [if_pos hu]
      rcases torchMinMax_error s.lengths with ⟨h1, h2⟩ | ⟨a, b, h1, h2⟩
      · right; exact ⟨by rw [h1]; rfl, h1, h2⟩
      · left; exact ⟨_, by rw [h1, h2]; rfl, a, b, h1, h2, rfl, rfl⟩
    · rw [if_neg hu]
      rcases h with h | ⟨a, b, h1, h2, h3, h4⟩
      · exact absurd h hu
      · left; exact ⟨s, rfl, a, b, h1, h2, h3, h4⟩
  rcases key with ⟨t, e, a, b, h1, h2, h3, h4⟩ | ⟨e, h1, h2⟩
  · simp [read, e, Except.bind_ok', h3, h4, cachedInt, truth, h1, h2, map_ok']
  · simp [read, e, Except.bind_error', truth, h1, h2, map_error']

theorem read_flags (s : State) (h : FInv s) (q : Summary) (hq : q ≠ .minLength ∧ q ≠ .maxLength) :
    (read s q).map (·.1) = truth s.sos s.eos s.lengths q := by
  have key : (updateLogicals s).anyStarting = some (s.sos.any id) ∧ (updateLogicals s).anyEnding = some (s.eos.any id) ∧ (updateLogicals s).allStarting = some (s.sos.all id) ∧
      (updateLogicals s).allEnding = some (s.eos.all id) ∧ (updateLogicals s).anyStartingOrEnding = some (s.sos.any id || s.eos.any id) ∧
      (updateLogicals s).allStartingAndEnding = some (s.sos.all id && s.eos.all id) := by
    unfold updateLogicals
    by_cases hu : s.sosOrEosUpdated = true
    · rw [if_pos hu]; exact ⟨rfl, rfl, rfl, rfl, rfl, rfl⟩
    · rw [if_neg hu]
      rcases h with h | h
      · exact absurd h hu
      · exact h
  obtain ⟨k1, k2, k3, k4, k5, k6⟩ := key
  cases q
  · simp at hq
  · simp at hq
  all_goals
    simp only [read, k1, k2, k3, k4, k5, k6, cachedBool, Except.bind_ok', map_ok', truth, any_mem, all_mem]
    try simp only [Bool.decide_or, Bool.decide_and]

/-- **C25.** After any history of assignments through the public attributes interleaved with reads, every summary read
equals what the current columns say (RuntimeError for the minimum and maximum of an empty batch). -/
theorem C25_caches (sos eos : List Bool) (lengths : List Int) (ops : List Op) (hops : ∀ op ∈ ops, op.assigns = true) (q : Summary) :
    (read (run (fresh sos eos lengths) ops) q).map (·.1) =
      truth (run (fresh sos eos lengths) ops).sos (run (fresh sos eos lengths) ops).eos (run (fresh sos eos lengths) ops).lengths q := by
  have h := run_inv (fresh sos eos lengths) ops hops ⟨.inl rfl, .inl rfl⟩
  generalize run (fresh sos eos lengths) ops = s at h
  by_cases h1 : q = .minLength
  · subst h1; exact (read_lengths s h.1).1
  · by_cases h2 : q = .maxLength
    · subst h2; exact (read_lengths s h.1).2
    · exact read_flags s h.2 q ⟨h1, h2⟩

example : (∀ op ∈ [Op.read .maxLength, .addStarting 3, .read .maxLength, .setSos [false, false], .setEnding [9]], op.assigns = true) ∧
    run (fresh [true, false] [false, true] [2, 4]) [Op.read .maxLength, .addStarting 3, .read .maxLength, .setSos [false, false], .setEnding [9]] =
      { sos := [false, false], eos := [false, true], lengths := [5, 9], minLength := some 4, maxLength := some 5 } := by decide

theorem addMask_eq (ls : List Int) (bs : List Bool) (k : Int) (h : bs.length = ls.length) :
    ∃ v, torchMask ls bs = .ok v ∧ maskAssign ls bs (v.map (· + k)) = .ok (List.zipWith (fun l b => if b = true then l + k else l) ls bs) := by
  refine ⟨_, if_pos h, ?_⟩
  have hlen : ((ls.zip bs).filterMap fun p => if p.2 = true then some p.1 else none).length = (bs.filter id).length := by
    induction ls generalizing bs with
    | nil => cases bs <;> simp_all
    | cons l ls ih =>
      cases bs with
      | nil => simp at h
      | cons b bs =>
        have := ih bs (by simpa using h)
        cases b <;> simp_all
  unfold maskAssign
  rw [if_neg (by omega), if_pos (by rw [List.length_map, hlen])]
  congr 1
  clear hlen
  induction ls generalizing bs with
  | nil => cases bs <;> simp [maskAssign.go]
  | cons l ls ih =>
    cases bs with
    | nil => simp at h
    | cons b bs =>
      have := ih bs (by simpa using h)
      cases b <;> simpa [maskAssign.go] using this

/-- C25, the columns themselves: assignments store what they are given, `meta.starting_lengths += k` adds `k` to exactly the starting rows
(`ending_lengths` likewise), each leaves the other columns alone, and reads change no column. -/
theorem C25_columns (s : State) (hs : s.sos.length = s.lengths.length) (he : s.eos.length = s.lengths.length) :
    (∀ v, (step s (.setSos v)).sos = v ∧ (step s (.setSos v)).eos = s.eos ∧ (step s (.setSos v)).lengths = s.lengths) ∧
    (∀ v, (step s (.setEos v)).eos = v ∧ (step s (.setEos v)).sos = s.sos ∧ (step s (.setEos v)).lengths = s.lengths) ∧
    (∀ v, (step s (.setLengths v)).lengths = v ∧ (step s (.setLengths v)).sos = s.sos ∧ (step s (.setLengths v)).eos = s.eos) ∧
    (∀ k, (step s (.addStarting k)).lengths = List.zipWith (fun l b => if b = true then l + k else l) s.lengths s.sos ∧
      (step s (.addStarting k)).sos = s.sos ∧ (step s (.addStarting k)).eos = s.eos) ∧
    (∀ k, (step s (.addEnding k)).lengths = List.zipWith (fun l b => if b = true then l + k else l) s.lengths s.eos ∧
      (step s (.addEnding k)).sos = s.sos ∧ (step s (.addEnding k)).eos = s.eos) ∧
    (∀ q, (step s (.read q)).lengths = s.lengths ∧ (step s (.read q)).sos = s.sos ∧ (step s (.read q)).eos = s.eos) := by
  refine ⟨fun v => ⟨rfl, rfl, rfl⟩, fun v => ⟨rfl, rfl, rfl⟩, fun v => ⟨rfl, rfl, rfl⟩, ?_, ?_, ?_⟩
  · intro k
    obtain ⟨v, h1, h2⟩ := addMask_eq s.lengths s.sos k hs
    simp only [step, h1, setStarting, h2]
    exact ⟨trivial, trivial, trivial⟩
  · intro k
    obtain ⟨v, h1, h2⟩ := addMask_eq s.lengths s.eos k he
    simp only [step, h1, setEnding, h2]
    exact ⟨trivial, trivial, trivial⟩
  · intro q
    simp only [step]
    split
    · rename_i s' heq
      have := read_inv heq
      exact ⟨this.1, this.2.1, this.2.2.1⟩
    · exact ⟨rfl, rfl, rfl⟩

example : (fresh [true, false] [false, true] [2, 4]).sos.length = (fresh [true, false] [false, true] [2, 4]).lengths.length ∧
    (step (fresh [true, false] [false, true] [2, 4]) (.addEnding 3)).lengths = [2, 7] := by decide

theorem go_scalar (v : Int) : ∀ (xs : List Int) (bs : List Bool) (n : Nat), bs.length = xs.length → (bs.filter id).length ≤ n →
    maskAssign.go xs bs (List.replicate n v) = List.zipWith (fun l b => if b = true then v else l) xs bs := by
  intro xs
  induction xs with
  | nil => intro bs n h _; cases bs <;> simp [maskAssign.go]
  | cons x xs ih =>
    intro bs n h hn
    cases bs with
    | nil => simp at h
    | cons b bs =>
      cases b with
      | false => simpa [maskAssign.go] using ih bs n (by simpa using h) (by simpa using hn)
      | true =>
        cases n with
        | zero => simp at hn
        | succ n => simpa [maskAssign.go, List.replicate_succ] using ih bs n (by simpa using h) (by simpa using hn)

theorem go_values : ∀ (xs : List Int) (bs : List Bool) (vs : List Int), bs.length = xs.length → vs.length = (bs.filter id).length →
    ((maskAssign.go xs bs vs).zip bs).filterMap (fun p => if p.2 = true then some p.1 else none) = vs ∧
    ((maskAssign.go xs bs vs).zip bs).filterMap (fun p => if p.2 = true then none else some p.1) = (xs.zip bs).filterMap (fun p => if p.2 = true then none else some p.1) ∧
    (maskAssign.go xs bs vs).length = xs.length := by
  intro xs
  induction xs with
  | nil => intro bs vs h hv; cases bs <;> cases vs <;> simp_all [maskAssign.go]
  | cons x xs ih =>
    intro bs vs h hv
    cases bs with
    | nil => simp at h
    | cons b bs =>
      cases b with
      | false => simpa [maskAssign.go] using ih bs vs (by simpa using h) (by simpa using hv)
      | true =>
        cases vs with
        | nil => simp at hv
        | cons v vs => simpa [maskAssign.go] using ih bs vs (by simpa using h) (by simpa using hv)

/-- C25, assigning to `starting_lengths` and `ending_lengths`: one value goes to every row with the flag and to no other; as many values as there are such rows are read back from those
rows in order, the others keeping theirs; any other number of values changes nothing. -/
theorem C25_masked (s : State) (hs : s.sos.length = s.lengths.length) (he : s.eos.length = s.lengths.length) :
    (∀ v, (step s (.setStarting [v])).lengths = List.zipWith (fun l b => if b = true then v else l) s.lengths s.sos) ∧
    (∀ v, (step s (.setEnding [v])).lengths = List.zipWith (fun l b => if b = true then v else l) s.lengths s.eos) ∧
    (∀ vs, vs.length = (s.sos.filter id).length →
      ((step s (.setStarting vs)).lengths.zip s.sos).filterMap (fun p => if p.2 = true then some p.1 else none) = vs ∧
      ((step s (.setStarting vs)).lengths.zip s.sos).filterMap (fun p => if p.2 = true then none else some p.1) =
        (s.lengths.zip s.sos).filterMap (fun p => if p.2 = true then none else some p.1) ∧
      (step s (.setStarting vs)).lengths.length = s.lengths.length) ∧
    (∀ vs, vs.length = (s.eos.filter id).length →
      ((step s (.setEnding vs)).lengths.zip s.eos).filterMap (fun p => if p.2 = true then some p.1 else none) = vs ∧
      ((step s (.setEnding vs)).lengths.zip s.eos).filterMap (fun p => if p.2 = true then none else some p.1) =
        (s.lengths.zip s.eos).filterMap (fun p => if p.2 = true then none else some p.1) ∧
      (step s (.setEnding vs)).lengths.length = s.lengths.length) ∧
    (∀ vs, vs.length ≠ (s.sos.filter id).length → vs.length ≠ 1 → step s (.setStarting vs) = s) ∧
    (∀ vs, vs.length ≠ (s.eos.filter id).length → vs.length ≠ 1 → step s (.setEnding vs) = s) := by
  have one : ∀ (bs : List Bool) (v : Int), bs.length = s.lengths.length →
      maskAssign s.lengths bs [v] = .ok (List.zipWith (fun l b => if b = true then v else l) s.lengths bs) := by
    intro bs v h
    unfold maskAssign
    rw [if_neg (by omega)]
    split
    · rename_i hc
      rw [show [v] = List.replicate 1 v from rfl, go_scalar v _ _ _ h (by rw [← hc]; simp)]
    · have : (bs.filter id).length ≤ bs.length := List.length_filter_le _ _
      simp only [go_scalar v _ _ _ h (by omega : (bs.filter id).length ≤ s.lengths.length)]
  have many : ∀ (bs : List Bool) (vs : List Int), bs.length = s.lengths.length → vs.length = (bs.filter id).length →
      maskAssign s.lengths bs vs = .ok (maskAssign.go s.lengths bs vs) := by
    intro bs vs h hv
    unfold maskAssign
    rw [if_neg (by omega), if_pos hv]
  have wrong : ∀ (bs : List Bool) (vs : List Int), bs.length = s.lengths.length → vs.length ≠ (bs.filter id).length → vs.length ≠ 1 → ∃ e, maskAssign s.lengths bs vs = .error e := by
    intro bs vs h hv h1
    unfold maskAssign
    rw [if_neg (by omega), if_neg hv]
    match vs, h1 with
    | [], _ => exact ⟨_, rfl⟩
    | [_], h1 => exact absurd rfl h1
    | _ :: _ :: _, _ => exact ⟨_, rfl⟩
  refine ⟨?_, ?_, ?_, ?_, ?_, ?_⟩
  · intro v; simp only [step, setStarting, one _ v hs]
  · intro v; simp only [step, setEnding, one _ v he]
  · intro vs hv
    simp only [step, setStarting, many _ vs hs hv]
    exact go_values _ _ _ hs hv
  · intro vs hv
    simp only [step, setEnding, many _ vs he hv]
    exact go_values _ _ _ he hv
  · intro vs hv h1
    obtain ⟨e, h⟩ := wrong _ vs hs hv h1
    simp only [step, setStarting, h]
  · intro vs hv h1
    obtain ⟨e, h⟩ := wrong _ vs he hv h1
    simp only [step, setEnding, h]

example : (step (fresh [true, false, true] [false, true, false] [2, 4, 6]) (.setStarting [9])).lengths = [9, 4, 9] ∧
    (step (fresh [true, false, true] [false, true, false] [2, 4, 6]) (.setStarting [7, 8])).lengths = [7, 4, 8] ∧
    (step (fresh [true, false, true] [false, true, false] [2, 4, 6]) (.setStarting [7, 8, 9])).lengths = [2, 4, 6] := by decide

/-- **C26 is false of the code.** After a read of `max_length`, an element write is not seen by the next read. -/
theorem C26_element_write_false :
    (read (run (fresh [true] [true] [3]) [.read .maxLength, .writeLength 0 7]) .maxLength).map (·.1) = .ok (.inl 3) ∧
    (run (fresh [true] [true] [3]) [.read .maxLength, .writeLength 0 7]).lengths = [7] := by decide

theorem dirty_step (s : State) (op : Op) (hop : ∀ q, op ≠ .read q) (h : s.lengthsUpdated = true) : (step s op).lengthsUpdated = true := by
  cases op with
  | read q => exact absurd rfl (hop q)
  | setStarting v => simp only [step, setStarting]; split <;> simp [h]
  | setEnding v => simp only [step, setEnding]; split <;> simp [h]
  | addStarting k => simp only [step]; split <;> [(simp only [setStarting]; split <;> simp [h]); exact h]
  | addEnding k => simp only [step]; split <;> [(simp only [setEnding]; split <;> simp [h]); exact h]
  | _ => simp [step, h]

/-- C26, what holds: element writes are reflected if the lengths were (re)assigned, or the object created, after the last read of a summary:
for any history `pre`, an assignment of the whole column, then any operations except reads, the next reads are right.
Missing: element writes after a read; see `C26_element_write_false`. -/
theorem C26_element_write_partial (s : State) (v : List Int) (ops : List Op) (hops : ∀ op ∈ ops, ∀ q, op ≠ .read q) :
    (read (run s (.setLengths v :: ops)) .minLength).map (·.1) = (torchMin (run s (.setLengths v :: ops)).lengths).map .inl ∧
    (read (run s (.setLengths v :: ops)) .maxLength).map (·.1) = (torchMax (run s (.setLengths v :: ops)).lengths).map .inl := by
  have key : ∀ (t : State), t.lengthsUpdated = true → (run t ops).lengthsUpdated = true := by
    unfold run
    induction ops with
    | nil => exact fun t h => h
    | cons op ops ih => exact fun t h => ih (fun o ho => hops o (by simp [ho])) _ (dirty_step t op (hops op (by simp)) h)
  exact read_lengths _ (.inl (key _ rfl))

example : (run (fresh [true] [true] [3]) [.read .maxLength, .setLengths [5], .writeLength 0 7]).lengthsUpdated = true ∧
    (read (run (fresh [true] [true] [3]) [.read .maxLength, .setLengths [5], .writeLength 0 7]) .maxLength).map (·.1) = .ok (.inl 7) := by decide

end DS.Cache
