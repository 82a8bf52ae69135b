import Verif.Model.LoaderOpts
import Verif.Props.Loader
import Verif.Lemmas.Tensor
/-!
# C133-C135: options of the loaders
-/

namespace DS.Data

/-! ## C133: which loaders can be constructed -/

/-- C133, what holds: the constructor accepts exactly the combinations in which `drop_last` comes with overlapping batches and a list of datasets without
`num_workers`. The number of streams is then the length of the list, or `num_workers`. Missing: a positive `num_workers` with a list is not ignored. -/
theorem C133_accepts_partial (a : LoaderArgs) (listLen : Option Nat) :
    ((∃ m, Multi.new a listLen = .ok m) ↔ (a.dropLast = true → a.overlapping = true) ∧ (listLen.isSome → a.numWorkers ≤ 0)) ∧
    ∀ m, Multi.new a listLen = .ok m → m.cfg = ⟨a.batchSize, (listLen.map Int.ofNat).getD a.numWorkers, a.shuffle, a.overlapping, a.dropLast⟩ := by
  constructor
  · unfold Multi.new LoaderCfg.new
    cases hd : a.dropLast <;> cases ho : a.overlapping <;> cases listLen with
    | none => simp [Except.bind_ok', Except.bind_error']
    | some n =>
      by_cases h : 0 < a.numWorkers
      · simp [h, Except.bind_error']
      · simp [h, Except.bind_ok', Except.bind_error']; try omega
  · intro m h
    unfold Multi.new LoaderCfg.new at h
    cases hd : a.dropLast <;> cases ho : a.overlapping <;> rw [hd, ho] at h <;> cases listLen with
    | none =>
      simp [Except.bind_ok', Except.bind_error'] at h
      try (rw [← h]; rfl)
    | some n =>
      by_cases h' : 0 < a.numWorkers
      · simp [h', Except.bind_error'] at h
      · simp [h', Except.bind_ok', Except.bind_error'] at h
        try (rw [← h]; rfl)

/-- C133 is false: the documentation says that `num_workers` has no effect with a list of datasets, but one worker more than none is refused. -/
theorem C133_list_false (a : LoaderArgs) (n : Nat) (h : 0 < a.numWorkers) : Multi.new a (some n) = .error .valueError := by
  unfold Multi.new LoaderCfg.new
  cases a.dropLast <;> cases a.overlapping <;> simp [h, Except.bind_error']

/-- Default arguments. -/
def exArgs : LoaderArgs := ⟨1, false, 0, false, false, 0, none, false, false⟩

example : Multi.new exArgs (some 2) = .ok ⟨⟨1, 2, false, false, false⟩, ⟨1, 0, none, false, false, false⟩⟩ := by decide
example : Multi.new { exArgs with numWorkers := 2 } (some 2) = .error .valueError := by decide
example : Multi.new { exArgs with dropLast := true } none = .error .valueError ∧
    (Multi.new { exArgs with dropLast := true, overlapping := true } none).map (fun m => m.cfg.dropLast) = .ok true := by decide

/-! ## C134: the options reach the DataLoaders -/

/-- C134, what holds: a constructed loader over at least one stream starts exactly if the timeout is not negative and, without workers, there is no timeout, no
`persistent_workers` and no context; with workers, a prefetch factor must be positive unless a list of datasets was given, in which case it is ignored.
Missing: that every loader that was constructed starts, and that the prefetch factor is used. -/
theorem C134_starts_partial (a : LoaderArgs) (listLen : Option Nat) (m : Multi) (h : Multi.new a listLen = .ok m) (n : Nat) (hn : 0 < n) :
    startAll false m.kwargs n = .ok () ↔ 0 ≤ a.timeout ∧
      ((listLen.map Int.ofNat).getD a.numWorkers = 0 → a.timeout = 0 ∧ a.persistent = false ∧ a.context = false) ∧
      (0 < a.numWorkers → ∀ p, a.prefetch = some p → 0 < p) := by
  obtain ⟨h1, h2⟩ := C133_accepts_partial a listLen
  have hl : listLen.isSome → a.numWorkers ≤ 0 := (h1.1 ⟨m, h⟩).2
  have hcfg := h2 m h
  have hkw : m.kwargs = ⟨if m.cfg.numWorkers = 0 then 0 else 1, a.timeout, if 0 < a.numWorkers then a.prefetch else none, a.persistent, a.context, false⟩ := by
    unfold Multi.new at h
    obtain ⟨c, _, h'⟩ := ok_of_bind h
    injection h' with h'
    rw [← h']
  have hN : m.cfg.numWorkers = (listLen.map Int.ofNat).getD a.numWorkers := by rw [hcfg]
  rw [hkw, hN]
  generalize hW : (listLen.map Int.ofNat).getD a.numWorkers = W
  have hpos : 0 < a.numWorkers → W = a.numWorkers := by
    intro hp
    cases listLen with
    | none => exact hW.symm
    | some k => exact absurd (hl rfl) (by omega)
  have hn' : n ≠ 0 := by omega
  unfold startAll DLArgs.new DLArgs.iter
  rw [if_neg hn']
  by_cases hw : W = 0
  · have hnp : ¬ 0 < a.numWorkers := fun hp => by have := hpos hp; omega
    simp only [hw, if_true, if_neg hnp, Option.isSome_none, Option.any_none]
    by_cases ht : a.timeout < 0
    · simp [ht, Except.bind_error', show ¬ 0 ≤ a.timeout by omega]
    · cases hp : a.persistent <;> cases hc : a.context <;> simp [ht, Except.bind_error', Except.bind_ok', hnp]
      by_cases h0 : a.timeout = 0
      · simp [h0]
      · simp [h0]
  · simp only [hw, if_false]
    by_cases ht : a.timeout < 0
    · simp [ht, Except.bind_error', show ¬ 0 ≤ a.timeout by omega]
    · have ht' : 0 ≤ a.timeout := by omega
      by_cases hp : 0 < a.numWorkers
      · cases hq : a.prefetch with
        | none => simp [ht, hp, Except.bind_ok', ht']
        | some p =>
          by_cases hp0 : p < 0
          · simp [ht, hp, hp0, Except.bind_error', ht', show ¬ 0 < p by omega]
          · by_cases hp1 : p = 0
            · simp [ht, hp, hp1, Except.bind_ok', ht']
            · simp [ht, hp, hp0, hp1, Except.bind_ok', ht', show 0 < p by omega]
      · simp [ht, hp, Except.bind_ok', ht']

/-- C134 is false: `persistent_workers=True` (also a timeout, or a context) without workers is accepted by the constructor, and every iteration raises. -/
theorem C134_persistent_false : ∃ a m, Multi.new a none = .ok m ∧ a.persistent = true ∧ startAll false m.kwargs 1 = .error .valueError :=
  ⟨{ exArgs with persistent := true }, ⟨⟨1, 0, false, false, false⟩, ⟨0, 0, none, true, false, false⟩⟩, by decide⟩

/-- C134 is false in a second way: for a list of datasets every one gets a worker, but the prefetch factor is dropped, whatever it is. -/
theorem C134_prefetch_false (a : LoaderArgs) (n : Nat) (m : Multi) (h : Multi.new a (some (n + 1)) = .ok m) : m.kwargs.numWorkers = 1 ∧ m.kwargs.prefetch = none := by
  have hl : a.numWorkers ≤ 0 := (((C133_accepts_partial a (some (n + 1))).1).1 ⟨m, h⟩).2 rfl
  have hcfg := (C133_accepts_partial a (some (n + 1))).2 m h
  unfold Multi.new at h
  obtain ⟨c, _, h'⟩ := ok_of_bind h
  injection h' with h'
  subst h'
  dsimp only at hcfg ⊢
  rw [hcfg]
  refine ⟨?_, if_neg (by omega)⟩
  rw [if_neg]
  show ¬ (Int.ofNat (n + 1) = 0)
  simp only [Int.ofNat_eq_natCast]
  omega

example : (Multi.new { exArgs with prefetch := some 4 } (some 2)).map (fun m => m.kwargs.prefetch) = .ok none := by decide
example : (Multi.new { exArgs with numWorkers := 2, prefetch := some 4, persistent := true } none).bind (fun m => startAll false m.kwargs 2) = .ok () := by decide

/-! ## C135: the one-process loader -/

section
variable {α : Type}

/-- C135, what holds: with at most one worker and without `drop_last`, timeout and `persistent_workers` (and with a prefetch factor only for a worker) the
one-process loader can be constructed and yields exactly what the loader without workers yields. Missing: those options, and lists of datasets with one worker. -/
theorem C135_delivers_partial (disk : Disk α) (a : LoaderArgs) (h0 : 0 ≤ a.numWorkers) (h1 : a.numWorkers ≤ 1) (hd : a.dropLast = false) (ht : a.timeout = 0)
    (hp : a.persistent = false) (hf : ∀ p, a.prefetch = some p → 0 < p ∧ a.numWorkers = 1) (d : Dataset α) (order : List Nat)
    (orders : List (List String) → List (List String)) :
    ∃ l, OneProcess.new a none = .ok l ∧
      ∀ fuel, l.iter disk (.single d) order orders fuel = loader disk ⟨a.batchSize, 0, a.shuffle, a.overlapping, false⟩ d order orders fuel := by
  have houter : (DLArgs.new ⟨a.numWorkers, a.timeout, a.prefetch, a.persistent, false, a.dropLast⟩) = .ok () := by
    unfold DLArgs.new
    rw [ht, hp, hd]
    cases hq : a.prefetch with
    | none => simp [show ¬ a.numWorkers < 0 by omega]
    | some p =>
      obtain ⟨hp1, hp2⟩ := hf p hq
      simp [hp2, show ¬ p < 0 by omega]
  have hit : (DLArgs.iter false ⟨a.numWorkers, a.timeout, a.prefetch, a.persistent, false, a.dropLast⟩) = .ok () := by
    unfold DLArgs.iter
    rw [ht]
    by_cases hw : a.numWorkers = 0
    · simp [hw]
    · rw [if_neg hw, if_neg]
      · rfl
      · intro h
        exact absurd (hf 0 h).1 (by omega)
  refine ⟨⟨⟨⟨a.batchSize, 0, a.shuffle, a.overlapping, false⟩, ⟨0, 0, none, false, false, false⟩⟩, ⟨a.numWorkers, a.timeout, a.prefetch, a.persistent, false, a.dropLast⟩⟩, ?_, ?_⟩
  · unfold OneProcess.new
    rw [if_neg (by omega), hd] at *
    unfold Multi.new LoaderCfg.new
    simp only [hd, Bool.false_and, Bool.false_eq_true, if_false, Except.bind_ok', if_true, ht, hp, lt_irrefl] at houter ⊢
    rw [houter, Except.bind_ok']
  · intro fuel
    unfold OneProcess.iter
    dsimp only
    rw [hit, Except.bind_ok']
    unfold Multi.iter loader
    dsimp only
    congr 1
    funext ds
    have : ∀ b n, startAll b ⟨0, 0, none, false, false, false⟩ n = .ok () := by
      intro b n
      unfold startAll
      split
      · rfl
      · rfl
    rw [this, Except.bind_ok']

/-- C135 is false: with `drop_last` the one-process loader can never be constructed, whatever the other arguments. -/
theorem C135_drop_last_false (a : LoaderArgs) (hd : a.dropLast = true) (listLen : Option Nat) : OneProcess.new a listLen = .error .valueError := by
  unfold OneProcess.new
  split
  · rfl
  · cases h : Multi.new { a with numWorkers := 0, prefetch := none, context := false } listLen with
    | error e =>
      unfold Multi.new LoaderCfg.new at h
      rw [Except.bind_error']
      cases ho : a.overlapping <;> cases listLen <;> simp [hd, ho, Except.bind_ok', Except.bind_error'] at h
      · rw [h]
      · rw [h]
    | ok m =>
      rw [Except.bind_ok']
      have : (DLArgs.new ⟨a.numWorkers, a.timeout, a.prefetch, a.persistent, false, a.dropLast⟩) = .error .valueError := by
        unfold DLArgs.new
        rw [hd]
        simp
      dsimp only
      rw [this, Except.bind_error']

/-- C135 is false: with one worker and `persistent_workers=True` (which torch allows) the loader is constructed, but the option also reaches the inner
DataLoaders, which have no workers: once the dataset was split every iteration raises. -/
theorem C135_persistent_false (disk : Disk α) (d : Dataset α) (order : List Nat) (orders : List (List String) → List (List String)) (fuel : Nat)
    (e : Dataset α) (es : List (Dataset α)) (hs : d.split disk 1 1 false false order = .ok (e :: es)) :
    ∃ l, OneProcess.new { exArgs with numWorkers := 1, persistent := true } none = .ok l ∧ l.iter disk (.single d) order orders fuel = .error .valueError := by
  refine ⟨⟨⟨⟨1, 0, false, false, false⟩, ⟨0, 0, none, true, false, false⟩⟩, ⟨1, 0, none, true, false, false⟩⟩, by decide, ?_⟩
  unfold OneProcess.iter Multi.iter
  show (do let ds ← d.split disk 1 1 false false order; _) = _
  rw [hs]
  rfl

/-- C135 is false: with one worker, a timeout reaches the inner DataLoaders and fails an assertion. -/
theorem C135_timeout_false (disk : Disk α) (d : Dataset α) (order : List Nat) (orders : List (List String) → List (List String)) (fuel : Nat)
    (e : Dataset α) (es : List (Dataset α)) (hs : d.split disk 1 1 false false order = .ok (e :: es)) (t : Int) (ht : 0 < t) :
    ∃ l, OneProcess.new { exArgs with numWorkers := 1, timeout := t } none = .ok l ∧ l.iter disk (.single d) order orders fuel = .error .assertionError := by
  have h1 : ¬ t < 0 := by omega
  refine ⟨⟨⟨⟨1, 0, false, false, false⟩, ⟨0, t, none, false, false, false⟩⟩, ⟨1, t, none, false, false, false⟩⟩, ?_, ?_⟩
  · simp [OneProcess.new, Multi.new, LoaderCfg.new, exArgs, DLArgs.new, Except.bind_ok', h1]
  · unfold OneProcess.iter Multi.iter
    show (do let ds ← d.split disk 1 1 false false order; _) = _
    rw [hs, Except.bind_ok']
    have : startAll true ⟨0, t, none, false, false, false⟩ (e :: es).length = .error .assertionError := by
      simp [startAll, DLArgs.new, DLArgs.iter, h1, Except.bind_ok', show t ≠ 0 by omega]
    show (do let _ ← startAll true ⟨0, t, none, false, false, false⟩ (e :: es).length; _) = _
    rw [this, Except.bind_error']

/-- C135 is false: a list of datasets with one worker is accepted, but that worker may not start the workers of the datasets. -/
theorem C135_list_false (disk : Disk α) (e : Dataset α) (es : List (Dataset α)) (order : List Nat) (orders : List (List String) → List (List String)) (fuel : Nat) :
    ∃ l, OneProcess.new { exArgs with numWorkers := 1 } (Source.list (e :: es)).listLen = .ok l ∧
      l.iter disk (.list (e :: es)) order orders fuel = .error .assertionError := by
  refine ⟨⟨⟨⟨1, (es.length + 1 : Nat), false, false, false⟩, ⟨1, 0, none, false, false, false⟩⟩, ⟨1, 0, none, false, false, false⟩⟩, ?_, ?_⟩
  · have : ¬ ((es.length : Int) + 1 = 0) := by omega
    simp [OneProcess.new, Multi.new, LoaderCfg.new, Source.listLen, exArgs, DLArgs.new, Except.bind_ok', this]
  · unfold OneProcess.iter Multi.iter
    rfl

end

example : exLoad.split exLoadDisk 1 1 false false [1, 2, 0] ≠ .ok [] ∧ (exLoad.split exLoadDisk 1 1 false false [1, 2, 0]).map List.length = .ok 1 := by
  constructor
  · intro h
    have : (exLoad.split exLoadDisk 1 1 false false [1, 2, 0]).map List.length = .ok 0 := by rw [h]; rfl
    revert this
    decide +kernel
  · decide +kernel
example : (OneProcess.new ⟨2, false, 1, false, false, 0, some 2, false, false⟩ none).bind
      (fun l => (l.iter exLoadDisk (.single exLoad) [1, 2, 0] id 20).map fun r => (r.1.map fun b => b.map fun s => (s.id, s.chunkIndex), r.2)) =
    .ok ([[("b", 0), ("c", 0)], [("c", 1)], [("a", 0)], [("a", 1)], [("a", 2)]], .returned) := by decide +kernel

end DS.Data
