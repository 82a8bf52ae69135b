import Verif.Props.ConvMore
import Verif.Model.ConvMem
/-! C102, C103, C105–C107: parallel branches, the caller's frames, mode changes between calls, restarted streams, failed calls. -/

namespace DS.Conv
open Meta
section
variable {α β γ : Type} [Zero α] [Zero β] [Zero γ]

/-! ### C102: parallel branches -/

/-- **C102 is false of the code.** Two branches with kernel width 2 on the first chunk `[1, 2, 3]` of a stream: the first branch leaves length 2 in
the metadata of the chunk, so the second one gives a single output instead of two. -/
theorem C102_parallel_false :
    let x : ST Int := { md := ⟨["a"], [true], [false], [3], none⟩, width := 3, rows := [[1, 2, 3]] }
    ((parallel ⟨2, 1, 1, 0⟩ exG (fun _ => none) ⟨2, 1, 1, 0⟩ exG (fun _ => none) x).map fun o => (o.1.y.md.lengths, o.2.y.md.lengths)) =
      .ok ([2], [1]) ∧
    ((forward ⟨2, 1, 1, 0⟩ exG (fun _ => none) x).map fun o => o.y.md.lengths) = .ok [2] := by decide

/-- A convolution that sees one frame at a time. -/
def Cfg.Pointwise (c : Cfg) : Prop := c.ks = 1 ∧ c.stride = 1 ∧ c.padding = 0

theorem pointwise_caller (c : Cfg) (hc : c.Pointwise) (g : List α → β) (buf : Buf α) (x : ST α) (hl : ∀ l ∈ x.md.lengths, 0 ≤ l) (o : Out α β)
    (ho : forward c g buf x = .ok o) : o.caller = x.md := by
  obtain ⟨h1, h2, h3⟩ := hc
  have hkw : c.kw = 1 := by simp [Cfg.kw, h1]
  have hcal := (C61_metadata_partial c g buf x o ho).2.2.2.2.2 (.inl (by omega))
  rw [hcal]
  unfold forward preHook at ho
  rw [if_neg (by omega), Except.bind_ok'] at ho
  obtain ⟨⟨y, its⟩, hy, ho⟩ := bind_ok_iff ho
  simp only [Except.ok.injEq] at ho
  subst ho
  unfold conv1d applyPadding at hy
  rw [if_neg (by omega), Except.bind_ok'] at hy
  obtain ⟨⟨n, yy⟩, -, hy⟩ := bind_ok_iff hy
  simp only [Except.ok.injEq, Prod.mk.injEq] at hy
  obtain ⟨rfl, -⟩ := hy
  have : x.md.lengths.map (outLen c) = x.md.lengths := by
    conv_rhs => rw [← List.map_id x.md.lengths]
    apply List.map_congr_left
    intro l hl'
    have := hl l hl'
    simp only [outLen, hkw, h2, id]
    omega
  simp [this]

/-- **C102, the part that holds.** The second branch sees the chunk as it was, so that both results are those of separate calls, if the kernel of the
first branch is wider than 1 and the batch has a row that does not start its stream, or if the first branch is pointwise (kernel size 1, stride 1, no
padding). Missing: all other cases, in which the second branch takes the output lengths of the first for the lengths of its input. -/
theorem C102_parallel_partial (c₁ : Cfg) (g₁ : List α → β) (b₁ : Buf α) (c₂ : Cfg) (g₂ : List α → γ) (b₂ : Buf α) (x : ST α)
    (h : (c₁.kw > 1 ∧ ∃ s ∈ x.md.sos, s = false) ∨ (c₁.Pointwise ∧ ∀ l ∈ x.md.lengths, 0 ≤ l)) (o₁ : Out α β) (o₂ : Out α γ) :
    parallel c₁ g₁ b₁ c₂ g₂ b₂ x = .ok (o₁, o₂) ↔ forward c₁ g₁ b₁ x = .ok o₁ ∧ forward c₂ g₂ b₂ x = .ok o₂ := by
  have key : ∀ o : Out α β, forward c₁ g₁ b₁ x = .ok o → o.caller = x.md := by
    intro o ho
    rcases h with ⟨h1, h2⟩ | ⟨h1, h2⟩
    · exact (C61_metadata_partial c₁ g₁ b₁ x o ho).2.2.2.2.1 h1 h2
    · exact pointwise_caller c₁ h1 g₁ b₁ x h2 o ho
  unfold parallel
  constructor
  · intro hp
    obtain ⟨p₁, h1, hp⟩ := bind_ok_iff hp
    obtain ⟨p₂, h2, hp⟩ := bind_ok_iff hp
    simp only [Except.ok.injEq, Prod.mk.injEq] at hp
    obtain ⟨rfl, rfl⟩ := hp
    rw [key _ h1] at h2
    exact ⟨h1, h2⟩
  · rintro ⟨h1, h2⟩
    rw [h1, Except.bind_ok', key _ h1]
    simp [h2, Except.bind_ok']

example : (parallel ⟨1, 1, 1, 0⟩ exG (fun _ => none) ⟨2, 1, 1, 0⟩ exG (fun _ => none)
    ({ md := ⟨["a"], [true], [false], [3], none⟩, width := 3, rows := [[1, 2, 3]] } : ST Int)).map (fun o => (o.1.y.rows, o.2.y.rows)) =
      .ok ([[1, 2, 3]], [[12, 23]]) := by decide
example : (⟨1, 1, 1, 0⟩ : Cfg).Pointwise := ⟨rfl, rfl, rfl⟩

/-- **C102, the part that holds, for whole runs.** With a pointwise first branch (a shortcut connection that is computed first), running both branches on the
same chunks is the same as running each of them alone. Missing: a convolution as the first branch (`C102_parallel_false`). -/
theorem C102_shortcut_first_partial (c₁ : Cfg) (hc : c₁.Pointwise) (g₁ : List α → β) (c₂ : Cfg) (g₂ : List α → γ) (xs : List (ST α))
    (hl : ∀ x ∈ xs, ∀ l ∈ x.md.lengths, 0 ≤ l) (b₁ b₂ : Buf α) (r₁ : List (ST β) × Buf α) (r₂ : List (ST γ) × Buf α) :
    parallelRun c₁ g₁ c₂ g₂ b₁ b₂ xs = .ok (r₁, r₂) ↔ run c₁ g₁ b₁ xs = .ok r₁ ∧ run c₂ g₂ b₂ xs = .ok r₂ := by
  induction xs generalizing b₁ b₂ r₁ r₂ with
  | nil => simp [parallelRun, run]
  | cons x xs ih =>
    have hx := C102_parallel_partial c₁ g₁ b₁ c₂ g₂ b₂ x (.inr ⟨hc, hl x (by simp)⟩)
    have ih := ih (fun z hz => hl z (by simp [hz]))
    unfold parallelRun run
    constructor
    · intro h
      obtain ⟨⟨o₁, o₂⟩, h1, h⟩ := bind_ok_iff h
      obtain ⟨⟨⟨ys, e₁⟩, ⟨zs, e₂⟩⟩, h2, h⟩ := bind_ok_iff h
      simp only [Except.ok.injEq, Prod.mk.injEq] at h
      obtain ⟨rfl, rfl⟩ := h
      obtain ⟨f1, f2⟩ := (hx o₁ o₂).1 h1
      obtain ⟨g1, g2⟩ := (ih _ _ _ _).1 h2
      simp [f1, f2, g1, g2, Except.bind_ok']
    · rintro ⟨h1, h2⟩
      obtain ⟨o₁, f1, h1⟩ := bind_ok_iff h1
      obtain ⟨⟨ys, e₁⟩, g1, h1⟩ := bind_ok_iff h1
      obtain ⟨o₂, f2, h2⟩ := bind_ok_iff h2
      obtain ⟨⟨zs, e₂⟩, g2, h2⟩ := bind_ok_iff h2
      simp only [Except.ok.injEq] at h1 h2
      subst h1 h2
      rw [(hx o₁ o₂).2 ⟨f1, f2⟩]
      simp only [Except.bind_ok', (ih _ _ _ _).2 ⟨g1, g2⟩]

example : ∀ x ∈ exXs, ∀ l ∈ x.md.lengths, 0 ≤ l := by decide

/-! ### C103: the caller's frames -/

/-- **C103 is false of the code.** A mixed batch whose width leaves room for the padding: `torch.conv1d` shifts the frames of the starting row within the
caller's tensor. So does a patched online `Conv1d` with kernel size 1 and padding. -/
theorem C103_frames_false :
    rowsAfter ⟨3, 1, 1, 1⟩ ({ md := ⟨["a", "b"], [true, false], [false, false], [2, 3], none⟩, width := 3, rows := [[1, 2, 0], [4, 5, 6]] } : ST Int) =
      [[0, 1, 2], [4, 5, 6]] ∧
    forwardRowsAfter ⟨1, 1, 1, 1⟩ ({ md := ⟨["a", "b"], [true, false], [false, false], [2, 3], none⟩, width := 3, rows := [[1, 2, 0], [4, 5, 6]] } : ST Int) =
      [[0, 1, 2], [4, 5, 6]] := by decide

theorem rowsAfter_eq (c : Cfg) (x : ST α) (h : c.padding = 0 ∨ (∀ s ∈ x.md.sos, s = true) ∨ (∀ s ∈ x.md.sos, s = false)) : rowsAfter c x = x.rows := by
  unfold rowsAfter
  split
  · rename_i hp
    rcases h with h | h
    · omega
    · have hsh : ∀ m : Meta, m.sos = x.md.sos → shiftStarting c.padding m x.rows = x.rows := by
        intro m hm
        unfold shiftStarting
        rw [if_neg]
        rcases h with h | h
        · have : m.allStarting = true := by unfold allStarting; rw [hm]; simpa using h
          simp [this]
        · have : m.anyStarting = false := by
            unfold anyStarting; rw [hm, List.any_eq_false]; intro s hs; simp [h s hs]
          simp [this]
      simp only
      split
      · rfl
      · split
        · rfl
        · split
          · rfl
          · exact hsh _ rfl
  · rfl

/-- **C103, the part that holds.** A patched online `Conv1d` whose kernel is wider than 1 leaves the frames of its argument alone, whatever the batch; and so does every
convolution without padding, and every convolution of a batch in which all rows start or none does. Missing: mixed batches with padding in unpatched modules or with
kernel width 1. -/
theorem C103_frames_partial (c : Cfg) (x : ST α) :
    (c.kw > 1 → forwardRowsAfter c x = x.rows) ∧
    (c.padding = 0 ∨ (∀ s ∈ x.md.sos, s = true) ∨ (∀ s ∈ x.md.sos, s = false) → rowsAfter c x = x.rows ∧ forwardRowsAfter c x = x.rows) := by
  refine ⟨?_, fun h => ⟨rowsAfter_eq c x h, ?_⟩⟩
  · intro hk
    unfold forwardRowsAfter
    split
    · rfl
    · rename_i h
      refine rowsAfter_eq c x (.inr (.inl ?_))
      have : x.md.allStarting = true := by
        cases e : x.md.allStarting with
        | true => rfl
        | false => exact absurd ⟨hk, e⟩ h
      unfold allStarting at this
      simpa using this
  · unfold forwardRowsAfter
    split
    · rfl
    · exact rowsAfter_eq c x h

example : exC.kw > 1 ∧ ∃ x ∈ exXs, ¬ ((∀ s ∈ x.md.sos, s = true) ∨ (∀ s ∈ x.md.sos, s = false)) := by decide

/-! ### C105: calls in other modes -/

/-- Calls that can use the streams: StreamTensors in online mode. -/
def OnlineStream : Bool × Input α → Bool
  | (true, .stream _) => true
  | _ => false

theorem call_other (c : Cfg) (g : List α → β) (buf : Buf α) (s : Bool) (i : Input α) (h : OnlineStream (s, i) = false) :
    (∃ e, call c g s buf i = .error e) ∨ ∃ y, call c g s buf i = .ok (y, buf) := by
  cases i with
  | plain w rows =>
    cases s with
    | true => exact .inl ⟨_, rfl⟩
    | false =>
      simp only [call, Bool.false_eq_true, if_false]
      cases torchConv1d c g c.padding w rows with
      | error e => exact .inl ⟨e, rfl⟩
      | ok y => exact .inr ⟨_, rfl⟩
  | stream x =>
    cases s with
    | true => simp [OnlineStream] at h
    | false => exact .inl ⟨_, rfl⟩

theorem calls_ok (c : Cfg) (g : List α → β) (buf buf' : Buf α) (s : Bool) (i : Input α) (r : List (Bool × Input α)) (y : Result β)
    (h : call c g s buf i = .ok (y, buf')) : calls c g buf ((s, i) :: r) = (.ok y :: (calls c g buf' r).1, (calls c g buf' r).2) := by
  rw [calls, h]

theorem calls_error (c : Cfg) (g : List α → β) (buf : Buf α) (s : Bool) (i : Input α) (r : List (Bool × Input α)) (e : PyErr)
    (h : call c g s buf i = .error e) : calls c g buf ((s, i) :: r) = (.error e :: (calls c g buf r).1, (calls c g buf r).2) := by
  rw [calls, h]

/-- **C105.** In every history of calls, online and offline, with StreamTensors and plain tensors, accepted and refused: the online calls on StreamTensors have the results, and
leave the buffers, that they have when all other calls are left out. -/
theorem C105_interleaving (c : Cfg) (g : List α → β) (h : List (Bool × Input α)) (buf : Buf α) :
    (calls c g buf h).1.length = h.length ∧
    ((h.zip (calls c g buf h).1).filter fun p => OnlineStream p.1).map (·.2) = (calls c g buf (h.filter OnlineStream)).1 ∧
    (calls c g buf h).2 = (calls c g buf (h.filter OnlineStream)).2 := by
  induction h generalizing buf with
  | nil => simp [calls]
  | cons e h ih =>
    obtain ⟨s, i⟩ := e
    cases ho : OnlineStream (s, i) with
    | true =>
      rw [List.filter_cons_of_pos ho]
      cases hc : call c g s buf i with
      | error e =>
        rw [calls_error _ _ _ _ _ _ _ hc, calls_error _ _ _ _ _ _ _ hc]
        simp [ho, ih buf]
      | ok r =>
        obtain ⟨y, buf'⟩ := r
        rw [calls_ok _ _ _ _ _ _ _ _ hc, calls_ok _ _ _ _ _ _ _ _ hc]
        simp [ho, ih buf']
    | false =>
      rw [List.filter_cons_of_neg (by simp [ho])]
      rcases call_other c g buf s i ho with ⟨e, he⟩ | ⟨y, hy⟩
      · rw [calls_error _ _ _ _ _ _ _ he]
        simpa [ho] using ih buf
      · rw [calls_ok _ _ _ _ _ _ _ _ hy]
        simpa [ho] using ih buf

/-- **C105, offline results.** Offline calls on plain tensors give the ordinary convolution, whatever streams are running. -/
theorem C105_offline (c : Cfg) (g : List α → β) (h : List (Bool × Input α)) (buf : Buf α) (k w : Nat) (rows : List (List α))
    (hk : h[k]? = some (false, .plain w rows)) :
    (calls c g buf h).1[k]? = some ((torchConv1d c g c.padding w rows).map fun y => .plain y.1 y.2) := by
  induction h generalizing buf k with
  | nil => simp at hk
  | cons e h ih =>
    obtain ⟨s, i⟩ := e
    cases k with
    | zero =>
      simp only [List.getElem?_cons_zero, Option.some.injEq, Prod.mk.injEq] at hk
      obtain ⟨rfl, rfl⟩ := hk
      simp only [calls, call, Bool.false_eq_true, if_false]
      cases torchConv1d c g c.padding w rows <;> simp [Except.map]
    | succ k =>
      simp only [List.getElem?_cons_succ] at hk
      unfold calls
      cases call c g s buf i with
      | error e => simpa using ih buf k hk
      | ok r => simpa using ih r.2 k hk

/-- An offline call and a refused one in the middle of a stream. -/
def exCalls : List (Bool × Input Int) :=
  [(true, .stream { md := ⟨["a"], [true], [false], [3], none⟩, width := 3, rows := [[1, 2, 3]] }), (false, .plain 2 [[8, 9]]),
   (true, .plain 2 [[8, 9]]), (true, .stream { md := ⟨["a"], [false], [true], [2], none⟩, width := 2, rows := [[4, 5]] })]
example : (calls ⟨2, 1, 1, 0⟩ exG (fun _ => none) exCalls).1.map (fun r => match r with
    | .ok (.stream y) => some y.rows
    | .ok (.plain _ r) => some r
    | .error _ => none) = [some [[12, 23]], some [[89]], none, some [[34, 45]]] := by decide

/-! ### C106: restarting a stream -/

/-- Stream `a` is abandoned after `[1, 2, 3]` and started again with `[7, 8]`, in a batch with the running stream `b`. -/
def exRestart : List (ST Int) :=
  [ { md := ⟨["a", "b"], [true, true], [false, false], [3, 3], none⟩, width := 3, rows := [[1, 2, 3], [4, 5, 6]] },
    { md := ⟨["a", "b"], [true, false], [false, false], [2, 2], none⟩, width := 2, rows := [[7, 8], [6, 5]] } ]

/-- **C106 is false of the code.** In a mixed batch the frames buffered for the abandoned sequence are put in front of the new one: `[37, 78]` instead of `[78]`. -/
theorem C106_restart_false :
    ((run ⟨2, 1, 1, 0⟩ exG (fun _ => none) exRestart).map fun r => (r.1.getD 1 ⟨⟨[], [], [], [], none⟩, 0, []⟩).rows) = .ok [[37, 78], [66, 65]] ∧
    offline ⟨2, 1, 1, 0⟩ exG [7, 8] = [78] := by decide

theorem update_congr (b₁ b₂ : Buf α) (kvs : List (String × List α)) (i : String) (h : b₁ i = b₂ i ∨ ∃ kv ∈ kvs, kv.1 = i) :
    update b₁ kvs i = update b₂ kvs i := by
  induction kvs generalizing b₁ b₂ with
  | nil => simpa [update] using h
  | cons kv kvs ih =>
    refine ih _ _ ?_
    by_cases he : i = kv.1
    · simp [he]
    · rcases h with h | ⟨k, hk, rfl⟩
      · exact .inl (by simp [he, h])
      · rcases List.mem_cons.1 hk with rfl | hk
        · exact absurd rfl he
        · exact .inr ⟨k, hk, rfl⟩

theorem postHook_congr (b₁ b₂ : Buf α) (m : Meta) (kvs : List (String × List α)) (i : String)
    (h : b₁ i = b₂ i ∨ (∃ kv ∈ kvs, kv.1 = i) ∨ (i, true) ∈ m.ids.zip m.eos) : postHook b₁ m kvs i = postHook b₂ m kvs i := by
  unfold postHook
  by_cases he : (i, true) ∈ m.ids.zip m.eos
  · have : m.anyEnding = true := by
      unfold anyEnding
      rw [List.any_eq_true]
      exact ⟨true, (List.of_mem_zip he).2, rfl⟩
    simp only [this, if_true]
    unfold dropEnded
    rw [dropEnded_go, dropEnded_go, if_pos he, if_pos he]
  · have hu := update_congr b₁ b₂ kvs i (by rcases h with h | h | h; exacts [.inl h, .inr h, absurd h he])
    split
    · unfold dropEnded
      rw [dropEnded_go, dropEnded_go, if_neg he, if_neg he, hu]
    · exact hu

theorem preHook_congr (c : Cfg) (b₁ b₂ : Buf α) (x : ST α) (h : c.kw ≤ 1 ∨ x.md.allStarting = true ∨ ∀ i ∈ x.md.ids, b₁ i = b₂ i) :
    preHook c b₁ x = preHook c b₂ x := by
  unfold preHook
  split
  · rename_i hk
    have : x.md.ids.map b₁ = x.md.ids.map b₂ := by
      apply List.map_congr_left
      rcases h with h | h | h
      · omega
      · rw [hk.2] at h; simp at h
      · exact h
    rw [this]
  · rfl

theorem bufItems_keys (c : Cfg) (ids : List String) (es : List Bool) (ls : List Int) (rs : List (List α)) (h1 : es.length = ids.length)
    (h2 : ls.length = ids.length) (h3 : rs.length = ids.length) (i : String) (hi : i ∈ ids) :
    (∃ kv ∈ bufItems c ids es ls rs, kv.1 = i) ∨ (i, true) ∈ ids.zip es := by
  induction ids generalizing es ls rs with
  | nil => simp at hi
  | cons a ids ih =>
    match es, ls, rs, h1, h2, h3 with
    | e :: es, l :: ls, r :: rs, h1, h2, h3 =>
      rcases List.mem_cons.1 hi with rfl | hi
      · cases e with
        | true => exact .inr (by simp)
        | false => exact .inl ⟨(i, (r.take l.toNat).drop (outLen c l * c.stride).toNat), by simp [bufItems, bufItem], rfl⟩
      · rcases ih es ls rs (by simpa using h1) (by simpa using h2) (by simpa using h3) hi with ⟨kv, hkv, he⟩ | h
        · exact .inl ⟨kv, by simp [bufItems, hkv], he⟩
        · exact .inr (by simp [h])

theorem addWhere_length (p : Int) (ls : List Int) (bs : List Bool) : (addWhere p ls bs).length = min ls.length bs.length := by
  simp [addWhere]

theorem applyPadding_sizes {c : Cfg} {x : ST α} {m : Meta} {p w : Nat} {rows : List (List α)} (h : applyPadding c x = .ok (m, p, w, rows))
    (h1 : x.md.sos.length = x.md.ids.length) (h2 : x.md.eos.length = x.md.ids.length) (h3 : x.md.lengths.length = x.md.ids.length)
    (h4 : x.rows.length = x.md.ids.length) : m.lengths.length = x.md.ids.length ∧ rows.length = x.md.ids.length := by
  have hpad : (padLengths c.padding x.md).length = x.md.ids.length := by
    unfold padLengths
    split
    · simpa using h3
    · split
      · rw [addWhere_length, addWhere_length]; omega
      · exact h3
  unfold applyPadding at h
  split at h
  · simp only at h
    split at h
    · simp only [Except.ok.injEq, Prod.mk.injEq] at h
      obtain ⟨rfl, -, -, rfl⟩ := h
      exact ⟨hpad, h4⟩
    · obtain ⟨ml, -, h⟩ := bind_ok_iff h
      obtain ⟨⟨w1, r1⟩, hw, h⟩ := bind_ok_iff h
      simp only [Except.ok.injEq, Prod.mk.injEq] at h
      obtain ⟨rfl, -, -, rfl⟩ := h
      refine ⟨hpad, ?_⟩
      have hr1 : r1.length = x.md.ids.length := by
        unfold widen at hw
        simp only at hw
        split at hw
        · split at hw
          · split at hw
            · simp only [Except.ok.injEq, Prod.mk.injEq] at hw
              rw [← hw.2]; simpa using h4
            · simp at hw
          · simp only [Except.ok.injEq, Prod.mk.injEq] at hw
            rw [← hw.2]; simpa using h4
        · simp only [Except.ok.injEq, Prod.mk.injEq] at hw
          rw [← hw.2]; exact h4
      unfold shiftStarting
      split
      · simp only [List.length_zipWith]; omega
      · exact hr1
  · simp only [Except.ok.injEq, Prod.mk.injEq] at h
    obtain ⟨rfl, -, -, rfl⟩ := h
    exact ⟨h3, h4⟩

/-- One row of everything per id. -/
def Rectangular (x : ST α) : Prop :=
  x.md.sos.length = x.md.ids.length ∧ x.md.eos.length = x.md.ids.length ∧ x.md.lengths.length = x.md.ids.length ∧ x.rows.length = x.md.ids.length

instance (x : ST α) : Decidable (Rectangular x) := by unfold Rectangular; infer_instance

/-- Outputs are the same, and so is the buffer wherever it was before and at the ids of an all-starting batch. -/
theorem forward_congr (c : Cfg) (g : List α → β) (b₁ b₂ : Buf α) (x : ST α) (hx : Rectangular x)
    (h : c.kw ≤ 1 ∨ x.md.allStarting = true ∨ ∀ i ∈ x.md.ids, b₁ i = b₂ i) :
    (∃ e, forward c g b₁ x = .error e ∧ forward c g b₂ x = .error e) ∨
    ∃ o₁ o₂, forward c g b₁ x = .ok o₁ ∧ forward c g b₂ x = .ok o₂ ∧ o₁.y = o₂.y ∧
      ∀ i, b₁ i = b₂ i ∨ (c.kw > 1 ∧ i ∈ x.md.ids) → o₁.buf i = o₂.buf i := by
  have hp := preHook_congr c b₁ b₂ x h
  unfold forward
  rw [hp]
  cases e1 : preHook c b₂ x with
  | error e => exact .inl ⟨e, rfl, rfl⟩
  | ok r =>
    obtain ⟨x', s⟩ := r
    simp only [Except.bind_ok']
    cases e2 : conv1d c g x' with
    | error e => exact .inl ⟨e, rfl, rfl⟩
    | ok r =>
      obtain ⟨y, its⟩ := r
      simp only [Except.bind_ok']
      refine .inr ⟨_, _, rfl, rfl, rfl, ?_⟩
      intro i hi
      refine postHook_congr _ _ _ _ _ ?_
      rcases hi with hi | ⟨hk, hi⟩
      · exact .inl hi
      · rcases h with h | h | h
        · omega
        · refine .inr ?_
          unfold preHook at e1
          rw [if_neg (by simp [h])] at e1
          simp only [Except.ok.injEq, Prod.mk.injEq] at e1
          obtain ⟨rfl, -⟩ := e1
          unfold conv1d at e2
          obtain ⟨⟨m, p, w, rows⟩, e3, e2⟩ := bind_ok_iff e2
          obtain ⟨⟨n, ys⟩, -, e2⟩ := bind_ok_iff e2
          simp only [Except.ok.injEq, Prod.mk.injEq] at e2
          obtain ⟨rfl, rfl⟩ := e2
          obtain ⟨m1, m2, m3, -⟩ := applyPadding_md e3
          obtain ⟨s1, s2⟩ := applyPadding_sizes e3 hx.1 hx.2.1 hx.2.2.1 hx.2.2.2
          simp only
          unfold tempBuffer
          split
          · rw [m1, m3]
            exact bufItems_keys c _ _ _ _ hx.2.1 s1 s2 i hi
          · rename_i hc
            have : m.allEnding = true := by
              cases e : m.allEnding with
              | true => rfl
              | false => exact absurd ⟨hk, e⟩ hc
            refine .inr ?_
            unfold allEnding at this
            rw [List.all_eq_true] at this
            rw [m1]
            obtain ⟨k, hk1, hk2⟩ := List.mem_iff_getElem.1 hi
            have hke : k < m.eos.length := by rw [m3, hx.2.1]; exact hk1
            have h1 : m.eos[k] = true := by simpa using this m.eos[k] (List.getElem_mem hke)
            have : (x.md.ids.zip m.eos)[k]'(by simp; omega) = (i, true) := by simp [hk2, h1]
            rw [← this]
            exact List.getElem_mem _
        · exact .inl (h i hi)

/-- Every stream of `xs` starts (within `xs`) in a batch in which all rows start; `S` are the ids that have already started. -/
def StartsTogether : List String → List (ST α) → Prop
  | _, [] => True
  | S, x :: xs => ((∀ s ∈ x.md.sos, s = true) ∨ ∀ i ∈ x.md.ids, i ∈ S) ∧ StartsTogether (x.md.ids ++ S) xs

theorem restart_run (c : Cfg) (g : List α → β) (xs : List (ST α)) (hx : ∀ x ∈ xs, Rectangular x) (S : List String) (hS : StartsTogether S xs)
    (b₁ b₂ : Buf α) (hb : ∀ i ∈ S, c.kw > 1 → b₁ i = b₂ i) :
    (run c g b₁ xs).map (·.1) = (run c g b₂ xs).map (·.1) := by
  induction xs generalizing S b₁ b₂ with
  | nil => rfl
  | cons x xs ih =>
    have hcond : c.kw ≤ 1 ∨ x.md.allStarting = true ∨ ∀ i ∈ x.md.ids, b₁ i = b₂ i := by
      by_cases hk : c.kw ≤ 1
      · exact .inl hk
      · refine .inr ?_
        rcases hS.1 with h | h
        · exact .inl (by unfold allStarting; simpa using h)
        · exact .inr fun i hi => hb i (h i hi) (by omega)
    unfold run
    rcases forward_congr c g b₁ b₂ x (hx x (by simp)) hcond with ⟨e, h1, h2⟩ | ⟨o₁, o₂, h1, h2, h3, h4⟩
    · rw [h1, h2]
    · rw [h1, h2, Except.bind_ok', Except.bind_ok', h3]
      have := ih (fun z hz => hx z (by simp [hz])) (x.md.ids ++ S) hS.2 o₁.buf o₂.buf (by
        intro i hi hk
        rcases List.mem_append.1 hi with hi | hi
        · exact h4 i (.inr ⟨hk, hi⟩)
        · exact h4 i (.inl (hb i hi hk)))
      cases r1 : run c g o₁.buf xs with
      | error e =>
        cases r2 : run c g o₂.buf xs with
        | error e' =>
          rw [r1, r2] at this
          obtain rfl : e = e' := by simpa [Except.map] using this
          rfl
        | ok r => rw [r1, r2] at this; simp [Except.map] at this
      | ok r =>
        cases r2 : run c g o₂.buf xs with
        | error e' => rw [r1, r2] at this; simp [Except.map] at this
        | ok r' =>
          rw [r1, r2] at this
          simp only [Except.map, Except.ok.injEq] at this
          obtain ⟨ys, e1⟩ := r
          obtain ⟨ys', e2⟩ := r'
          simp only at this
          subst this
          rfl

/-- **C106, the part that holds.** Whatever a module still holds of abandoned streams (`buf` is any buffer): if every stream of `xs` starts, within `xs`, in a batch in which all rows start,
the outputs and errors are those of a new module. Missing: streams that restart in a batch with running streams. -/
theorem C106_restart_partial (c : Cfg) (g : List α → β) (xs : List (ST α)) (hx : ∀ x ∈ xs, Rectangular x) (hS : StartsTogether [] xs) (buf : Buf α) :
    (run c g buf xs).map (·.1) = (run c g (fun _ => none) xs).map (·.1) :=
  restart_run c g xs hx [] hS buf _ (by simp)

example : ((run ⟨2, 1, 1, 0⟩ exG (fun _ => some [9])
    [({ md := ⟨["a"], [true], [false], [2], none⟩, width := 2, rows := [[7, 8]] } : ST Int),
     { md := ⟨["a"], [false], [true], [1], none⟩, width := 1, rows := [[9]] }]).map fun r => r.1.map (·.rows)) = .ok [[[78]], [[89]]] := by decide
example : StartsTogether [] [({ md := ⟨["a"], [true], [false], [2], none⟩, width := 2, rows := [[7, 8]] } : ST Int),
     { md := ⟨["a"], [false], [true], [1], none⟩, width := 1, rows := [[9]] }] := by simp [StartsTogether]

/-! ### C107: failed calls -/

/-- **C107 is false of the code.** A first chunk that is too short for the kernel is refused, and its length in the metadata has grown by the padding. -/
theorem C107_refused_false :
    let x : ST Int := { md := ⟨["a"], [true], [false], [1], none⟩, width := 1, rows := [[7]] }
    ((forward ⟨5, 1, 1, 1⟩ exG (fun _ => none) x).map fun o => o.y.rows) = .error .runtimeError ∧
      (forwardMetaAfterRaise ⟨5, 1, 1, 1⟩ x).lengths = [2] := by decide

/-- **C107, the part that holds.** A refused call changes neither the buffer (see C105) nor ids, flags and chunk indices; it leaves the lengths alone too if the module has no padding, or if no row starts or ends,
or if the kernel is wider than 1 and some row does not start. Missing: the lengths in the other cases, which grow by the padding. -/
theorem C107_refused_partial (c : Cfg) (x : ST α) :
    (forwardMetaAfterRaise c x).ids = x.md.ids ∧ (forwardMetaAfterRaise c x).sos = x.md.sos ∧ (forwardMetaAfterRaise c x).eos = x.md.eos ∧
    (forwardMetaAfterRaise c x).chunk = x.md.chunk ∧
    (c.padding = 0 ∨ (c.kw > 1 ∧ ∃ s ∈ x.md.sos, s = false) ∨ (x.md.sos ≠ [] ∧ ∀ s ∈ x.md.sos ++ x.md.eos, s = false) → forwardMetaAfterRaise c x = x.md) := by
  unfold forwardMetaAfterRaise metaAfterRaise
  refine ⟨by split <;> (try split) <;> rfl, by split <;> (try split) <;> rfl, by split <;> (try split) <;> rfl, by split <;> (try split) <;> rfl, ?_⟩
  intro h
  split
  · rfl
  · rename_i hk
    split
    · rename_i hp
      rcases h with h | ⟨h1, s, h2, h3⟩ | ⟨h0, h⟩
      · omega
      · refine absurd ⟨h1, ?_⟩ hk
        unfold allStarting
        rw [List.all_eq_false]
        exact ⟨s, h2, by simp [h3]⟩
      · have : padLengths c.padding x.md = x.md.lengths := by
          unfold padLengths
          have a1 : x.md.allStarting = false := by
            obtain ⟨s, r, hs⟩ := List.exists_cons_of_ne_nil h0
            unfold allStarting
            rw [hs, List.all_eq_false]
            exact ⟨s, by simp, by simpa using h s (by simp [hs])⟩
          have a2 : x.md.anyStarting = false := by
            unfold anyStarting; rw [List.any_eq_false]; intro s hs; simpa using h s (by simp [hs])
          have a3 : x.md.anyEnding = false := by
            unfold anyEnding; rw [List.any_eq_false]; intro s hs; simpa using h s (by simp [hs])
          simp [a1, a2, a3]
        rw [this]
    · rfl

example : ((forward ⟨5, 1, 1, 0⟩ exG (fun _ => none) ({ md := ⟨["a"], [true], [false], [1], none⟩, width := 1, rows := [[7]] } : ST Int)).map fun o => o.y.rows) =
    .error .runtimeError := by decide

end
end DS.Conv
