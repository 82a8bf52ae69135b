import Verif.Lemmas.Conv
import Verif.Props.CatBatch
import Verif.Props.Closure
/-! One call of an online convolution on a packed batch, stage by stage. -/

namespace DS.Meta

theorem unbind_ofRows (b : Bool) (rs : List Row) (hne : rs ≠ []) :
    (ofRows b rs).unbindBatch = .ok (rs.map fun r => ofRows b [r]) := by
  have key : ∀ (fuel : Nat) (xs : List Row), xs.length ≤ fuel → chunksFuel 1 fuel xs = xs.map fun x => [x] := by
    intro fuel
    induction fuel with
    | zero => intro xs h; rw [List.length_eq_zero_iff.1 (show xs.length = 0 by omega)]; rfl
    | succ n ih =>
      intro xs h
      cases xs with
      | nil => rfl
      | cons x xs => simp only [chunksFuel]; simp; exact ih xs (by simp at h; omega)
  have hch : chunks 1 rs = rs.map fun x => [x] := key _ _ (Nat.le_refl _)
  unfold unbindBatch
  rw [show (1 : Int) = ((1 : Nat) : Int) by rfl, splitBatch_size _ rs 1 (by omega) hne, hch, List.map_map]
  rfl

/-- The columns of a batch concatenation. -/
theorem catBatch_cols (ms : List Meta) (m : Meta) (h : catBatch ms = .ok m) :
    m.ids = ms.flatMap (·.ids) ∧ m.sos = ms.flatMap (·.sos) ∧ m.eos = ms.flatMap (·.eos) := by
  match ms with
  | [] => simp [catBatch] at h
  | [x] => simp [catBatch] at h; subst h; simp
  | x :: y :: r =>
    simp only [catBatch, init] at h
    split at h
    · simp only [Except.ok.injEq] at h; subst h; exact ⟨rfl, rfl, rfl⟩
    · simp at h

end DS.Meta

namespace DS.Conv
open Meta

section
variable {α β : Type} [Zero α] [Zero β]

/-- The packed batch. -/
def pk (b : Bool) (w : Nat) (cs : List (Chunk α)) : ST α :=
  { md := ofRows b (cs.map Chunk.row), width := w, rows := cs.map fun c => c.frames ++ zeros (w - c.frames.length) }

theorem packs_pk {x : ST α} {w : Nat} {cs : List (Chunk α)} (h : Packs x w cs) : x = pk x.md.chunk.isSome w cs := by
  obtain ⟨h1, h2, h3, -, h5⟩ := h
  cases x
  simp only [pk] at *
  subst h3 h5
  congr 1
  rw [← h2]
  exact eq_ofRows _ h1

theorem pk_packs {b : Bool} {w : Nat} {cs : List (Chunk α)} (hu : ∀ c ∈ cs, c.index.isSome = b) (hw : ∀ c ∈ cs, c.frames.length ≤ w) :
    Packs (pk b w cs) w cs := by
  refine ⟨ofRows_wf _ _, ofRows_rows _ _ ?_, rfl, hw, rfl⟩
  intro r hr
  obtain ⟨c, hc, rfl⟩ := List.mem_map.1 hr
  exact hu c hc

theorem packs_index {x : ST α} {w : Nat} {cs : List (Chunk α)} (h : Packs x w cs) : ∀ c ∈ cs, c.index.isSome = x.md.chunk.isSome := by
  intro c hc
  have := rows_uniform x.md h.1 c.row (by rw [h.2.1]; exact List.mem_map_of_mem hc)
  exact this

theorem pk_ids (b : Bool) (w : Nat) (cs : List (Chunk α)) : (pk b w cs).md.ids = cs.map (·.id) := by
  simp [pk, ofRows, Chunk.row, Function.comp_def]
theorem pk_sos (b : Bool) (w : Nat) (cs : List (Chunk α)) : (pk b w cs).md.sos = cs.map (·.sos) := by
  simp [pk, ofRows, Chunk.row, Function.comp_def]
theorem pk_eos (b : Bool) (w : Nat) (cs : List (Chunk α)) : (pk b w cs).md.eos = cs.map (·.eos) := by
  simp [pk, ofRows, Chunk.row, Function.comp_def]
theorem pk_lengths (b : Bool) (w : Nat) (cs : List (Chunk α)) : (pk b w cs).md.lengths = cs.map fun c => (c.frames.length : Int) := by
  simp [pk, ofRows, Chunk.row, Function.comp_def]

/-- All chunks are first chunks. -/
def allSos (cs : List (Chunk α)) : Bool := cs.all (·.sos)
/-- All chunks are last chunks. -/
def allEos (cs : List (Chunk α)) : Bool := cs.all (·.eos)

theorem pk_allStarting (b : Bool) (w : Nat) (cs : List (Chunk α)) : (pk b w cs).md.allStarting = allSos cs := by
  simp [allStarting, pk_sos, allSos, List.all_map, Function.comp_def]
theorem pk_allEnding (b : Bool) (w : Nat) (cs : List (Chunk α)) : (pk b w cs).md.allEnding = allEos cs := by
  simp [allEnding, pk_eos, allEos, List.all_map, Function.comp_def]
theorem pk_anyStarting (b : Bool) (w : Nat) (cs : List (Chunk α)) : (pk b w cs).md.anyStarting = cs.any (·.sos) := by
  simp [anyStarting, pk_sos, List.any_map, Function.comp_def]
theorem pk_anyEnding (b : Bool) (w : Nat) (cs : List (Chunk α)) : (pk b w cs).md.anyEnding = cs.any (·.eos) := by
  simp [anyEnding, pk_eos, List.any_map, Function.comp_def]

theorem zipWith_map_same {γ δ ε ζ : Type} (h : δ → ε → ζ) (f : γ → δ) (k : γ → ε) (xs : List γ) :
    List.zipWith h (xs.map f) (xs.map k) = xs.map fun x => h (f x) (k x) := by
  induction xs with
  | nil => rfl
  | cons x xs ih => simp [ih]

theorem zeros_length (n : Nat) : (zeros n : List α).length = n := by simp [zeros]

theorem zeros_add (m n : Nat) : (zeros (m + n) : List α) = zeros m ++ zeros n := by simp [zeros, List.replicate_append_replicate]

/-! ### Pre-hook -/

/-- Replacing frames and index of a chunk. -/
def Chunk.set {γ : Type} (x : Chunk α) (b : Bool) (f : List γ) : Chunk γ :=
  { id := x.id, sos := x.sos, eos := x.eos, index := if b then x.index else none, frames := f }

theorem set_row {γ : Type} (x : Chunk α) (b : Bool) (f : List γ) : (x.set b f).row = ⟨x.id, x.sos, x.eos, f.length, if b then x.index else none⟩ := rfl

theorem ofRows_set {γ : Type} (b : Bool) (cs : List (Chunk α)) (f : Chunk α → List γ) :
    ofRows b (cs.map fun x => (x.set b (f x)).row) =
      { ofRows b (cs.map Chunk.row) with lengths := cs.map fun x => ((f x).length : Int) } := by
  cases b <;> simp [ofRows, Chunk.row, Chunk.set, Function.comp_def]

theorem pk_set {γ : Type} [Zero γ] (b : Bool) (w w' : Nat) (cs : List (Chunk α)) (f : Chunk α → List γ) :
    pk b w' (cs.map fun x => x.set b (f x)) =
      { md := { (pk b w cs).md with lengths := cs.map fun x => ((f x).length : Int) }, width := w',
        rows := cs.map fun x => f x ++ zeros (w' - (f x).length) } := by
  unfold pk
  simp only [List.map_map]
  congr 1
  exact ofRows_set b cs f

theorem mapM_some (cs : List (Chunk α)) (buf : Buf α) (data : List (List α)) (h : (cs.map fun x => buf x.id).mapM id = some data) :
    data = cs.map fun x => (buf x.id).getD [] := by
  induction cs generalizing data with
  | nil => simp at h; simp [h]
  | cons x xs ih =>
    rw [List.map_cons, List.mapM_cons] at h
    cases hb : buf x.id with
    | none => simp [hb] at h
    | some d =>
      cases hr : (xs.map fun x => buf x.id).mapM id with
      | none => rw [hr] at h; simp [hb] at h
      | some ds =>
        rw [hr] at h
        simp [hb] at h
        rw [← h, ih ds hr]
        simp [hb]

theorem narrow_row (b : Bool) (x : Chunk α) (w : Nat) (hw : x.frames.length ≤ w) (n : Nat) :
    narrowRow (ofRows b [x.row]) w (x.frames ++ zeros n) =
      .ok (ofRows b [⟨x.id, x.sos && decide (x.frames ≠ []), x.eos && decide (x.frames ≠ []), x.frames.length, x.index⟩], x.frames) := by
  have h1 : pyGet (ofRows b [x.row]).lengths 0 = .ok (x.frames.length : Int) := rfl
  have h2 : (ofRows b [x.row]).indexBatch (.slice {}) = .ok (ofRows b [x.row]) := by
    have hp : ∀ {γ : Type} (a : γ), pySlice [a] {} = .ok [a] := by
      intro γ a
      have h1 : (Slice.mk none none none).indices (([a] : List γ).length : Int) = .ok (0, 1, 1) := rfl
      have h2 : rangePositions 0 1 1 = [0] := by decide
      unfold pySlice
      rw [h1, Except.bind_ok']
      simp only [h2]
      rfl
    have ht : ∀ {γ : Type} (a : γ), torchSlice [a] {} = .ok [a] := by
      intro γ a
      unfold torchSlice
      rw [if_neg (by decide)]
      exact hp a
    cases b <;> simp [indexBatch, ofRows, hp, ht, onChunk, Except.bind_ok', Meta.init]
  have h3 : (ofRows b [x.row]).maxLength = .ok (x.frames.length : Int) := rfl
  have hs : (Slice.mk (some 0) (some (x.frames.length : Int)) none).indices (x.frames.length : Int) =
      .ok (0, (x.frames.length : Int), 1) := by
    unfold Slice.indices
    have e1 : ¬ ((x.frames.length : Int) < 0) := by omega
    simp only [Option.getD_none, if_neg e1, if_neg (show ¬ ((1 : Int) = 0) by omega), if_neg (show ¬ ((1 : Int) < 0) by omega)]
    have a1 : adjustBound (x.frames.length : Int) 0 (x.frames.length : Int) 0 = 0 := by
      unfold adjustBound; simp
    have a2 : adjustBound (x.frames.length : Int) 0 (x.frames.length : Int) (x.frames.length : Int) = x.frames.length := by
      unfold adjustBound; simp; omega
    rw [a1, a2]
  unfold narrowRow
  rw [h1, Except.bind_ok', if_neg (by omega)]
  unfold index2
  rw [h2, Except.bind_ok']
  simp only [indexLength]
  unfold indexLengthSlice
  rw [h3, Except.bind_ok', hs, Except.bind_ok']
  simp only [if_neg (show ¬ ((1 : Int) < 0) by omega), if_true]
  have h4 : indexLengthSlice.finish (ofRows b [x.row]) 0 (x.frames.length : Int)
      ((ofRows b [x.row]).lengths.map fun l => clip 0 ((x.frames.length : Int) - 0) (l - 0)) =
      .ok (ofRows b [⟨x.id, x.sos && decide (x.frames ≠ []), x.eos && decide (x.frames ≠ []), x.frames.length, x.index⟩]) := by
    unfold indexLengthSlice.finish
    have hl : (ofRows b [x.row]).lengths = [(x.frames.length : Int)] := rfl
    have hsos : (ofRows b [x.row]).sos = [x.sos] := rfl
    have heos : (ofRows b [x.row]).eos = [x.eos] := rfl
    have hd : decide ((x.frames.length : Int) > 0) = decide (x.frames ≠ []) := by
      apply decide_eq_decide.2
      rw [← List.length_pos_iff]; omega
    have hd' : decide ((0 : Int) < (x.frames.length : Int)) = decide (x.frames ≠ []) := hd
    rw [hl, hsos, heos, keepSos_eq]
    have hc : clip 0 ((x.frames.length : Int) - 0) ((x.frames.length : Int) - 0) = (x.frames.length : Int) := by
      unfold clip; omega
    simp only [List.map_cons, List.map_nil, hc, Numba.updateEosFromSlice, List.zipWith_cons_cons, List.zipWith_nil_left, hd, hd',
      Int.le_refl, decide_true, Bool.and_true, Bool.true_and]
    exact init_ofRows b [⟨x.id, x.sos && decide (x.frames ≠ []), x.eos && decide (x.frames ≠ []), x.frames.length, x.index⟩]
  rw [h4, Except.bind_ok']
  simp

theorem ragged_rows (b : Bool) (w : Nat) (cs : List (Chunk α)) (buf : Buf α) (hw : ∀ x ∈ cs, x.frames.length ≤ w)
    (hz : ∀ x ∈ cs, x.frames = [] → x.sos = false ∧ x.eos = false) :
    raggedRows w (cs.map fun x => ofRows b [x.row]) (cs.map fun c => c.frames ++ zeros (w - c.frames.length)) (cs.map fun x => buf x.id) =
      .ok (cs.map fun x => (({ ofRows b [x.row] with lengths := [(((buf x.id).getD []).length : Int) + x.frames.length] } : Meta),
        (buf x.id).getD [] ++ x.frames)) := by
  induction cs with
  | nil => rfl
  | cons x xs ih =>
    simp only [List.map_cons, raggedRows]
    rw [narrow_row b x w (hw x (by simp)), Except.bind_ok', ih (fun y hy => hw y (by simp [hy])) (fun y hy => hz y (by simp [hy])),
      Except.bind_ok']
    have hr : (⟨x.id, x.sos && decide (x.frames ≠ []), x.eos && decide (x.frames ≠ []), x.frames.length, x.index⟩ : Row) = x.row := by
      unfold Chunk.row
      by_cases h : x.frames = []
      · obtain ⟨h1, h2⟩ := hz x (by simp) h
        simp [h, h1, h2]
      · simp [h]
    rw [hr]
    congr 2
    unfold prepend
    cases hb : buf x.id with
    | none => simp [ofRows, Chunk.row]
    | some d => simp [ofRows, Chunk.row]; omega

theorem foldl_max_nat (xs : List Nat) (a : Nat) : a ≤ xs.foldl max a ∧ (∀ x ∈ xs, x ≤ xs.foldl max a) ∧
    (xs.foldl max a = a ∨ xs.foldl max a ∈ xs) := by
  induction xs generalizing a with
  | nil => simp
  | cons y ys ih =>
    obtain ⟨h1, h2, h3⟩ := ih (max a y)
    simp only [List.foldl_cons]
    refine ⟨by omega, ?_, ?_⟩
    · intro x hx
      rcases List.mem_cons.1 hx with rfl | hx
      · omega
      · exact h2 x hx
    · rcases h3 with h | h
      · rw [h]
        rcases Nat.le_total a y with h' | h'
        · right; rw [Nat.max_eq_right h']; simp
        · left; exact Nat.max_eq_left h'
      · right; simp [h]

/-- What the pre-hook makes of a chunk. -/
def pre (buf : Buf α) (x : Chunk α) : List α := (if x.sos then [] else (buf x.id).getD []) ++ x.frames

/-- The pre-hook takes the branch that concatenates the rows one by one. -/
def ragged (c : Cfg) (buf : Buf α) (cs : List (Chunk α)) : Bool :=
  decide (c.kw > 1) && !(allSos cs) && !(sameLengths (cs.map fun x => buf x.id))

/-- The pre-hook stacks the buffers. -/
def stacked (c : Cfg) (buf : Buf α) (cs : List (Chunk α)) : Bool :=
  decide (c.kw > 1) && !(allSos cs) && sameLengths (cs.map fun x => buf x.id)

theorem max_nat_spec (cs : List (Chunk α)) (f : Chunk α → List α) (hne : cs ≠ []) :
    (∀ x ∈ cs, (f x).length ≤ (cs.map fun x => (f x).length).foldl max 0) ∧
    ∃ x ∈ cs, (f x).length = (cs.map fun x => (f x).length).foldl max 0 := by
  obtain ⟨h1, h2, h3⟩ := foldl_max_nat (cs.map fun x => (f x).length) 0
  refine ⟨fun x hx => h2 _ (List.mem_map_of_mem (f := fun x => (f x).length) hx), ?_⟩
  rcases h3 with h3 | h3
  · obtain ⟨x, hx⟩ := List.exists_mem_of_ne_nil cs hne
    refine ⟨x, hx, ?_⟩
    have := h2 _ (List.mem_map_of_mem (f := fun x => (f x).length) hx)
    omega
  · obtain ⟨x, hx, he⟩ := List.mem_map.1 h3
    exact ⟨x, hx, he⟩

/-- Widest row after the pre-hook. -/
def preWidth (c : Cfg) (buf : Buf α) (w : Nat) (cs : List (Chunk α)) : Nat :=
  if ragged c buf cs then (cs.map fun x => (pre buf x).length).foldl max 0
  else if stacked c buf cs then bufLen ((cs.map fun x => buf x.id).head?.getD none) + w
  else w

/-- The hypotheses on the module state and the batch under which the pre-hook does its job. -/
def PreOK (c : Cfg) (buf : Buf α) (w : Nat) (cs : List (Chunk α)) : Prop :=
  (∀ x ∈ cs, x.frames.length ≤ w) ∧ (∀ x ∈ cs, x.sos = true → (buf x.id).getD [] = []) ∧
  (c.kw = 1 → ∀ x ∈ cs, (buf x.id).getD [] = []) ∧
  (ragged c buf cs = true → ∀ x ∈ cs, x.frames = [] → x.sos = false ∧ x.eos = false)

theorem pre_eq {c : Cfg} {buf : Buf α} {w : Nat} {cs : List (Chunk α)} (h : PreOK c buf w cs) (x : Chunk α) (hx : x ∈ cs) :
    pre buf x = (buf x.id).getD [] ++ x.frames := by
  unfold pre
  by_cases hs : x.sos = true
  · rw [if_pos hs, h.2.1 x hx hs]
  · rw [if_neg hs]

/-- What the pre-hook puts in front of a chunk, for any buffer: in a batch in which some row does not start, whatever is buffered for its id. -/
def held (c : Cfg) (buf : Buf α) (cs : List (Chunk α)) (x : Chunk α) : List α :=
  if decide (c.kw > 1) && !(allSos cs) then (buf x.id).getD [] else []

theorem held_eq {c : Cfg} {buf : Buf α} {cs : List (Chunk α)} (huse : c.kw > 1 ∧ allSos cs = false) (x : Chunk α) :
    held c buf cs x ++ x.frames = (buf x.id).getD [] ++ x.frames := by
  unfold held
  rw [if_pos (by simp [huse])]

/-- Widest row after the pre-hook, for any buffer. -/
def anyWidth (c : Cfg) (buf : Buf α) (w : Nat) (cs : List (Chunk α)) : Nat :=
  if ragged c buf cs then (cs.map fun x => (held c buf cs x ++ x.frames).length).foldl max 0
  else if stacked c buf cs then bufLen ((cs.map fun x => buf x.id).head?.getD none) + w
  else w

/-- The pre-hook, for any buffer: it raises TypeError when a buffer is missing and it stacks; otherwise it puts the buffers in front. -/
theorem preHook_any (c : Cfg) (hv : c.Valid) (buf : Buf α) (b : Bool) (w : Nat) (cs : List (Chunk α)) (hne : cs ≠ []) (hw : ∀ x ∈ cs, x.frames.length ≤ w)
    (hz : ragged c buf cs = true → ∀ x ∈ cs, x.frames = [] → x.sos = false ∧ x.eos = false) :
    preHook c buf (pk b w cs) =
      if stacked c buf cs && cs.any (fun x => (buf x.id).isNone) then .error .typeError
      else .ok (pk (b && !(ragged c buf cs)) (anyWidth c buf w cs) (cs.map fun x => x.set (b && !(ragged c buf cs)) (held c buf cs x ++ x.frames)), !(decide (c.kw > 1) && !(allSos cs))) := by
  have hkw := kw_pos c hv
  unfold preHook
  rw [pk_allStarting, pk_ids, List.map_map]
  have hcomp : (buf ∘ fun x : Chunk α => x.id) = fun x => buf x.id := rfl
  rw [hcomp]
  by_cases huse : c.kw > 1 ∧ allSos cs = false
  · have hfl : (!(decide (c.kw > 1) && !(allSos cs))) = false := by simp [huse]
    rw [hfl, if_pos huse]
    simp only
    by_cases hsame : sameLengths (cs.map fun x => buf x.id) = true
    · rw [if_pos hsame]
      have hr : ragged c buf cs = false := by unfold ragged; rw [hsame]; simp
      have hst : stacked c buf cs = true := by unfold stacked; rw [hsame]; simp [huse]
      rw [hr, hst]
      simp only [Bool.not_false, Bool.and_true, Bool.true_and]
      unfold catEqual
      cases hm : (cs.map fun x => buf x.id).mapM id with
      | none =>
        have : cs.any (fun x => (buf x.id).isNone) = true := by
          by_contra hc
          have hall : ∀ x ∈ cs, ∃ d, buf x.id = some d := by
            intro x hx
            cases hb : buf x.id with
            | none => exact absurd (List.any_eq_true.2 ⟨x, hx, by simp [hb]⟩) hc
            | some d => exact ⟨d, rfl⟩
          have : ∀ xs : List (Chunk α), (∀ x ∈ xs, ∃ d, buf x.id = some d) → ∃ ds, (xs.map fun x => buf x.id).mapM id = some ds := by
            intro xs
            induction xs with
            | nil => intro _; exact ⟨[], rfl⟩
            | cons x xs ih =>
              intro hx
              obtain ⟨ds, hds⟩ := ih (fun y hy => hx y (by simp [hy]))
              obtain ⟨d, hd⟩ := hx x (by simp)
              refine ⟨d :: ds, ?_⟩
              rw [List.map_cons, List.mapM_cons, hds, hd]
              rfl
          obtain ⟨ds, hds⟩ := this cs hall
          rw [hds] at hm; simp at hm
        rw [if_pos this]
        rfl
      | some data =>
        have hdata := mapM_some cs buf data hm
        have : cs.any (fun x => (buf x.id).isNone) = false := by
          rw [List.any_eq_false]
          intro x hx
          have : ∀ (xs : List (Chunk α)) (ds : List (List α)), (xs.map fun x => buf x.id).mapM id = some ds → ∀ x ∈ xs, (buf x.id).isSome = true := by
            intro xs
            induction xs with
            | nil => intro _ _ x hx; simp at hx
            | cons y ys ih =>
              intro ds hds x hx
              rw [List.map_cons, List.mapM_cons] at hds
              cases hb : buf y.id with
              | none => simp [hb] at hds
              | some d =>
                cases hr : (ys.map fun x => buf x.id).mapM id with
                | none => rw [hr] at hds; simp [hb] at hds
                | some ds' =>
                  rcases List.mem_cons.1 hx with rfl | hx
                  · simp [hb]
                  · exact ih ds' hr x hx
          have := this cs data hm x hx
          simp [Option.isNone_iff_eq_none, Option.isSome_iff_ne_none] at this ⊢
          exact this
        rw [this]
        simp only [Bool.false_eq_true, if_false, map_ok', Except.ok.injEq, Prod.mk.injEq, and_true]
        have hlen : ∀ x ∈ cs, ((buf x.id).getD []).length = bufLen ((cs.map fun x => buf x.id).head?.getD none) := by
          intro x hx
          have := List.all_eq_true.1 hsame (buf x.id) (List.mem_map_of_mem (f := fun x : Chunk α => buf x.id) hx)
          simpa [bufLen] using this
        have hW : anyWidth c buf w cs = bufLen ((cs.map fun x => buf x.id).head?.getD none) + w := by
          unfold anyWidth; rw [hr, hst]; simp
        rw [pk_set b w, hW]
        congr 1
        · rw [pk_lengths, List.map_map]
          congr 1
          apply List.map_congr_left
          intro x hx
          simp only [Function.comp_apply]
          rw [held_eq huse x, List.length_append, hlen x hx]
          omega
        · rw [hdata]
          simp only [pk]
          rw [zipWith_map_same]
          apply List.map_congr_left
          intro x hx
          rw [held_eq huse x, List.length_append, hlen x hx, List.append_assoc]
          congr 3
          omega
    · rw [if_neg hsame]
      have hsame' : sameLengths (cs.map fun x => buf x.id) = false := by simpa using hsame
      have hr : ragged c buf cs = true := by unfold ragged; rw [hsame']; simp [huse]
      have hst : stacked c buf cs = false := by unfold stacked; rw [hsame']; simp
      rw [hr, hst]
      simp only [Bool.not_true, Bool.and_false, Bool.false_and, Bool.false_eq_true, if_false]
      unfold catRagged
      have hun : (pk b w cs).md.unbindBatch = .ok (cs.map fun x => ofRows b [x.row]) := by
        have := unbind_ofRows b (cs.map Chunk.row) (by simp [hne])
        rw [List.map_map] at this
        exact this
      rw [hun, Except.bind_ok']
      have hrr := ragged_rows b w cs buf hw (hz hr)
      rw [show (pk b w cs).width = w from rfl, show (pk b w cs).rows = cs.map fun c => c.frames ++ zeros (w - c.frames.length) from rfl, hrr,
        Except.bind_ok']
      unfold padStream
      simp only [List.map_map]
      obtain ⟨m, hm, -⟩ := C16_cat_batch (cs.map ((fun x : Meta × List α => x.1) ∘ fun x => (({ ofRows b [x.row] with lengths := [(((buf x.id).getD []).length : Int) + x.frames.length] } : Meta),
        (buf x.id).getD [] ++ x.frames))) (by simp [hne]) (by
          intro m hm
          obtain ⟨x, hx, rfl⟩ := List.mem_map.1 hm
          refine ⟨rfl, rfl, rfl, ?_⟩
          intro c hc
          cases b <;> simp [ofRows] at hc ⊢
          simp [← hc])
      obtain ⟨e1, e2, e3⟩ := catBatch_cols _ _ hm
      rw [hm, Except.bind_ok']
      have f1 : m.ids = cs.map (·.id) := by
        rw [e1]; simp [List.flatMap_map, Function.comp_def, ofRows, Chunk.row]
        exact List.map_eq_flatMap.symm
      have f2 : m.sos = cs.map (·.sos) := by
        rw [e2]; simp [List.flatMap_map, Function.comp_def, ofRows, Chunk.row]
        exact List.map_eq_flatMap.symm
      have f3 : m.eos = cs.map (·.eos) := by
        rw [e3]; simp [List.flatMap_map, Function.comp_def, ofRows, Chunk.row]
        exact List.map_eq_flatMap.symm
      rw [f1, f2, f3, init_ok (by simp) (by simp) (by simp), Except.bind_ok']
      simp only [map_ok', Except.ok.injEq, Prod.mk.injEq, and_true]
      have hW : anyWidth c buf w cs = (cs.map fun x => (held c buf cs x ++ x.frames).length).foldl max 0 := by
        unfold anyWidth; rw [hr]; simp
      have hpre : (cs.map fun x => ((buf x.id).getD [] ++ x.frames).length) = cs.map fun x => (held c buf cs x ++ x.frames).length := by
        apply List.map_congr_left
        intro x hx
        rw [held_eq huse x]
      rw [hW]
      have hcol : ofRows false (cs.map fun x => (x.set false (held c buf cs x ++ x.frames)).row) =
          ⟨cs.map (·.id), cs.map (·.sos), cs.map (·.eos), cs.map fun x => ((held c buf cs x ++ x.frames).length : Int), none⟩ := by
        simp [ofRows, Chunk.row, Chunk.set, Function.comp_def]
      unfold pk
      simp only [List.map_map]
      rw [show (Chunk.row ∘ fun x : Chunk α => x.set false (held c buf cs x ++ x.frames)) = fun x => (x.set false (held c buf cs x ++ x.frames)).row from rfl, hcol]
      have hw' : (List.map ((fun x : Meta × List α => x.2.length) ∘ fun x : Chunk α => (({ ofRows b [x.row] with lengths := [(((buf x.id).getD []).length : Int) + x.frames.length] } : Meta),
        (buf x.id).getD [] ++ x.frames)) cs) = cs.map fun x => (held c buf cs x ++ x.frames).length := hpre
      rw [hw']
      congr 1
      · congr 1
        apply List.map_congr_left
        intro x hx
        simp only [Function.comp_apply]
        rw [held_eq huse x]
      · apply List.map_congr_left
        intro x hx
        simp only [Function.comp_apply, Chunk.set]
        rw [held_eq huse x]
        rfl
  · have hfl : (!(decide (c.kw > 1) && !(allSos cs))) = true := by
      cases hh : allSos cs
      · simp only [hh, and_true, Nat.not_lt] at huse
        simp [huse]
      · simp
    rw [hfl, if_neg huse]
    have hst : stacked c buf cs = false := by
      unfold stacked
      by_cases hk : c.kw > 1
      · have : allSos cs = true := by
          by_contra hc; exact huse ⟨hk, by simpa using hc⟩
        simp [this]
      · simp [hk]
    have hr : ragged c buf cs = false := by
      unfold ragged
      by_cases hk : c.kw > 1
      · have : allSos cs = true := by
          by_contra hc; exact huse ⟨hk, by simpa using hc⟩
        simp [this]
      · simp [hk]
    rw [hst, hr]
    simp only [Bool.false_and, Bool.false_eq_true, if_false, Bool.not_false, Bool.and_true, Except.ok.injEq, Prod.mk.injEq, and_true]
    have hpre : ∀ x ∈ cs, held c buf cs x ++ x.frames = x.frames := by
      intro x _
      unfold held
      rw [if_neg]
      · rfl
      · simpa using huse
    have hW : anyWidth c buf w cs = w := by unfold anyWidth; rw [hr, hst]; simp
    rw [hW, pk_set b w]
    have : (pk b w cs) = { md := (pk b w cs).md, width := w, rows := (pk b w cs).rows } := rfl
    rw [this]
    congr 1
    · have hl := pk_lengths b w cs
      have : (cs.map fun x => ((held c buf cs x ++ x.frames).length : Int)) = (pk b w cs).md.lengths := by
        rw [hl]
        apply List.map_congr_left
        intro x hx
        rw [hpre x hx]
      rw [this]
    · show (cs.map fun c => c.frames ++ zeros (w - c.frames.length)) = _
      apply List.map_congr_left
      intro x hx
      rw [hpre x hx]

/-- The pre-hook raises TypeError when a buffer is missing and it stacks; otherwise it puts the buffers in front. -/
theorem preHook_pk (c : Cfg) (hv : c.Valid) (buf : Buf α) (b : Bool) (w : Nat) (cs : List (Chunk α)) (hne : cs ≠ []) (h : PreOK c buf w cs) :
    preHook c buf (pk b w cs) =
      if stacked c buf cs && cs.any (fun x => (buf x.id).isNone) then .error .typeError
      else .ok (pk (b && !(ragged c buf cs)) (preWidth c buf w cs) (cs.map fun x => x.set (b && !(ragged c buf cs)) (pre buf x)), !(decide (c.kw > 1) && !(allSos cs))) := by
  have hkw := kw_pos c hv
  have hp : ∀ x ∈ cs, pre buf x = held c buf cs x ++ x.frames := by
    intro x hx
    by_cases huse : c.kw > 1 ∧ allSos cs = false
    · rw [pre_eq h x hx, held_eq huse]
    · unfold pre held
      rw [if_neg (show ¬ ((decide (c.kw > 1) && !(allSos cs)) = true) by simpa using huse)]
      by_cases hk : c.kw > 1
      · have : allSos cs = true := by
          by_contra hc; exact huse ⟨hk, by simpa using hc⟩
        rw [if_pos (List.all_eq_true.1 this x hx)]
      · rw [h.2.2.1 (by omega) x hx]; simp
  have hm : (cs.map fun x => (pre buf x).length) = cs.map fun x => (held c buf cs x ++ x.frames).length :=
    List.map_congr_left fun x hx => by rw [hp x hx]
  have hs : (cs.map fun x => x.set (b && !(ragged c buf cs)) (pre buf x)) = cs.map fun x => x.set (b && !(ragged c buf cs)) (held c buf cs x ++ x.frames) :=
    List.map_congr_left fun x hx => by rw [hp x hx]
  rw [preHook_any c hv buf b w cs hne h.1 h.2.2.2, hs]
  unfold preWidth anyWidth
  rw [hm]

end
end DS.Conv
