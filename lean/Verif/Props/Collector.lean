import Verif.Spec.Collector
import Verif.Props.ConvMore
/-! C67–C70, C97: the output collector. -/

namespace DS.Coll
open Meta Conv

section
variable {α : Type} [Zero α]

/-- The StreamTensor of a chunk. -/
def mk (c : Chunk α) : Entry α := ⟨ofRows c.index.isSome [c.row], c.frames⟩

theorem isChunk_mk {e : Entry α} {c : Chunk α} (h : IsChunk e c) : e = mk c := by
  obtain ⟨h1, h2, h3⟩ := h
  have h4 := eq_ofRows e.md h1
  have h5 := rows_uniform e.md h1 c.row (by rw [h2]; simp)
  unfold mk
  cases e with
  | mk md frames =>
    simp only at h1 h2 h3 h4 h5
    rw [h2, ← h5] at h4
    rw [h3, h4]
    rfl

theorem mk_isChunk (c : Chunk α) : IsChunk (mk c) c := by
  refine ⟨ofRows_wf _ _, ofRows_rows _ _ ?_, rfl⟩
  intro r hr
  simp at hr
  subst hr
  rfl

/-- Two consecutive chunks as one. -/
def join (a x : Chunk α) : Chunk α := ⟨a.id, a.sos, x.eos, x.index, a.frames ++ x.frames⟩

theorem catEntry_mk (a x : Chunk α) : catEntry (mk a) (mk x) =
    if a.id = x.id ∧ x.sos = false ∧ a.eos = false ∧ a.index.isSome = x.index.isSome then .ok (mk (join a x)) else .error .valueError := by
  have h1 : (mk a).md.minLength = .ok (a.frames.length : Int) := rfl
  unfold catEntry
  rw [h1, Except.bind_ok', if_neg (by simp [mk])]
  have e1 : ∀ c : Chunk α, (mk c).md.ids = [c.id] := fun _ => rfl
  have e2 : ∀ c : Chunk α, (mk c).md.anyStarting = c.sos := fun c => by simp [mk, anyStarting, ofRows, Chunk.row]
  have e3 : ∀ c : Chunk α, (mk c).md.anyEnding = c.eos := fun c => by simp [mk, anyEnding, ofRows, Chunk.row]
  have e4 : ∀ c : Chunk α, (mk c).md.chunk.isSome = c.index.isSome := fun c => ofRows_isSome _ _
  unfold catLength
  simp only [catLengthChecks, catLengthCheck, List.length_cons, List.length_nil, e1, e2, e3]
  by_cases ha : a.eos = true
  · simp [ha, Except.bind_error']
  · simp only [Bool.not_eq_true] at ha
    simp only [ha]
    by_cases hi : a.id = x.id
    · simp only [hi, true_and]
      by_cases hs : x.sos = true
      · simp [hs, Except.bind_error', Except.bind_ok']
      · simp only [Bool.not_eq_true] at hs
        by_cases hc : a.index.isSome = x.index.isSome
        · have hj : init [x.id] (mk a).md.sos (mk x).md.eos (addCols (mk a).md.lengths (mk x).md.lengths) (mk x).md.chunk = .ok (mk (join a x)).md := by
            cases hx : x.index <;> simp [mk, join, ofRows, Chunk.row, addCols, init, hx, hi]
          have hall : ([(mk a).md, (mk x).md].all fun s => s.chunk.isSome) = x.index.isSome := by simp [e4, hc]
          have hnone : ([(mk a).md, (mk x).md].all fun s => s.chunk.isNone) = !x.index.isSome := by
            simp [← Option.not_isSome, e4, hc]
          cases hx : x.index with
          | none =>
            have hxn : (mk x).md.chunk = none := by
              have := e4 x; rw [hx] at this; simpa using this
            simp only [hs, hc, hx, hall, hnone, Except.bind_ok']
            rw [hxn] at hj
            simp [hj, Except.bind_ok', hs, hxn, e4, hx, hc, join]
            rfl
          | some v =>
            simp only [hs, hc, hx, hall, hnone, Except.bind_ok']
            simp [hj, Except.bind_ok', hs, e4, hx, hc, join]
            rfl
        · have hall : ([(mk a).md, (mk x).md].all fun s => s.chunk.isSome) = false := by
            simp [e4]
            intro h1
            cases hx : x.index <;> simp_all
          have hnone : ([(mk a).md, (mk x).md].all fun s => s.chunk.isNone) = false := by
            have e5 : ∀ c : Chunk α, (mk c).md.chunk.isNone = !c.index.isSome := fun c => by rw [← Option.not_isSome, e4]
            simp only [List.all_cons, List.all_nil, e5, Bool.and_true]
            revert hc
            cases a.index.isSome <;> cases x.index.isSome <;> simp
          simp only [hs, hall, hnone]
          simp [Except.bind_error', Except.bind_ok']
          exact hc
    · have : ¬ x.id = a.id := fun h => hi h.symm
      simp [hi, this, Except.bind_error', Except.bind_ok']


/-- What one chunk does to the collector. -/
theorem updateUnary_mk (s : Coll α) (x : Chunk α) : updateUnary s (mk x) =
    if s.closed x.id then (s, some .valueError) else store (if x.eos then s.close x.id else s) x.id x.sos (mk x) := rfl

/-- Invariant: every entry is a chunk of its id, and closed if it is marked as end. -/
def Good (s : Coll α) : Prop := ∀ i e, s.entries i = some e → ∃ c : Chunk α, e = mk c ∧ c.id = i ∧ (c.eos = true → s.closed i = true)

theorem close_entries (s : Coll α) (i : String) : (s.close i).entries = s.entries := rfl

theorem good_state {s : Coll α} (hs : Good s) (x : Chunk α) : Good (if x.eos then s.close x.id else s) := by
  split
  · intro i e h
    obtain ⟨c, h1, h2, h3⟩ := hs i e h
    refine ⟨c, h1, h2, fun h => ?_⟩
    simp only [Coll.close]
    split
    · rfl
    · exact h3 h
  · exact hs

theorem unary_closed (s : Coll α) (x : Chunk α) (h : s.closed x.id = true) : updateUnary s (mk x) = (s, some .valueError) := by
  rw [updateUnary_mk, if_pos h]

theorem entries_state (s : Coll α) (x : Chunk α) : (if x.eos then s.close x.id else s).entries = s.entries := by split <;> rfl

theorem unary_new (s : Coll α) (x : Chunk α) (h : s.closed x.id = false) (he : s.entries x.id = none) : updateUnary s (mk x) =
    if x.sos then ((if x.eos then s.close x.id else s).put x.id (mk x), none) else (if x.eos then s.close x.id else s, some .valueError) := by
  rw [updateUnary_mk, if_neg (by simp [h])]
  unfold store
  rw [entries_state, he]

theorem unary_known {s : Coll α} (hs : Good s) (x c : Chunk α) (h : s.closed x.id = false) (he : s.entries x.id = some (mk c)) : updateUnary s (mk x) =
    if x.sos = false ∧ c.index.isSome = x.index.isSome then ((if x.eos then s.close x.id else s).put x.id (mk (join c x)), none)
    else (if x.eos then s.close x.id else s, some .valueError) := by
  rw [updateUnary_mk, if_neg (by simp [h])]
  unfold store
  rw [entries_state, he]
  obtain ⟨c', hc, hid, hcl⟩ := hs _ _ he
  have hcc : c'.id = c.id ∧ c'.eos = c.eos := by
    have h1 := congrArg (fun e => e.md.ids) hc
    have h2 := congrArg (fun e => e.md.eos) hc
    simp [mk, ofRows, Chunk.row] at h1 h2
    exact ⟨h1.symm, h2.symm⟩
  have heos : c.eos = false := by
    cases hh : c.eos with
    | false => rfl
    | true => rw [hcl (by rw [hcc.2, hh])] at h; simp at h
  cases hsos : x.sos with
  | true => simp
  | false =>
    simp only [Bool.false_eq_true, if_false, true_and]
    rw [catEntry_mk]
    by_cases hi : c.index.isSome = x.index.isSome
    · rw [if_pos ⟨by rw [← hcc.1, hid], hsos, heos, hi⟩, if_pos hi]
    · rw [if_neg (fun h => hi h.2.2.2), if_neg hi]

theorem good_new : Good (Coll.new : Coll α) := by
  intro i e h; simp [Coll.new] at h

/-- `Good` survives, whether the chunk is accepted or not. -/
theorem good_unary {s : Coll α} (hs : Good s) (x : Chunk α) : Good (updateUnary s (mk x)).1 := by
  have hput : ∀ c : Chunk α, c.id = x.id → c.eos = x.eos → Good ((if x.eos then s.close x.id else s).put x.id (mk c)) := by
    intro c hi he i e h
    simp only [Coll.put] at h
    split at h
    · rename_i hii
      simp only [Option.some.injEq] at h
      refine ⟨c, h.symm, by rw [hi, hii], fun h => ?_⟩
      rw [hii]
      rw [he] at h
      simp [h, Coll.put, Coll.close]
    · obtain ⟨c', h1, h2, h3⟩ := good_state hs x i e h
      exact ⟨c', h1, h2, h3⟩
  cases hc : s.closed x.id with
  | true => rw [unary_closed s x hc]; exact hs
  | false =>
    cases he : s.entries x.id with
    | none =>
      rw [unary_new s x hc he]
      split
      · exact hput x rfl rfl
      · exact good_state hs x
    | some e =>
      obtain ⟨c, rfl, hid, -⟩ := hs _ _ he
      rw [unary_known hs x c hc he]
      split
      · exact hput _ hid rfl
      · exact good_state hs x

/-! ### Batches -/

/-- Chunks fed one by one until one is refused. -/
def feed (s : Coll α) : List (Chunk α) → Coll α × Option PyErr
  | [] => (s, none)
  | x :: xs =>
    match updateUnary s (mk x) with
    | (s', none) => feed s' xs
    | (s', some e) => (s', some e)

theorem good_feed {s : Coll α} (hs : Good s) (xs : List (Chunk α)) : Good (feed s xs).1 := by
  induction xs generalizing s with
  | nil => exact hs
  | cons x xs ih =>
    have h := good_unary hs x
    simp only [feed]
    cases hu : updateUnary s (mk x) with
    | mk s' o =>
      rw [hu] at h
      cases o with
      | none => exact ih h
      | some e => exact h

theorem unpad_rows (b : Bool) (w : Nat) (cs : List (Chunk α)) (hw : ∀ x ∈ cs, x.frames.length ≤ w) :
    unpadRows w (cs.map fun x => ofRows b [x.row]) (cs.map fun c => c.frames ++ zeros (w - c.frames.length)) =
      .ok (cs.map fun x => ⟨ofRows b [⟨x.id, x.sos && decide (x.frames ≠ []), x.eos && decide (x.frames ≠ []), x.frames.length, x.index⟩], x.frames⟩) := by
  induction cs with
  | nil => rfl
  | cons x xs ih =>
    simp only [List.map_cons, unpadRows]
    rw [narrow_row b x w (hw x (by simp)), Except.bind_ok', ih (fun y hy => hw y (by simp [hy])), Except.bind_ok']

theorem updateRows_eq (b : Bool) (s : Coll α) (cs : List (Chunk α)) (hb : ∀ x ∈ cs, x.index.isSome = b) :
    updateRows s (cs.map fun x => ⟨ofRows b [⟨x.id, x.sos && decide (x.frames ≠ []), x.eos && decide (x.frames ≠ []), x.frames.length, x.index⟩], x.frames⟩) =
      feed s (nonEmpty cs) := by
  induction cs generalizing s with
  | nil => rfl
  | cons x xs ih =>
    simp only [List.map_cons, updateRows]
    have hml : (ofRows b [⟨x.id, x.sos && decide (x.frames ≠ []), x.eos && decide (x.frames ≠ []), x.frames.length, x.index⟩]).maxLength =
        .ok (x.frames.length : Int) := rfl
    rw [hml]
    simp only [nonEmpty, List.filter_cons]
    by_cases hx : x.frames.length > 0
    · have hne : x.frames ≠ [] := List.length_pos_iff.1 hx
      have h1 : (⟨ofRows b [⟨x.id, x.sos && decide (x.frames ≠ []), x.eos && decide (x.frames ≠ []), x.frames.length, x.index⟩], x.frames⟩ : Entry α) = mk x := by
        unfold mk Chunk.row
        rw [hb x (by simp)]
        simp [hne]
      rw [h1]
      simp only [show ((x.frames.length : Int) > 0) from by omega, if_true, hx, decide_true, feed]
      cases hu : updateUnary s (mk x) with
      | mk s' o =>
        cases o with
        | none => exact ih s' (fun y hy => hb y (by simp [hy]))
        | some e => rfl
    · simp only [show ¬ ((x.frames.length : Int) > 0) from by omega, if_false, hx, decide_false]
      exact ih s (fun y hy => hb y (by simp [hy]))

theorem unpad_batch (x : ST α) (cs : List (Chunk α)) (hne : cs ≠ []) (hp : Packs x x.width cs) :
    unpad x = .ok (cs.map fun y => ⟨ofRows x.md.chunk.isSome [⟨y.id, y.sos && decide (y.frames ≠ []), y.eos && decide (y.frames ≠ []), y.frames.length, y.index⟩], y.frames⟩) := by
  have hpk := packs_pk hp
  unfold unpad
  have hmd : x.md = ofRows x.md.chunk.isSome (cs.map Chunk.row) := congrArg ST.md hpk
  have hun := unbind_ofRows x.md.chunk.isSome (cs.map Chunk.row) (by simpa using hne)
  rw [← hmd] at hun
  rw [hun, Except.bind_ok', hp.2.2.2.2, List.map_map]
  exact unpad_rows x.md.chunk.isSome x.width cs hp.2.2.2.1

/-- A batch is its non-empty chunks, one by one. -/
theorem update_batch (s : Coll α) (x : ST α) (cs : List (Chunk α)) (hne : cs ≠ []) (hp : Packs x x.width cs) :
    updateItem s (.batch x) = feed s (nonEmpty cs) := by
  simp only [updateItem, unpad_batch x cs hne hp]
  exact updateRows_eq _ s cs (packs_index hp)

theorem update_single (s : Coll α) (e : Entry α) (c : Chunk α) (h : IsChunk e c) : updateItem s (.single e) = updateUnary s (mk c) := by
  rw [isChunk_mk h]
  rfl

theorem good_item {s : Coll α} (hs : Good s) {it : Item α} {cs : List (Chunk α)} (h : Carries it cs) : Good (updateItem s it).1 := by
  cases it with
  | batch x =>
    rw [update_batch s x cs h.1 h.2]
    exact good_feed hs _
  | single e =>
    obtain ⟨c, -, hc⟩ := h
    rw [update_single s e c hc]
    exact good_unary hs c

theorem reached_good {s : Coll α} (h : Reached s) : Good s := by
  induction h with
  | new => exact good_new
  | step _ hc ih => exact good_item ih hc


/-! ### C68, C69 -/

/-- **C68**, single chunks: in every reachable state, a chunk for a closed id, a first chunk for a known id, a further chunk for an unknown
id, and a chunk with (without) index for an entry without (with) index raise ValueError; every other chunk is accepted. -/
theorem C68_refuse (s : Coll α) (hs : Reached s) (e : Entry α) (x : Chunk α) (he : IsChunk e x) :
    (s.closed x.id = true → (updateItem s (.single e)).2 = some .valueError) ∧
    (x.sos = true → s.entries x.id ≠ none → (updateItem s (.single e)).2 = some .valueError) ∧
    (x.sos = false → s.entries x.id = none → (updateItem s (.single e)).2 = some .valueError) ∧
    (∀ old, s.entries x.id = some old → old.md.chunk.isSome ≠ e.md.chunk.isSome → (updateItem s (.single e)).2 = some .valueError) ∧
    (s.closed x.id = false → (x.sos = true ∧ s.entries x.id = none) ∨
        (x.sos = false ∧ ∃ old, s.entries x.id = some old ∧ old.md.chunk.isSome = e.md.chunk.isSome) →
      (updateItem s (.single e)).2 = none) := by
  have hg := reached_good hs
  rw [update_single s e x he]
  have hchunk : e.md.chunk.isSome = x.index.isSome := by rw [isChunk_mk he]; exact ofRows_isSome _ _
  refine ⟨?_, ?_, ?_, ?_, ?_⟩
  · intro h
    rw [unary_closed s x h]
  · intro hsos hne
    cases hc : s.closed x.id with
    | true => rw [unary_closed s x hc]
    | false =>
      cases hent : s.entries x.id with
      | none => exact absurd hent hne
      | some old =>
        obtain ⟨c, rfl, -, -⟩ := hg _ _ hent
        rw [unary_known hg x c hc hent, if_neg (by simp [hsos])]
  · intro hsos hne
    cases hc : s.closed x.id with
    | true => rw [unary_closed s x hc]
    | false => rw [unary_new s x hc hne, if_neg (by simp [hsos])]
  · intro old hold hne
    cases hc : s.closed x.id with
    | true => rw [unary_closed s x hc]
    | false =>
      obtain ⟨c, rfl, -, -⟩ := hg _ _ hold
      rw [hchunk] at hne
      rw [unary_known hg x c hc hold, if_neg]
      rintro ⟨-, h2⟩
      exact hne (by rw [← h2]; exact ofRows_isSome _ _)
  · rintro hc (⟨h1, h2⟩ | ⟨h1, old, h2, h3⟩)
    · rw [unary_new s x hc h2, if_pos h1]
    · obtain ⟨c, rfl, -, -⟩ := hg _ _ h2
      rw [unary_known hg x c hc h2, if_pos]
      exact ⟨h1, by rw [← hchunk, ← h3]; exact (ofRows_isSome _ _).symm⟩

/-- **C68**, batches: the rows of a batch that have frames are collected one by one as above, stopping at the first refusal;
in particular a batch of one non-empty row is treated like that row alone. -/
theorem C68_batch (s : Coll α) (x : ST α) (e : Entry α) (c : Chunk α) (he : IsChunk e c) (hp : Packs x x.width [c]) (hne : c.frames ≠ []) :
    updateItem s (.batch x) = updateItem s (.single e) := by
  rw [update_batch s x [c] (by simp) hp, update_single s e c he]
  have : nonEmpty [c] = [c] := by
    simp [nonEmpty, List.length_pos_iff.2 hne]
  rw [this]
  simp only [feed]
  cases updateUnary s (mk c) with
  | mk s' o => cases o <;> rfl

/-- A first chunk of `a`, a further one that ends it. -/
def exA1 : Entry Int := ⟨⟨["a"], [true], [false], [2], none⟩, [1, 2]⟩
def exA2 : Entry Int := ⟨⟨["a"], [false], [true], [1], none⟩, [3]⟩
/-- A chunk of `a` that claims to be first and last. -/
def exA3 : Entry Int := ⟨⟨["a"], [true], [true], [1], none⟩, [9]⟩

instance [DecidableEq α] (e : Entry α) (c : Chunk α) : Decidable (IsChunk e c) := by unfold IsChunk; infer_instance

theorem exA1_chunk : IsChunk exA1 ⟨"a", true, false, none, [1, 2]⟩ := by decide
example : IsChunk exA2 ⟨"a", false, true, none, [3]⟩ ∧ IsChunk exA3 ⟨"a", true, true, none, [9]⟩ := by decide
example : Reached (updateItem Coll.new (.single exA1)).1 := .step .new (cs := [⟨"a", true, false, none, [1, 2]⟩]) ⟨_, rfl, exA1_chunk⟩
example : (updateItem (updateItem Coll.new (.single exA1)).1 (.single exA2)).2 = none ∧
    (updateItem (updateItem Coll.new (.single exA1)).1 (.single exA1)).2 = some .valueError ∧
    (updateItem (updateItem (updateItem Coll.new (.single exA1)).1 (.single exA2)).1 (.single exA2)).2 = some .valueError ∧
    (updateItem Coll.new (.single exA2)).2 = some .valueError := by decide

/-- **C69 is false of the code.** A refused chunk that claims to be first (for a known id) and last closes the id all the same, so the
stream's real next chunk is refused too. -/
theorem C69_unchanged_false :
    (updateItem (updateItem Coll.new (.single exA1)).1 (.single exA3)).2 = some .valueError ∧
    (updateItem Coll.new (.single exA1)).1.closed "a" = false ∧
    (updateItem (updateItem Coll.new (.single exA1)).1 (.single exA3)).1.closed "a" = true ∧
    (updateItem (updateItem (updateItem Coll.new (.single exA1)).1 (.single exA3)).1 (.single exA2)).2 = some .valueError := by decide

/-- C69, what holds, in every state (reachable or not): a refused chunk changes no entry, closes no other id, and changes nothing at all
unless it is marked as end. Missing: refused chunks marked as end close their id. -/
theorem C69_unchanged_partial (s : Coll α) (x : Chunk α) (e : Entry α) (he : IsChunk e x) (err : PyErr)
    (h : (updateItem s (.single e)).2 = some err) :
    (∀ i, (updateItem s (.single e)).1.entries i = s.entries i) ∧
    (∀ i, i ≠ x.id → (updateItem s (.single e)).1.closed i = s.closed i) ∧
    (x.eos = false → (updateItem s (.single e)).1 = s) := by
  rw [update_single s e x he] at h ⊢
  rw [updateUnary_mk] at h ⊢
  split at h
  · rename_i hc
    simp [hc]
  · rename_i hc
    rw [if_neg hc]
    have h1 : (store (if x.eos then s.close x.id else s) x.id x.sos (mk x)).1 = (if x.eos then s.close x.id else s) := by
      unfold store at h ⊢
      cases hent : (if x.eos then s.close x.id else s).entries x.id with
      | none =>
        rw [hent] at h
        simp only at h ⊢
        split at h
        · simp at h
        · rename_i hs; rw [if_neg hs]
      | some old =>
        rw [hent] at h
        simp only at h ⊢
        split
        · rfl
        · rename_i hs
          rw [if_neg hs] at h
          cases hcat : catEntry old (mk x) with
          | ok e' => rw [hcat] at h; simp at h
          | error err' => rfl
    rw [h1]
    refine ⟨fun i => by rw [entries_state], ?_, ?_⟩
    · intro i hi
      split
      · simp [Coll.close, hi]
      · rfl
    · intro heos
      simp [heos]

/-! ### C67 -/

/-- First chunk first, no start after another chunk, nothing after an end. -/
def Stream' (cs : List (Chunk α)) : Prop :=
  (∀ c, cs.head? = some c → c.sos = true) ∧ cs.Pairwise (fun a b => a.eos = false ∧ b.sos = false) ∧
    ((∀ c ∈ cs, c.index.isSome = true) ∨ (∀ c ∈ cs, c.index.isSome = false))

theorem stream'_of {cs : List (Chunk α)} (h : Stream cs) : Stream' cs := by
  obtain ⟨h1, h2, h3⟩ := h
  refine ⟨?_, ?_, h3⟩
  · intro c hc
    rw [List.head?_eq_getElem?] at hc
    exact (h1 0 c hc).2 rfl
  · rw [List.pairwise_iff_getElem]
    intro i j hi hj hij
    constructor
    · cases he : cs[i].eos with
      | false => rfl
      | true =>
        have := h2 i _ (List.getElem?_eq_getElem hi) he
        omega
    · cases he : cs[j].sos with
      | false => rfl
      | true =>
        have := (h1 j _ (List.getElem?_eq_getElem hj)).1 he
        omega

/-- The state after collecting the chunks `P`. -/
def After (s : Coll α) (P : List (Chunk α)) : Prop :=
  ∀ i, (chunksOf i [P] = [] → s.entries i = none ∧ s.closed i = false) ∧
    (chunksOf i [P] ≠ [] → s.entries i = some (mk (joined i (chunksOf i [P]))) ∧ s.closed i = ((chunksOf i [P]).getLast?.map (·.eos)).getD false)

theorem after_good {s : Coll α} {P : List (Chunk α)} (h : After s P) : Good s := by
  intro i e he
  by_cases hc : chunksOf i [P] = []
  · rw [((h i).1 hc).1] at he; simp at he
  · obtain ⟨h1, h2⟩ := (h i).2 hc
    rw [h1] at he
    simp only [Option.some.injEq] at he
    exact ⟨_, he.symm, rfl, fun hh => by rw [h2]; exact hh⟩

theorem chunksOf_snoc (i : String) (P : List (Chunk α)) (x : Chunk α) :
    chunksOf i [P ++ [x]] = chunksOf i [P] ++ if x.id = i then [x] else [] := by
  simp [chunksOf, List.filter_append, List.filter_cons]

theorem after_step {s : Coll α} {P : List (Chunk α)} {x : Chunk α} (h : After s P) (hst : Stream' (chunksOf x.id [P ++ [x]])) :
    ∃ s', updateUnary s (mk x) = (s', none) ∧ After s' (P ++ [x]) := by
  have hg := after_good h
  obtain ⟨h1, h2⟩ := h x.id
  rw [chunksOf_snoc, if_pos rfl] at hst
  obtain ⟨hst1, hst2, hst3⟩ := hst
  have hclosed : s.closed x.id = false := by
    by_cases hc : chunksOf x.id [P] = []
    · exact (h1 hc).2
    · rw [(h2 hc).2]
      rcases List.eq_nil_or_concat (chunksOf x.id [P]) with hn | ⟨l, a, hn⟩
      · exact absurd hn hc
      · rw [List.concat_eq_append] at hn
        rw [hn] at hst2 ⊢
        simp only [List.getLast?_append, List.getLast?_singleton, Option.some_or, Option.map_some, Option.getD_some]
        rw [List.append_assoc, List.pairwise_append] at hst2
        have := hst2.2.1
        simp at this
        exact this.1
  -- the state after a successful update
  have hafter : ∀ c : Chunk α, mk c = mk (joined x.id (chunksOf x.id [P] ++ [x])) →
      After ((if x.eos then s.close x.id else s).put x.id (mk c)) (P ++ [x]) := by
    intro c hc i
    rw [chunksOf_snoc]
    by_cases hi : x.id = i
    · subst hi
      rw [if_pos rfl]
      refine ⟨by simp, fun _ => ⟨by simp [Coll.put, hc], ?_⟩⟩
      simp only [List.getLast?_append, List.getLast?_singleton, Option.some_or, Option.map_some, Option.getD_some, Coll.put]
      cases he : x.eos with
      | true => simp [Coll.close]
      | false => simp [hclosed]
    · rw [if_neg hi, List.append_nil]
      have hi' : ¬ i = x.id := fun hh => hi hh.symm
      have e1 : ((if x.eos then s.close x.id else s).put x.id (mk c)).entries i = s.entries i := by
        simp only [Coll.put, if_neg hi']
        rw [entries_state]
      have e2 : ((if x.eos then s.close x.id else s).put x.id (mk c)).closed i = s.closed i := by
        simp only [Coll.put]
        split
        · simp [Coll.close, hi']
        · rfl
      rw [e1, e2]
      exact h i
  by_cases hc : chunksOf x.id [P] = []
  · rw [hc] at hst1
    have hsos : x.sos = true := hst1 x rfl
    rw [unary_new s x hclosed (h1 hc).1, if_pos hsos]
    refine ⟨_, rfl, hafter x ?_⟩
    rw [hc]
    simp [joined, allFrames]
  · obtain ⟨e1, -⟩ := h2 hc
    have hsos : x.sos = false := by
      obtain ⟨y, hy⟩ := List.exists_mem_of_ne_nil _ hc
      exact ((List.pairwise_append.1 hst2).2.2 y hy x (by simp)).2
    rw [unary_known hg x _ hclosed e1, if_pos]
    · refine ⟨_, rfl, hafter _ ?_⟩
      congr 1
      unfold join joined
      rw [List.head?_append]
      cases hh : (chunksOf x.id [P]).head? with
      | none => rw [List.head?_eq_none_iff] at hh; exact absurd hh hc
      | some y =>
        simp [allFrames]
    · refine ⟨hsos, ?_⟩
      simp only [joined]
      cases hl : (chunksOf x.id [P]).getLast? with
      | none => rw [List.getLast?_eq_none_iff] at hl; exact absurd hl hc
      | some y =>
        have hym : y ∈ chunksOf x.id [P] := List.mem_of_getLast? hl
        simp only [Option.map_some, Option.getD_some]
        rcases hst3 with hh | hh
        · rw [hh y (by simp [hym]), hh x (by simp)]
        · rw [hh y (by simp [hym]), hh x (by simp)]

theorem stream'_prefix {a b : List (Chunk α)} (h : Stream' (a ++ b)) : Stream' a := by
  obtain ⟨h1, h2, h3⟩ := h
  refine ⟨?_, (List.pairwise_append.1 h2).1, ?_⟩
  · intro c hc
    exact h1 c (by rw [List.head?_append, hc]; rfl)
  · rcases h3 with h | h
    · exact .inl fun c hc => h c (by simp [hc])
    · exact .inr fun c hc => h c (by simp [hc])

theorem chunksOf_one_append (i : String) (a b : List (Chunk α)) : chunksOf i [a ++ b] = chunksOf i [a] ++ chunksOf i [b] := by
  simp [chunksOf, List.filter_append]

theorem after_feed (cs : List (Chunk α)) {s : Coll α} {P : List (Chunk α)} (h : After s P) (hst : ∀ i, Stream' (chunksOf i [P ++ cs])) :
    ∃ s', feed s cs = (s', none) ∧ After s' (P ++ cs) := by
  induction cs generalizing s P with
  | nil => exact ⟨s, rfl, by simpa using h⟩
  | cons x xs ih =>
    obtain ⟨s1, e1, e2⟩ := after_step h (x := x) (stream'_prefix (b := chunksOf x.id [xs]) (by
      rw [← chunksOf_one_append, List.append_assoc]; exact hst x.id))
    obtain ⟨s2, e3, e4⟩ := ih e2 (fun i => by rw [List.append_assoc]; exact hst i)
    refine ⟨s2, ?_, by rw [List.append_assoc] at e4; exact e4⟩
    simp only [feed, e1, e3]

/-- The chunks of an item that are collected: the non-empty ones of a batch. -/
def kept (it : Item α) (cs : List (Chunk α)) : List (Chunk α) :=
  match it with
  | .batch _ => nonEmpty cs
  | .single _ => cs

theorem update_kept (items : List (Item α)) (css : List (List (Chunk α))) (h : List.Forall₂ Carries items css) :
    ∀ s : Coll α, update s items = feed s (List.zipWith kept items css).flatten := by
  have happ : ∀ (a b : List (Chunk α)) (s : Coll α), feed s (a ++ b) =
      match feed s a with
      | (s', none) => feed s' b
      | (s', some e) => (s', some e) := by
    intro a b
    induction a with
    | nil => intro s; rfl
    | cons x a ih =>
      intro s
      simp only [List.cons_append, feed]
      cases updateUnary s (mk x) with
      | mk s' o =>
        cases o with
        | none => exact ih s'
        | some e => rfl
  induction h with
  | nil => intro s; rfl
  | @cons it cs items css hc _ ih =>
    intro s
    have hone : updateItem s it = feed s (kept it cs) := by
      cases it with
      | batch x => exact update_batch s x cs hc.1 hc.2
      | single e =>
        obtain ⟨c, rfl, hc⟩ := hc
        rw [update_single s e c hc]
        simp only [kept, feed]
        cases updateUnary s (mk c) with
        | mk s' o => cases o <;> rfl
    simp only [update, List.zipWith_cons_cons, List.flatten_cons, happ, hone]
    cases feed s (kept it cs) with
    | mk s' o =>
      cases o with
      | none => exact ih s'
      | some e => rfl

/-- `cs'` is `cs` without some of its empty chunks. -/
inductive Drops : List (Chunk α) → List (Chunk α) → Prop where
  | nil : Drops [] []
  | keep (c : Chunk α) {a b : List (Chunk α)} : Drops a b → Drops (c :: a) (c :: b)
  | skip (c : Chunk α) {a b : List (Chunk α)} : c.frames = [] → Drops a b → Drops a (c :: b)

theorem Drops.refl (cs : List (Chunk α)) : Drops cs cs := by
  induction cs with
  | nil => exact .nil
  | cons c cs ih => exact .keep c ih

theorem Drops.append {a b c d : List (Chunk α)} (h1 : Drops a b) (h2 : Drops c d) : Drops (a ++ c) (b ++ d) := by
  induction h1 with
  | nil => exact h2
  | keep x _ ih => exact .keep x ih
  | skip x hx _ ih => exact .skip x hx ih

theorem Drops.filter {a b : List (Chunk α)} (h : Drops a b) (p : Chunk α → Bool) : Drops (a.filter p) (b.filter p) := by
  induction h with
  | nil => exact .nil
  | keep x _ ih =>
    simp only [List.filter_cons]
    split
    · exact .keep x ih
    · exact ih
  | skip x hx _ ih =>
    simp only [List.filter_cons]
    split
    · exact .skip x hx ih
    · exact ih

theorem Drops.frames {a b : List (Chunk α)} (h : Drops a b) : allFrames a = allFrames b := by
  induction h with
  | nil => rfl
  | keep x _ ih => simp only [allFrames, List.flatMap_cons] at ih ⊢; rw [ih]
  | skip x hx _ ih => simp only [allFrames, List.flatMap_cons] at ih ⊢; rw [ih, hx]; rfl

theorem Drops.sublist {a b : List (Chunk α)} (h : Drops a b) : a.Sublist b := by
  induction h with
  | nil => exact .slnil
  | keep x _ ih => exact .cons₂ x ih
  | skip x _ _ ih => exact .cons x ih

theorem Drops.head {a b : List (Chunk α)} (h : Drops a b) (hb : ∀ c, b.head? = some c → c.frames ≠ []) : a.head? = b.head? := by
  cases h with
  | nil => rfl
  | keep x _ => rfl
  | skip x hx _ => exact absurd hx (hb x rfl)

theorem Drops.eq_of {a b : List (Chunk α)} (h : Drops a b) (hb : ∀ c ∈ b, c.frames ≠ []) : a = b := by
  induction h with
  | nil => rfl
  | keep x _ ih => rw [ih fun c hc => hb c (by simp [hc])]
  | skip x hx _ _ => exact absurd hx (hb x (by simp))

theorem kept_drops (it : Item α) (cs : List (Chunk α)) : Drops (kept it cs) cs := by
  cases it with
  | single e => exact Drops.refl cs
  | batch x =>
    simp only [kept, nonEmpty]
    induction cs with
    | nil => exact .nil
    | cons c cs ih =>
      simp only [List.filter_cons]
      split
      · exact .keep c ih
      · rename_i h
        simp at h
        exact .skip c h ih

theorem Drops.stream {a b : List (Chunk α)} (h : Drops a b) (hb : ∀ c, b.head? = some c → c.frames ≠ []) (hs : Stream' b) : Stream' a := by
  refine ⟨by rw [h.head hb]; exact hs.1, hs.2.1.sublist h.sublist, ?_⟩
  rcases hs.2.2 with h' | h'
  · exact .inl fun c hc => h' c (h.sublist.subset hc)
  · exact .inr fun c hc => h' c (h.sublist.subset hc)

/-- **C67.** Any interleaving of well-formed chunk streams, in batches or one by one, is collected without an exception; afterwards the
collector holds, for exactly the ids that occurred, all frames of the stream in order. If no chunk of a stream was empty, its entry has the
metadata of the chunks put together. (Streams whose first chunk is empty: C70.) -/
theorem C67_reassemble (items : List (Item α)) (css : List (List (Chunk α))) (h : List.Forall₂ Carries items css)
    (hst : ∀ i, Stream (chunksOf i css)) (hfirst : ∀ i c, (chunksOf i css).head? = some c → c.frames ≠ []) :
    ∃ s, update Coll.new items = (s, none) ∧ ∀ i,
      (chunksOf i css = [] → s.entries i = none) ∧
      (chunksOf i css ≠ [] → ∃ e, s.entries i = some e ∧ e.frames = allFrames (chunksOf i css) ∧
        ((∀ c ∈ chunksOf i css, c.frames ≠ []) → IsChunk e (joined i (chunksOf i css)))) := by
  have hdrop : Drops (List.zipWith kept items css).flatten css.flatten := by
    clear hst hfirst
    induction h with
    | nil => exact .nil
    | @cons it cs items css _ _ ih =>
      simp only [List.zipWith_cons_cons, List.flatten_cons]
      exact (kept_drops it cs).append ih
  have hdi : ∀ i, Drops (chunksOf i [(List.zipWith kept items css).flatten]) (chunksOf i css) := by
    intro i
    have := hdrop.filter fun c => decide (c.id = i)
    simpa [chunksOf] using this
  have hnew : After (Coll.new : Coll α) [] := by
    intro i
    simp [chunksOf, Coll.new]
  obtain ⟨s, h1, h2⟩ := after_feed (List.zipWith kept items css).flatten hnew (by
    intro i
    rw [List.nil_append]
    exact (hdi i).stream (hfirst i) (stream'_of (hst i)))
  rw [List.nil_append] at h2
  refine ⟨s, by rw [update_kept items css h, h1], ?_⟩
  intro i
  obtain ⟨e1, e2⟩ := h2 i
  constructor
  · intro hn
    have hd := hdi i
    rw [hn] at hd
    refine (e1 ?_).1
    exact List.eq_nil_of_sublist_nil hd.sublist
  · intro hne
    have hne' : chunksOf i [(List.zipWith kept items css).flatten] ≠ [] := by
      intro hn
      have := (hdi i).head (hfirst i)
      rw [hn] at this
      exact hne (List.head?_eq_none_iff.1 this.symm)
    obtain ⟨e3, -⟩ := e2 hne'
    refine ⟨_, e3, ?_, ?_⟩
    · simp only [mk, joined]
      exact (hdi i).frames
    · intro hall
      rw [← (hdi i).eq_of hall]
      exact mk_isChunk _

/-- Two streams in a batch, then the rest of `a` alone. -/
def exItems : List (Item Int) :=
  [.batch { md := ⟨["a", "b"], [true, true], [false, true], [2, 1], some [0, 0]⟩, width := 2, rows := [[1, 2], [5, 0]] },
   .single ⟨⟨["a"], [false], [true], [2], some [1]⟩, [3, 4]⟩]
def exChunks : List (List (Chunk Int)) :=
  [[⟨"a", true, false, some 0, [1, 2]⟩, ⟨"b", true, true, some 0, [5]⟩], [⟨"a", false, true, some 1, [3, 4]⟩]]

example : List.Forall₂ Carries exItems exChunks :=
  .cons ⟨by decide, by decide⟩ (.cons ⟨_, rfl, by decide⟩ .nil)
example : ((update Coll.new exItems).1.entries "a", (update Coll.new exItems).1.entries "b", (update Coll.new exItems).2) =
    (some ⟨⟨["a"], [true], [true], [4], some [1]⟩, [1, 2, 3, 4]⟩, some ⟨⟨["b"], [true], [true], [1], some [0]⟩, [5]⟩, none) := by decide
example : StartsOnce (chunksOf "a" exChunks) ∧ StartsOnce (chunksOf "b" exChunks) := by decide

/-! ### C70 -/

/-- C69: a StreamTensor without batch axis whose metadata do not have exactly one row is refused (AssertionError) and changes nothing, wherever it stands among the arguments. -/
theorem C69_no_batch_axis (s : Coll α) (x : Entry α) (hx : x.md.ids.length ≠ 1) (xs : List (Item α)) : update s (.single x :: xs) = (s, some .assertionError) := by
  simp only [update, updateItem]
  rw [if_neg (show ¬x.md.size = 1 from hx)]

example : (update Coll.new [.single (⟨⟨["a", "b"], [true, true], [true, true], [1, 1], none⟩, [5]⟩ : Entry Int)]).2 = some .assertionError := by rw [C69_no_batch_axis _ _ (by decide)]

/-- The stream `a`: an empty first chunk, then one with frames. -/
def exEmpty : List (Item Int) :=
  [.batch { md := ⟨["a"], [true], [false], [0], none⟩, width := 0, rows := [[]] },
   .batch { md := ⟨["a"], [false], [true], [2], none⟩, width := 2, rows := [[1, 2]] }]

/-- **C70 is false of the code.** The empty first chunk is skipped, so the next one is refused as not being the first. -/
theorem C70_empty_first_false :
    List.Forall₂ Carries exEmpty [[⟨"a", true, false, none, []⟩], [⟨"a", false, true, none, [1, 2]⟩]] ∧
    (update Coll.new exEmpty).2 = some .valueError ∧ (update Coll.new exEmpty).1.entries "a" = none := by
  refine ⟨.cons ⟨by decide, by decide⟩ (.cons ⟨by decide, by decide⟩ .nil), by decide⟩

/-- C70, what holds: chunks without a batch axis are never skipped, so any streams of such chunks, empty or not, are collected.
Missing: empty first rows of batches. -/
theorem C70_empty_first_partial (es : List (Entry α)) (cs : List (Chunk α)) (h : List.Forall₂ IsChunk es cs)
    (hst : ∀ i, Stream (chunksOf i [cs])) :
    ∃ s, update Coll.new (es.map Item.single) = (s, none) ∧ ∀ i,
      (chunksOf i [cs] = [] → s.entries i = none) ∧
      (chunksOf i [cs] ≠ [] → ∃ e, s.entries i = some e ∧ e.frames = allFrames (chunksOf i [cs]) ∧ IsChunk e (joined i (chunksOf i [cs]))) := by
  have hc : List.Forall₂ Carries (es.map Item.single) (cs.map fun c => [c]) := by
    clear hst
    induction h with
    | nil => exact .nil
    | cons hc _ ih => exact .cons ⟨_, rfl, hc⟩ ih
  have hk : (List.zipWith kept (es.map Item.single) (cs.map fun c => [c])).flatten = cs := by
    clear hst hc
    induction h with
    | nil => rfl
    | cons hc _ ih => simp only [List.map_cons, List.zipWith_cons_cons, kept, List.flatten_cons, ih, List.singleton_append]
  have hnew : After (Coll.new : Coll α) [] := by
    intro i
    simp [chunksOf, Coll.new]
  obtain ⟨s, h1, h2⟩ := after_feed cs hnew (fun i => stream'_of (by rw [List.nil_append]; exact hst i))
  rw [List.nil_append] at h2
  refine ⟨s, by rw [update_kept _ _ hc, hk, h1], fun i => ⟨fun hn => ((h2 i).1 hn).1, fun hn => ?_⟩⟩
  exact ⟨_, ((h2 i).2 hn).1, rfl, mk_isChunk _⟩

example : ((update Coll.new ([⟨⟨["a"], [true], [false], [0], none⟩, []⟩, ⟨⟨["a"], [false], [true], [2], none⟩, [1, 2]⟩].map Item.single : List (Item Int))).1.entries "a") =
    some ⟨⟨["a"], [true], [true], [2], none⟩, [1, 2]⟩ := by decide

/-- As `Stream'`, except that the first chunk may lack the start flag. -/
def Rest (cs : List (Chunk α)) : Prop :=
  cs.Pairwise (fun a b => a.eos = false ∧ b.sos = false) ∧
    ((∀ c ∈ cs, c.index.isSome = true) ∨ (∀ c ∈ cs, c.index.isSome = false))

theorem Rest.sublist {a b : List (Chunk α)} (h : Rest b) (hs : a.Sublist b) : Rest a := by
  refine ⟨h.1.sublist hs, ?_⟩
  rcases h.2 with h' | h'
  · exact .inl fun c hc => h' c (hs.subset hc)
  · exact .inr fun c hc => h' c (hs.subset hc)

/-- Chunks in order are collected exactly if the first of every stream has the start flag; otherwise the error is a ValueError. -/
theorem feed_exact (cs : List (Chunk α)) {s : Coll α} {P : List (Chunk α)} (h : After s P) (hP : ∀ i, Stream' (chunksOf i [P]))
    (hr : ∀ i, Rest (chunksOf i [P ++ cs])) :
    ((feed s cs).2 = none ↔ ∀ i c, (chunksOf i [P ++ cs]).head? = some c → c.sos = true) ∧
      ((feed s cs).2 ≠ none → (feed s cs).2 = some .valueError) := by
  induction cs generalizing s P with
  | nil =>
    refine ⟨⟨fun _ i c hc => (hP i).1 c (by simpa using hc), fun _ => rfl⟩, fun hn => absurd rfl hn⟩
  | cons x xs ih =>
    have hr1 : ∀ i, Rest (chunksOf i [P ++ [x]]) := by
      intro i
      refine (hr i).sublist ?_
      rw [show P ++ x :: xs = (P ++ [x]) ++ xs by simp, chunksOf_one_append i (P ++ [x]) xs]
      exact List.sublist_append_left ..
    by_cases hx : ∀ c, (chunksOf x.id [P ++ [x]]).head? = some c → c.sos = true
    · have hst : ∀ i, Stream' (chunksOf i [P ++ [x]]) := by
        intro i
        refine ⟨?_, hr1 i⟩
        by_cases hi : x.id = i
        · subst hi; exact hx
        · rw [chunksOf_snoc, if_neg hi, List.append_nil]
          exact (hP i).1
      obtain ⟨s1, e1, e2⟩ := after_step h (x := x) (hst x.id)
      have := ih e2 hst (fun i => by rw [List.append_assoc]; exact hr i)
      rw [List.append_assoc] at this
      simp only [feed, e1]
      exact this
    · have hnil : chunksOf x.id [P] = [] := by
        cases hc : chunksOf x.id [P] with
        | nil => rfl
        | cons y ys =>
          exfalso
          apply hx
          intro c hh
          rw [chunksOf_snoc, hc] at hh
          exact (hP x.id).1 c (by rw [hc]; exact hh)
      have hsos : x.sos = false := by
        cases hh : x.sos with
        | false => rfl
        | true =>
          exfalso
          apply hx
          intro c hc
          rw [chunksOf_snoc, hnil, if_pos rfl] at hc
          simp at hc
          rw [← hc]; exact hh
      obtain ⟨h1, h2⟩ := (h x.id).1 hnil
      have hu := unary_new s x h2 h1
      rw [if_neg (by simp [hsos])] at hu
      simp only [feed, hu]
      refine ⟨⟨fun hn => by simp at hn, fun hall => ?_⟩, fun _ => trivial⟩
      have := hall x.id x (by
        rw [show P ++ x :: xs = (P ++ [x]) ++ xs by simp, chunksOf_one_append, chunksOf_snoc, hnil, if_pos rfl]
        rfl)
      rw [hsos] at this
      exact absurd this (by simp)

/-- C70, exactly: zero-padded batches of well-formed streams are collected if and only if the first chunk of every stream has frames or none
of its chunks has; otherwise a ValueError is raised. What is collected are all frames of every stream that has any, and nothing for the
streams without frames. Missing: streams with frames whose first chunk has none, for which the property fails. -/
theorem C70_exact_partial (ys : List (ST α)) (css : List (List (Chunk α))) (h : List.Forall₂ (fun y cs => cs ≠ [] ∧ Packs y y.width cs) ys css)
    (hst : ∀ i, Stream (chunksOf i css)) :
    ((update Coll.new (ys.map Item.batch)).2 = none ↔
      ∀ i c, (chunksOf i css).head? = some c → c.frames ≠ [] ∨ allFrames (chunksOf i css) = []) ∧
    ((update Coll.new (ys.map Item.batch)).2 ≠ none → (update Coll.new (ys.map Item.batch)).2 = some .valueError) ∧
    ((update Coll.new (ys.map Item.batch)).2 = none → ∀ i,
      (allFrames (chunksOf i css) = [] → (update Coll.new (ys.map Item.batch)).1.entries i = none) ∧
      (allFrames (chunksOf i css) ≠ [] → ∃ e, (update Coll.new (ys.map Item.batch)).1.entries i = some e ∧
        e.frames = allFrames (chunksOf i css))) := by
  have hcar : List.Forall₂ Carries (ys.map Item.batch) css := by
    clear hst
    induction h with
    | nil => exact .nil
    | cons hc _ ih => exact .cons hc ih
  have hk : (List.zipWith kept (ys.map Item.batch) css).flatten = nonEmpty css.flatten := by
    clear hst hcar
    induction h with
    | nil => rfl
    | cons hc _ ih => simp only [List.map_cons, List.zipWith_cons_cons, kept, List.flatten_cons, ih, nonEmpty, List.filter_append]
  have hof : ∀ i, chunksOf i [nonEmpty css.flatten] = nonEmpty (chunksOf i css) := by
    intro i
    simp only [chunksOf, nonEmpty, List.flatten_cons, List.flatten_nil, List.append_nil, List.filter_filter]
    congr 1
    funext c
    exact Bool.and_comm ..
  have hnew : After (Coll.new : Coll α) [] := by
    intro i
    simp [chunksOf, Coll.new]
  have hrest : ∀ i, Rest (chunksOf i [([] : List (Chunk α)) ++ nonEmpty css.flatten]) := by
    intro i
    rw [List.nil_append, hof]
    have := stream'_of (hst i)
    exact Rest.sublist ⟨this.2.1, this.2.2⟩ List.filter_sublist
  have hfe := feed_exact (nonEmpty css.flatten) hnew (fun i => by simp [chunksOf, Stream']) hrest
  have hall : ∀ l : List (Chunk α), nonEmpty l = [] ↔ allFrames l = [] := by
    intro l
    simp [nonEmpty, allFrames]
  have hfr : ∀ l : List (Chunk α), allFrames (nonEmpty l) = allFrames l := by
    intro l
    induction l with
    | nil => rfl
    | cons c l ih =>
      simp only [nonEmpty, List.filter_cons, allFrames] at ih ⊢
      by_cases hc : c.frames = []
      · simp [hc, ih]
      · rw [if_pos (by simpa [List.length_pos_iff] using hc), List.flatMap_cons, List.flatMap_cons, ih]
  rw [update_kept _ _ hcar, hk]
  refine ⟨hfe.1.trans ?_, hfe.2, ?_⟩
  · simp only [List.nil_append, hof]
    constructor
    · intro hh i c hc
      by_cases hf : c.frames = []
      · right
        rw [← hall]
        cases hn : nonEmpty (chunksOf i css) with
        | nil => rfl
        | cons d ds =>
          exfalso
          have hd := hh i d (by rw [hn]; rfl)
          cases hcs : chunksOf i css with
          | nil => rw [hcs] at hc; simp at hc
          | cons c' tl =>
            rw [hcs] at hc hn
            simp only [List.head?_cons, Option.some.injEq] at hc
            subst hc
            have hmem : d ∈ nonEmpty tl := by
              have : d ∈ nonEmpty (c' :: tl) := by rw [hn]; simp
              simpa [nonEmpty, List.filter_cons, hf] using this
            have hd2 : d ∈ tl := (List.mem_filter.1 hmem).1
            have := (stream'_of (hst i)).2.1
            rw [hcs, List.pairwise_cons] at this
            rw [(this.1 d hd2).2] at hd
            exact absurd hd (by simp)
      · exact .inl hf
    · intro hh i c hc
      cases hcs : chunksOf i css with
      | nil => rw [hcs] at hc; simp [nonEmpty] at hc
      | cons c' tl =>
        rcases hh i c' (by rw [hcs]; rfl) with hf | hf
        · rw [hcs] at hc
          rw [nonEmpty, List.filter_cons, if_pos (by simpa [List.length_pos_iff] using hf)] at hc
          simp only [List.head?_cons, Option.some.injEq] at hc
          subst hc
          exact (stream'_of (hst i)).1 c' (by rw [hcs]; rfl)
        · rw [← hall] at hf
          rw [hf] at hc
          simp at hc
  · intro hn i
    obtain ⟨s, h1, h2⟩ := after_feed (nonEmpty css.flatten) hnew (fun i => ⟨hfe.1.1 hn i, hrest i⟩)
    rw [List.nil_append] at h2
    obtain ⟨e1, e2⟩ := h2 i
    rw [hof] at e1 e2
    rw [h1]
    constructor
    · intro ha
      exact (e1 ((hall _).2 ha)).1
    · intro ha
      have ha' : nonEmpty (chunksOf i css) ≠ [] := fun hh => ha ((hall _).1 hh)
      refine ⟨_, (e2 ha').1, ?_⟩
      simp only [mk, joined]
      exact hfr _

/-- `a` has frames from the start and an empty chunk in between, `b` has none at all. -/
def exHoles : List (ST Int) :=
  [{ md := ⟨["a", "b"], [true, true], [false, false], [2, 0], none⟩, width := 2, rows := [[1, 2], [0, 0]] },
   { md := ⟨["a", "b"], [false, false], [false, true], [0, 0], none⟩, width := 0, rows := [[], []] },
   { md := ⟨["a"], [false], [true], [1], none⟩, width := 1, rows := [[3]] }]

example : List.Forall₂ (fun y cs => cs ≠ [] ∧ Packs y y.width cs) exHoles (exHoles.map unpack) :=
  .cons ⟨by decide, by decide⟩ (.cons ⟨by decide, by decide⟩ (.cons ⟨by decide, by decide⟩ .nil))
example : StartsOnce (chunksOf "a" (exHoles.map unpack)) ∧ StartsOnce (chunksOf "b" (exHoles.map unpack)) := by decide
example : ((update Coll.new (exHoles.map Item.batch)).2, ((update Coll.new (exHoles.map Item.batch)).1.entries "a").map (·.frames),
    ((update Coll.new (exHoles.map Item.batch)).1.entries "b").map (·.frames)) = (none, some [1, 2, 3], none) := by decide

end
end DS.Coll
