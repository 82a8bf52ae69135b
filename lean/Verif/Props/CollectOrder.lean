import Verif.Spec.CollectOrder
import Verif.Props.CollectorDict
/-!
# C224: the outputs in a collector are listed in the order in which their streams began
-/

namespace DS.Coll
open Meta Conv

section
variable {α : Type}

/-! ### The dictionary -/

theorem find_setPair (i j : String) (e : Entry α) (ps : List (String × Entry α)) :
    ((setPair i e ps).find? fun p => p.1 == j).map Prod.snd = if j = i then some e else (ps.find? fun p => p.1 == j).map Prod.snd := by
  induction ps with
  | nil =>
    by_cases h : i = j
    · simp [setPair, h]
    · have h' : ¬ j = i := fun hh => h hh.symm
      simp [setPair, h, h']
  | cons p ps ih =>
    by_cases hp : p.1 = i
    · simp only [setPair, hp, if_true]
      by_cases h : i = j
      · simp [h]
      · have h' : ¬ j = i := fun hh => h hh.symm
        simp [h, h', List.find?_cons, hp]
    · simp only [setPair, hp, if_false, List.find?_cons]
      by_cases h : p.1 = j
      · have h' : ¬ j = i := fun hh => hp (h.trans hh)
        simp [h, h']
      · simp only [show (p.1 == j) = false from by simp [h]]
        exact ih

theorem keys_setPair (i : String) (e : Entry α) (ps : List (String × Entry α)) :
    (setPair i e ps).map Prod.fst = if i ∈ ps.map Prod.fst then ps.map Prod.fst else ps.map Prod.fst ++ [i] := by
  induction ps with
  | nil => simp [setPair]
  | cons p ps ih =>
    by_cases hp : p.1 = i
    · simp [setPair, hp]
    · have hp' : ¬ i = p.1 := fun h => hp h.symm
      simp only [setPair, hp, if_false, List.map_cons, ih, List.mem_cons, hp', false_or]
      split <;> simp

theorem get_none_iff (o : OColl α) (i : String) : o.get i = none ↔ i ∉ o.keys := by
  unfold OColl.get OColl.keys
  rw [Option.map_eq_none_iff, List.find?_eq_none]
  simp only [List.mem_map, not_exists, not_and, beq_iff_eq]

theorem put_same {o : OColl α} {s : Coll α} (h : SameColl o s) (i : String) (e : Entry α) : SameColl (o.put i e) (s.put i e) := by
  obtain ⟨h1, h2, h3⟩ := h
  refine ⟨?_, ?_, h3⟩
  · have := keys_setPair i e o.pairs
    unfold OColl.keys OColl.put
    dsimp only
    rw [this]
    split
    · exact h1
    · rename_i hn
      exact List.nodup_append.2 ⟨h1, by simp, by rintro a ha b hb rfl; simp only [List.mem_singleton] at hb; subst hb; exact hn ha⟩
  · intro j
    have := find_setPair i j e o.pairs
    unfold OColl.get OColl.put Coll.put
    dsimp only
    rw [this]
    split
    · rfl
    · exact h2 j

theorem close_same {o : OColl α} {s : Coll α} (h : SameColl o s) (i : String) (b : Bool) :
    SameColl (if b then { o with closed := i :: o.closed } else o : OColl α) (if b then s.close i else s) := by
  cases b with
  | false => exact h
  | true =>
    obtain ⟨h1, h2, h3⟩ := h
    refine ⟨h1, h2, fun j => ?_⟩
    by_cases hj : j = i
    · simp [Coll.close, hj]
    · simp [Coll.close, hj, h3 j]

/-! ### Both models do the same -/

/-- One result: the same exception, and the states are the same. -/
def SameRes (p : OColl α × Option PyErr) (q : Coll α × Option PyErr) : Prop := p.2 = q.2 ∧ SameColl p.1 q.1

theorem ounary_same {o : OColl α} {s : Coll α} (h : SameColl o s) (x : Entry α) : SameRes (o.updateUnary x) (updateUnary s x) := by
  unfold OColl.updateUnary updateUnary
  cases pyGet x.md.ids 0 with
  | error e => exact ⟨rfl, h⟩
  | ok i =>
    dsimp only
    by_cases hc : i ∈ o.closed
    · rw [if_pos hc, if_pos ((h.2.2 i).1 hc)]
      exact ⟨rfl, h⟩
    · rw [if_neg hc, if_neg (fun hh => hc ((h.2.2 i).2 hh))]
      cases item x.md.eos with
      | error e => exact ⟨rfl, h⟩
      | ok eos =>
        cases item x.md.sos with
        | error e => exact ⟨rfl, h⟩
        | ok sos =>
          dsimp only
          have h' := close_same h i eos
          generalize (if eos then { o with closed := i :: o.closed } else o : OColl α) = o' at h' ⊢
          generalize (if eos then s.close i else s) = s' at h' ⊢
          unfold store
          rw [h'.2.1 i]
          cases s'.entries i with
          | none =>
            dsimp only
            split
            · exact ⟨rfl, put_same h' i x⟩
            · exact ⟨rfl, h'⟩
          | some e =>
            dsimp only
            split
            · exact ⟨rfl, h'⟩
            · cases catEntry e x with
              | ok e' => exact ⟨rfl, put_same h' i e'⟩
              | error err => exact ⟨rfl, h'⟩

theorem orows_same (xs : List (Entry α)) {o : OColl α} {s : Coll α} (h : SameColl o s) : SameRes (o.updateRows xs) (updateRows s xs) := by
  induction xs generalizing o s with
  | nil => exact ⟨rfl, h⟩
  | cons x xs ih =>
    simp only [OColl.updateRows, updateRows]
    cases x.md.maxLength with
    | error e => exact ⟨rfl, h⟩
    | ok ml =>
      dsimp only
      split
      · have hu := ounary_same h x
        rcases ho : o.updateUnary x with ⟨o', r⟩
        rcases hs : updateUnary s x with ⟨s', r'⟩
        rw [ho, hs] at hu
        obtain ⟨hr, hu⟩ := hu
        dsimp only at hr hu
        subst hr
        cases r with
        | none => exact ih hu
        | some e => exact ⟨rfl, hu⟩
      · exact ih h

theorem item_same {o : OColl α} {s : Coll α} (h : SameColl o s) (it : Item α) : SameRes (o.updateItem it) (updateItem s it) := by
  cases it with
  | batch x =>
    simp only [OColl.updateItem, updateItem]
    cases unpad x with
    | error e => exact ⟨rfl, h⟩
    | ok rows => exact orows_same rows h
  | single x =>
    simp only [OColl.updateItem, updateItem]
    split
    · exact ounary_same h x
    · exact ⟨rfl, h⟩

/-- **C224 (refinement).** The collector with the order of its dictionary and the one without (of which C67–C70, C193 and others speak) do the same: whatever they are given, well-formed or not, they raise the same exception and hold the same outputs afterwards; no id is listed twice. -/
theorem C224_same (its : List (Item α)) {o : OColl α} {s : Coll α} (h : SameColl o s) :
    (o.update its).2 = (update s its).2 ∧ SameColl (o.update its).1 (update s its).1 := by
  induction its generalizing o s with
  | nil => exact ⟨rfl, h⟩
  | cons it its ih =>
    simp only [OColl.update, update]
    have hu := item_same h it
    rcases ho : o.updateItem it with ⟨o', r⟩
    rcases hs : updateItem s it with ⟨s', r'⟩
    rw [ho, hs] at hu
    obtain ⟨hr, hu⟩ := hu
    dsimp only at hr hu
    subst hr
    cases r with
    | none => exact ih hu
    | some e => exact ⟨rfl, hu⟩

/-- A refused chunk of `b`, after `a`: both models hold `a` only. -/
example : (OColl.new.update [.single exOpen, .single ⟨⟨["b"], [false], [false], [1], none⟩, [7]⟩]).2 = some .valueError ∧
    (OColl.new.update [.single exOpen, .single ⟨⟨["b"], [false], [false], [1], none⟩, [7]⟩]).1.keys = ["a"] := by decide +kernel

theorem new_same : SameColl (OColl.new : OColl α) Coll.new := ⟨.nil, fun _ => rfl, fun i => by simp [OColl.new, Coll.new]⟩

/-! ### What is listed stays where it is -/

theorem keys_put (o : OColl α) (i : String) (e : Entry α) : o.keys <+: (o.put i e).keys := by
  have := keys_setPair i e o.pairs
  unfold OColl.keys OColl.put
  dsimp only
  rw [this]
  split
  · exact List.prefix_refl _
  · exact List.prefix_append _ _

theorem unary_prefix (o : OColl α) (x : Entry α) : o.keys <+: (o.updateUnary x).1.keys := by
  unfold OColl.updateUnary
  cases pyGet x.md.ids 0 with
  | error e => exact List.prefix_refl _
  | ok i =>
    dsimp only
    split
    · exact List.prefix_refl _
    · cases item x.md.eos with
      | error e => exact List.prefix_refl _
      | ok eos =>
        cases item x.md.sos with
        | error e => exact List.prefix_refl _
        | ok sos =>
          dsimp only
          have hk : (if eos then { o with closed := i :: o.closed } else o : OColl α).keys = o.keys := by split <;> rfl
          generalize (if eos then { o with closed := i :: o.closed } else o : OColl α) = o' at hk ⊢
          rw [← hk]
          cases o'.get i with
          | none =>
            dsimp only
            split
            · exact keys_put _ _ _
            · exact List.prefix_refl _
          | some e =>
            dsimp only
            split
            · exact List.prefix_refl _
            · cases catEntry e x with
              | ok e' => exact keys_put _ _ _
              | error err => exact List.prefix_refl _

theorem rows_prefix (xs : List (Entry α)) (o : OColl α) : o.keys <+: (o.updateRows xs).1.keys := by
  induction xs generalizing o with
  | nil => exact List.prefix_refl _
  | cons x xs ih =>
    simp only [OColl.updateRows]
    cases x.md.maxLength with
    | error e => exact List.prefix_refl _
    | ok ml =>
      dsimp only
      split
      · have hu := unary_prefix o x
        rcases ho : o.updateUnary x with ⟨o', r⟩
        rw [ho] at hu
        cases r with
        | none => exact hu.trans (ih o')
        | some e => exact hu
      · exact ih o

/-- **C224 (stable).** Whatever is collected, and whether it raises or not: the ids that are listed keep their places, and new ones are listed after them. -/
theorem C224_stable (its : List (Item α)) (o : OColl α) : o.keys <+: (o.update its).1.keys := by
  induction its generalizing o with
  | nil => exact List.prefix_refl _
  | cons it its ih =>
    simp only [OColl.update]
    have hu : o.keys <+: (o.updateItem it).1.keys := by
      cases it with
      | batch x =>
        simp only [OColl.updateItem]
        cases unpad x with
        | error e => exact List.prefix_refl _
        | ok rows => exact rows_prefix rows o
      | single x =>
        simp only [OColl.updateItem]
        split
        · exact unary_prefix o x
        · exact List.prefix_refl _
    rcases ho : o.updateItem it with ⟨o', r⟩
    rw [ho] at hu
    cases r with
    | none => exact hu.trans (ih o')
    | some e => exact hu

end

/-! ### The order of arrival -/

section
variable {α : Type} [Zero α]

theorem firstsFrom_congr (l : List String) (s t : List String) (h : ∀ x, x ∈ s ↔ x ∈ t) : firstsFrom s l = firstsFrom t l := by
  induction l generalizing s t with
  | nil => rfl
  | cons y l ih =>
    simp only [firstsFrom, h y]
    split
    · exact ih s t h
    · rw [ih (y :: s) (y :: t) (fun x => by simp [h x])]

/-- Chunks fed one by one until one is refused. -/
def ofeed (o : OColl α) : List (Chunk α) → OColl α × Option PyErr
  | [] => (o, none)
  | x :: xs =>
    match o.updateUnary (mk x) with
    | (o', none) => ofeed o' xs
    | (o', some e) => (o', some e)

theorem orows_eq (b : Bool) (o : OColl α) (cs : List (Chunk α)) (hb : ∀ x ∈ cs, x.index.isSome = b) :
    o.updateRows (cs.map fun x => ⟨ofRows b [⟨x.id, x.sos && decide (x.frames ≠ []), x.eos && decide (x.frames ≠ []), x.frames.length, x.index⟩], x.frames⟩) =
      ofeed o (nonEmpty cs) := by
  induction cs generalizing o with
  | nil => rfl
  | cons x xs ih =>
    simp only [List.map_cons, OColl.updateRows]
    have hml : (ofRows b [⟨x.id, x.sos && decide (x.frames ≠ []), x.eos && decide (x.frames ≠ []), x.frames.length, x.index⟩]).maxLength =
        .ok (x.frames.length : Int) := rfl
    rw [hml]
    simp only [nonEmpty, List.filter_cons]
    by_cases hx : x.frames.length > 0
    · have hne : x.frames ≠ [] := List.length_pos_iff.1 hx
      have h1 : (⟨ofRows b [⟨x.id, x.sos && decide (x.frames ≠ []), x.eos && decide (x.frames ≠ []), x.frames.length, x.index⟩], x.frames⟩ : Entry α) = mk x := by
        unfold mk Chunk.row
        rw [hb x (by simp)]
        simp [hne]
      rw [h1]
      simp only [show ((x.frames.length : Int) > 0) from by omega, if_true, hx, decide_true, ofeed]
      cases hu : o.updateUnary (mk x) with
      | mk o' r =>
        cases r with
        | none => exact ih o' (fun y hy => hb y (by simp [hy]))
        | some e => rfl
    · simp only [show ¬ ((x.frames.length : Int) > 0) from by omega, if_false, hx, decide_false]
      exact ih o (fun y hy => hb y (by simp [hy]))

theorem oupdate_kept (items : List (Item α)) (css : List (List (Chunk α))) (h : List.Forall₂ Carries items css) :
    ∀ o : OColl α, o.update items = ofeed o (List.zipWith kept items css).flatten := by
  have happ : ∀ (a b : List (Chunk α)) (o : OColl α), ofeed o (a ++ b) =
      match ofeed o a with
      | (o', none) => ofeed o' b
      | (o', some e) => (o', some e) := by
    intro a b
    induction a with
    | nil => intro s; rfl
    | cons x a ih =>
      intro s
      simp only [List.cons_append, ofeed]
      cases s.updateUnary (mk x) with
      | mk s' o =>
        cases o with
        | none => exact ih s'
        | some e => rfl
  induction h with
  | nil => intro o; rfl
  | @cons it cs items css hc _ ih =>
    intro o
    have hone : o.updateItem it = ofeed o (kept it cs) := by
      cases it with
      | batch x =>
        simp only [OColl.updateItem, unpad_batch x cs hc.1 hc.2]
        exact orows_eq _ o cs (packs_index hc.2)
      | single e =>
        obtain ⟨c, rfl, hc⟩ := hc
        rw [isChunk_mk hc]
        change o.updateUnary (mk c) = _
        simp only [kept, ofeed]
        cases o.updateUnary (mk c) with
        | mk o' r => cases r <;> rfl
    simp only [OColl.update, List.zipWith_cons_cons, List.flatten_cons, happ, hone]
    cases ofeed o (kept it cs) with
    | mk o' r =>
      cases r with
      | none => exact ih o'
      | some e => rfl

theorem keys_put_eq (o : OColl α) (i : String) (e : Entry α) : (o.put i e).keys = if i ∈ o.keys then o.keys else o.keys ++ [i] := keys_setPair i e o.pairs

/-- A chunk that is accepted is listed. -/
theorem ounary_keys (o : OColl α) (x : Chunk α) (h : (o.updateUnary (mk x)).2 = none) :
    (o.updateUnary (mk x)).1.keys = if x.id ∈ o.keys then o.keys else o.keys ++ [x.id] := by
  have hid : pyGet (mk x).md.ids 0 = .ok x.id := rfl
  have h1 : item (mk x).md.eos = .ok x.eos := rfl
  have h2 : item (mk x).md.sos = .ok x.sos := rfl
  unfold OColl.updateUnary at h ⊢
  rw [hid, h1, h2] at h ⊢
  dsimp only at h ⊢
  split at h
  · cases h
  · rename_i hc
    rw [if_neg hc]
    have hk : (if x.eos then { o with closed := x.id :: o.closed } else o : OColl α).keys = o.keys := by split <;> rfl
    generalize (if x.eos then { o with closed := x.id :: o.closed } else o : OColl α) = o' at hk h ⊢
    rw [← hk]
    cases hg : o'.get x.id with
    | none =>
      rw [hg] at h
      dsimp only at h ⊢
      split at h
      · rename_i hs
        rw [if_pos hs]
        exact keys_put_eq _ _ _
      · cases h
    | some e =>
      rw [hg] at h
      dsimp only at h ⊢
      split at h
      · cases h
      · rename_i hs
        rw [if_neg hs]
        cases hcat : catEntry e (mk x) with
        | ok e' => exact keys_put_eq _ _ _
        | error err => rw [hcat] at h; cases h

theorem ofeed_keys (cs : List (Chunk α)) (o : OColl α) (h : (ofeed o cs).2 = none) :
    (ofeed o cs).1.keys = o.keys ++ firstsFrom o.keys (cs.map (·.id)) := by
  induction cs generalizing o with
  | nil => simp [ofeed, firstsFrom]
  | cons x xs ih =>
    simp only [ofeed] at h ⊢
    have hk := ounary_keys o x
    rcases ho : o.updateUnary (mk x) with ⟨o', r⟩
    rw [ho] at h hk
    cases r with
    | some e => cases h
    | none =>
      have hk := hk rfl
      dsimp only at hk h ⊢
      rw [ih o' h, hk]
      simp only [List.map_cons, firstsFrom]
      split
      · rfl
      · rw [List.append_assoc, firstsFrom_congr _ (o.keys ++ [x.id]) (x.id :: o.keys) (fun y => by simp [or_comm])]
        rfl

/-- Empty chunks that are not the first ones of their streams do not matter. -/
theorem drops_firsts {a b : List (Chunk α)} (h : Drops a b) (seen : List String)
    (hb : ∀ i, i ∉ seen → ∀ c, (chunksOf i [b]).head? = some c → c.frames ≠ []) :
    firstsFrom seen (a.map (·.id)) = firstsFrom seen (b.map (·.id)) := by
  induction h generalizing seen with
  | nil => rfl
  | @keep x a b _ ih =>
    simp only [List.map_cons, firstsFrom]
    by_cases hx : x.id ∈ seen
    · simp only [hx, if_true]
      refine ih seen fun i hi c hc => hb i hi c ?_
      have : x.id ≠ i := fun hh => hi (hh ▸ hx)
      simpa [chunksOf, List.filter_cons, this] using hc
    · simp only [hx, if_false]
      rw [ih (x.id :: seen)]
      intro i hi c hc
      simp only [List.mem_cons, not_or] at hi
      refine hb i hi.2 c ?_
      have : x.id ≠ i := fun hh => hi.1 hh.symm
      simpa [chunksOf, List.filter_cons, this] using hc
  | @skip x a b hx _ ih =>
    have hin : x.id ∈ seen := by
      by_cases h : x.id ∈ seen
      · exact h
      · exact absurd hx (hb x.id h x (by simp [chunksOf]))
    simp only [List.map_cons, firstsFrom, hin, if_true]
    refine ih seen fun i hi c hc => hb i hi c ?_
    have : x.id ≠ i := fun hh => hi (hh ▸ hin)
    simpa [chunksOf, List.filter_cons, this] using hc

theorem pairs_of_get (ps : List (String × Entry α)) (hn : (ps.map Prod.fst).Nodup) (f : String → List α)
    (hf : ∀ i e, (ps.find? fun p => p.1 == i).map Prod.snd = some e → e.frames = f i) :
    ps.map (fun p => (p.1, p.2.frames)) = (ps.map Prod.fst).map fun i => (i, f i) := by
  rw [List.map_map]
  apply List.map_congr_left
  intro p hp
  have hfind : (ps.find? fun q => q.1 == p.1) = some p := by
    clear hf
    induction ps with
    | nil => simp at hp
    | cons q ps ih =>
      simp only [List.map_cons, List.nodup_cons] at hn
      rcases List.mem_cons.1 hp with rfl | hp
      · simp
      · have : q.1 ≠ p.1 := fun hh => hn.1 (hh ▸ List.mem_map_of_mem hp)
        simp only [List.find?_cons, show (q.1 == p.1) = false from by simp [this]]
        exact ih hn.2 hp
  simp only [Function.comp]
  rw [hf p.1 p.2 (by rw [hfind]; rfl)]

/-- **C224.** A new collector is given any interleaving of well-formed chunk streams, in batches or one by one. Then `list(collector.items())` has every stream once, in the order of their first chunks (in a batch: of the rows), each with all of its frames. -/
theorem C224_order (items : List (Item α)) (css : List (List (Chunk α))) (h : List.Forall₂ Carries items css)
    (hst : ∀ i, Stream (chunksOf i css)) (hfirst : ∀ i c, (chunksOf i css).head? = some c → c.frames ≠ []) :
    ∃ o, OColl.new.update items = (o, none) ∧
      o.pairs.map (fun p => (p.1, p.2.frames)) = (firsts (css.flatten.map (·.id))).map fun i => (i, allFrames (chunksOf i css)) := by
  obtain ⟨s, hs, hent⟩ := C67_reassemble items css h hst hfirst
  obtain ⟨h1, h2⟩ := C224_same items (new_same (α := α))
  rw [hs] at h1 h2
  rcases ho : (OColl.new : OColl α).update items with ⟨o, r⟩
  rw [ho] at h1 h2
  dsimp only at h1 h2
  subst h1
  refine ⟨o, rfl, ?_⟩
  have hk : o.keys = firsts (css.flatten.map (·.id)) := by
    have hf := oupdate_kept items css h OColl.new
    rw [ho] at hf
    have := ofeed_keys (List.zipWith kept items css).flatten (OColl.new : OColl α) (by rw [← hf])
    rw [← hf] at this
    rw [this]
    change [] ++ firstsFrom [] _ = firstsFrom [] _
    rw [List.nil_append]
    have hdrop : Drops (List.zipWith kept items css).flatten css.flatten := by
      clear hst hfirst hs hent this hf h2 ho
      induction h with
      | nil => exact .nil
      | @cons it cs items css _ _ ih =>
        simp only [List.zipWith_cons_cons, List.flatten_cons]
        exact (kept_drops it cs).append ih
    refine drops_firsts hdrop [] fun i _ c hc => hfirst i c ?_
    simpa [chunksOf] using hc
  rw [← hk]
  refine pairs_of_get o.pairs h2.1 _ fun i e he => ?_
  have hi : s.entries i = some e := by rw [← h2.2.1 i]; exact he
  by_cases hn : chunksOf i css = []
  · rw [(hent i).1 hn] at hi; cases hi
  · obtain ⟨e', he', hfr, -⟩ := (hent i).2 hn
    rw [he'] at hi
    cases hi
    exact hfr

example : List.Forall₂ Carries exItems exChunks ∧ (∀ i c, (chunksOf i exChunks).head? = some c → c.frames ≠ []) ∧ firsts (exChunks.flatten.map (·.id)) = ["a", "b"] := by
  refine ⟨.cons ⟨by decide, by decide⟩ (.cons ⟨_, rfl, by decide⟩ .nil), ?_, by decide⟩
  intro i c hc
  have hm : c ∈ chunksOf i exChunks := List.mem_of_head? hc
  have : c ∈ exChunks.flatten := by
    unfold chunksOf at hm
    exact List.mem_of_mem_filter hm
  clear hc hm
  revert c
  simp [exChunks]

/-- **C224 (taken out).** `pop(i)` takes `i` out of the list, the others stay in their order; it raises a KeyError if and only if `i` is not listed, and nothing changes then. -/
theorem C224_taken (o : OColl α) (s : Coll α) (h : SameColl o s) (i : String) :
    (o.pop i).2 = (s.pop i).2 ∧ SameColl (o.pop i).1 (s.pop i).1 ∧ (o.pop i).1.keys = o.keys.filter (fun j => j != i) ∧
      ((o.pop i).2 = some .keyError ↔ i ∉ o.keys) := by
  unfold OColl.pop Coll.pop
  by_cases hi : i ∈ o.keys
  · have hg : s.entries i ≠ none := by rw [← h.2.1 i]; exact fun hh => (get_none_iff o i).1 hh hi
    cases he : s.entries i with
    | none => exact absurd he hg
    | some e =>
      have hkeys : (o.pairs.filter fun p => p.1 != i).map Prod.fst = o.keys.filter (fun j => j != i) := by
        unfold OColl.keys
        rw [List.filter_map]
        rfl
      rw [if_pos hi]
      refine ⟨rfl, ⟨?_, fun j => ?_, h.2.2⟩, hkeys, by simp [hi]⟩
      · change ((o.pairs.filter fun p => p.1 != i).map Prod.fst).Nodup
        rw [hkeys]
        exact h.1.filter _
      · change ((o.pairs.filter fun p => p.1 != i).find? fun p => p.1 == j).map Prod.snd = if j = i then none else s.entries j
        rw [List.find?_filter]
        split
        · rename_i hj
          subst hj
          rw [Option.map_eq_none_iff, List.find?_eq_none]
          simp
        · rename_i hj
          rw [← h.2.1 j]
          unfold OColl.get
          congr 2
          funext p
          by_cases hp : p.1 = j
          · simp [hp, hj]
          · simp [hp]
  · have hg : s.entries i = none := by rw [← h.2.1 i]; exact (get_none_iff o i).2 hi
    rw [if_neg hi, hg]
    refine ⟨rfl, h, ?_, by simp [hi]⟩
    dsimp only
    rw [List.filter_eq_self.2]
    intro j hj
    have : j ≠ i := fun hh => hi (hh ▸ hj)
    simp [this]

end

/-- `a` and `b`; `a` is taken out, and (as it was not closed) begins again. -/
def exOrder : OColl Int := (OColl.new.update [.single exOpen, .single ⟨⟨["b"], [true], [false], [1], none⟩, [7]⟩]).1

example : exOrder.keys = ["a", "b"] ∧ (exOrder.pop "a").1.keys = ["b"] ∧ (exOrder.pop "c").2 = some .keyError ∧
    ((exOrder.pop "a").1.update [.single exOpen]).1.keys = ["b", "a"] := by
  decide +kernel

end DS.Coll
