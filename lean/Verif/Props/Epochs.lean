import Verif.Props.ConvSession
import Verif.Props.ConvField
import Verif.Props.CollectStreams
/-! C229: a patched model used for several passes over the data. -/

namespace DS.Conv
open Meta
section
variable {α : Type} [Zero α]

/-- Every stream of the batches has ended: the last batch with a given id has a row of this id that ends its stream. -/
def Finished (xs : List (ST α)) : Prop :=
  ∀ i x, (xs.filter fun x => decide (i ∈ x.md.ids)).getLast? = some x → (i, true) ∈ x.md.ids.zip x.md.eos

/-- One row, or all rows start their streams, or no row that ends its stream is empty. -/
def Keeps (x : ST α) : Prop := x.md.ids.length = 1 ∨ (∀ s ∈ x.md.sos, s = true) ∨ ∀ r ∈ x.md.rows, r.eos = true → r.len ≠ 0

/-- Every batch that a layer gets has one row, or only rows that start their streams, or no empty row that ends its stream. -/
def Ready : List (Layer α) → List (ST α) → Prop
  | [], _ => True
  | l :: ls, xs => (∀ x ∈ xs, Keeps x) ∧ ∀ ys b, layerRun l (fun _ => none) xs = .ok (ys, b) → Ready ls ys

omit [Zero α] in
theorem narrow_eos (b : Bool) (row : Row) (w : Nat) (r : List α) (o : Meta × List α) (h : narrowRow (ofRows b [row]) w r = .ok o) (hr : row.eos = true → row.len ≠ 0) :
    o.1.eos = [row.eos] := by
  unfold narrowRow at h
  have h1 : pyGet (ofRows b [row]).lengths 0 = .ok row.len := rfl
  rw [h1, Except.bind_ok'] at h
  split at h
  · simp at h
  · rename_i hl
    obtain ⟨m', hm, h⟩ := bind_ok_iff h
    simp only [Except.ok.injEq] at h
    subst h
    have hc := narrow_row (α := Int) b ⟨row.id, row.sos, row.eos, row.chunk, List.replicate row.len.toNat 0⟩ w (by simp; omega) 0
    have hrow : (⟨row.id, row.sos, row.eos, row.chunk, List.replicate row.len.toNat 0⟩ : Chunk Int).row = row := by
      obtain ⟨i, s, e, l, k⟩ := row
      simp only at hl
      have : ((List.replicate l.toNat (0 : Int)).length : Int) = l := by simp; omega
      unfold Chunk.row
      simp only [this]
    rw [hrow] at hc
    unfold narrowRow at hc
    rw [h1, Except.bind_ok', if_neg hl, hm, Except.bind_ok'] at hc
    simp only [Except.ok.injEq, Prod.mk.injEq] at hc
    rw [hc.1]
    show [row.eos && decide (List.replicate row.len.toNat (0 : Int) ≠ [])] = [row.eos]
    cases he : row.eos with
    | false => rfl
    | true =>
      have : row.len.toNat ≠ 0 := by have := hr he; omega
      simp [List.replicate_eq_nil_iff, this]

omit [Zero α] in
theorem ragged_eos (b : Bool) (w : Nat) (rows : List Row) (rs : List (List α)) (bs : List (Option (List α))) (xs : List (Meta × List α))
    (h : raggedRows w (rows.map fun r => ofRows b [r]) rs bs = .ok xs) (h1 : rs.length = rows.length) (h2 : bs.length = rows.length)
    (hr : ∀ r ∈ rows, r.eos = true → r.len ≠ 0) : xs.flatMap (·.1.eos) = rows.map (·.eos) := by
  induction rows generalizing rs bs xs with
  | nil =>
    simp only [List.map_nil, raggedRows, Except.ok.injEq] at h
    subst h
    rfl
  | cons row rows ih =>
    match rs, bs, h1, h2 with
    | r :: rs, bb :: bs, h1, h2 =>
      simp only [List.map_cons, raggedRows] at h
      obtain ⟨x, hx, h⟩ := bind_ok_iff h
      obtain ⟨xs', hxs, h⟩ := bind_ok_iff h
      simp only [Except.ok.injEq] at h
      subst h
      have := ih rs bs xs' hxs (by simpa using h1) (by simpa using h2) fun r hm => hr r (by simp [hm])
      have hid := narrow_eos b row w r x hx (hr row (by simp))
      have hp : (prepend bb x).1.eos = [row.eos] := by
        unfold prepend
        cases bb <;> exact hid
      simp [hp, this]

/-- The pre-hook keeps the ends of the streams. -/
theorem pre_eos (c : Cfg) (buf : Buf α) (x : ST α) (hx : Lined x) (hk : Keeps x) (z : ST α) (s : Bool) (h : preHook c buf x = .ok (z, s)) : z.md.eos = x.md.eos := by
  by_cases hp : c.kw > 1 ∧ x.md.allStarting = false ∧ sameLengths (x.md.ids.map buf) = false
  · obtain ⟨p1, p2, p3⟩ := hp
    unfold preHook at h
    rw [if_pos ⟨p1, p2⟩] at h
    simp only [p3, Bool.false_eq_true, if_false] at h
    obtain ⟨z', hz, he⟩ := map_ok_iff h
    simp only [Prod.mk.injEq] at he
    obtain ⟨rfl, -⟩ := he
    have hr : ∀ r ∈ x.md.rows, r.eos = true → r.len ≠ 0 := by
      rcases hk with hk | hk | hk
      · obtain ⟨i, hi⟩ := List.length_eq_one_iff.1 hk
        rw [hi] at p3
        simp [sameLengths] at p3
      · have : x.md.allStarting = true := List.all_eq_true.2 hk
        rw [this] at p2
        cases p2
      · exact hk
    have hne : x.md.rows ≠ [] := by
      intro h0
      have h1 : x.md.sos = [] := by rw [sos_rows x.md hx.1, h0]; rfl
      unfold allStarting at p2
      rw [h1] at p2
      simp at p2
    unfold catRagged at hz
    obtain ⟨ms, hms, hz⟩ := bind_ok_iff hz
    obtain ⟨xs, hxs, hq⟩ := bind_ok_iff hz
    have hu : x.md.unbindBatch = .ok (x.md.rows.map fun r => ofRows x.md.chunk.isSome [r]) := by
      conv_lhs => rw [eq_ofRows x.md hx.1]
      exact unbind_ofRows _ _ hne
    rw [hu] at hms
    simp only [Except.ok.injEq] at hms
    subst hms
    have hee := ragged_eos _ _ _ _ _ _ hxs (by rw [hx.2, ids_rows x.md hx.1]; simp) (by rw [List.length_map, ids_rows x.md hx.1]; simp) hr
    unfold padStream at hq
    obtain ⟨m, hm, hq⟩ := bind_ok_iff hq
    obtain ⟨md, hmd, hq⟩ := bind_ok_iff hq
    simp only [Except.ok.injEq] at hq
    subst hq
    have hme : m.eos = x.md.eos := by
      rw [(catBatch_cols _ _ hm).2.2, List.flatMap_map, eos_rows x.md hx.1]
      exact hee
    unfold Meta.init at hmd
    split at hmd
    · simp only [Except.ok.injEq] at hmd
      subst hmd
      exact hme
    · simp at hmd
  · exact ((preHook_md h).1 hp).2.2.1

/-- A layer keeps ids and ends of its batch, has no buffer for streams that end, and keeps those of other ids. -/
theorem layer_ends (l : Layer α) (buf : Buf α) (x : ST α) (hx : Lined x) (hk : Keeps x) (y : ST α) (b : Buf α) (h : l.step buf x = .ok (y, b)) :
    Lined y ∧ y.md.ids = x.md.ids ∧ y.md.eos = x.md.eos ∧ (∀ i, i ∉ x.md.ids → b i = buf i) ∧
      ∀ i, (i, true) ∈ x.md.ids.zip x.md.eos → b i = none ∨ ∃ f, l = .act f ∧ b = buf := by
  obtain ⟨h1, h2, h3⟩ := layer_others l buf x hx y b h
  cases l with
  | conv c g =>
    simp only [Layer.step] at h
    obtain ⟨o, ho, he⟩ := map_ok_iff h
    simp only [Prod.mk.injEq] at he
    obtain ⟨rfl, rfl⟩ := he
    unfold forward at ho
    obtain ⟨⟨z, s⟩, hz, ho⟩ := bind_ok_iff ho
    obtain ⟨⟨y, its⟩, hy, ho⟩ := bind_ok_iff ho
    simp only [Except.ok.injEq] at ho
    subst ho
    have hye : y.md.eos = x.md.eos := ((conv1d_md hy).2.2.1).trans (pre_eos c buf x hx hk z s hz)
    refine ⟨h1, h2, hye, h3, fun i hi => .inl ?_⟩
    rw [← h2, ← hye] at hi
    show postHook buf y.md its i = none
    unfold postHook
    have : y.md.anyEnding = true := by
      unfold anyEnding
      rw [List.any_eq_true]
      exact ⟨true, (List.of_mem_zip hi).2, rfl⟩
    simp only [this, if_true]
    unfold dropEnded
    rw [dropEnded_go, if_pos hi]
  | act f =>
    simp only [Layer.step, Except.ok.injEq, Prod.mk.injEq] at h
    obtain ⟨rfl, rfl⟩ := h
    exact ⟨h1, rfl, rfl, fun _ _ => rfl, fun i _ => .inr ⟨f, rfl, rfl⟩⟩

theorem layerRun_ends (l : Layer α) (xs : List (ST α)) (hx : ∀ x ∈ xs, Lined x ∧ Keeps x) (buf : Buf α) (hb : ∀ f, l = .act f → ∀ i, buf i = none) (ys : List (ST α)) (b : Buf α)
    (h : layerRun l buf xs = .ok (ys, b)) :
    (∀ y ∈ ys, Lined y) ∧ ys.map (fun y => (y.md.ids, y.md.eos)) = xs.map (fun x => (x.md.ids, x.md.eos)) ∧
      ∀ i, (buf i = none ∨ ∃ x ∈ xs, i ∈ x.md.ids) → (∀ x, (xs.filter fun x => decide (i ∈ x.md.ids)).getLast? = some x → (i, true) ∈ x.md.ids.zip x.md.eos) →
        b i = none := by
  induction xs generalizing buf ys with
  | nil =>
    simp only [layerRun, Except.ok.injEq, Prod.mk.injEq] at h
    obtain ⟨rfl, rfl⟩ := h
    refine ⟨by simp, rfl, fun i hi _ => ?_⟩
    simpa using hi
  | cons x xs ih =>
    simp only [layerRun] at h
    obtain ⟨⟨y, b1⟩, h1, h⟩ := bind_ok_iff h
    obtain ⟨⟨ys', b2⟩, h2, h⟩ := bind_ok_iff h
    simp only [Except.ok.injEq, Prod.mk.injEq] at h
    obtain ⟨rfl, rfl⟩ := h
    obtain ⟨a1, a2, a3, a4, a5⟩ := layer_ends l buf x (hx x (by simp)).1 (hx x (by simp)).2 y b1 h1
    have hb1 : ∀ f, l = .act f → ∀ i, b1 i = none := by
      rintro f rfl i
      simp only [Layer.step, Except.ok.injEq, Prod.mk.injEq] at h1
      rw [← h1.2]
      exact hb f rfl i
    obtain ⟨c1, c2, c3⟩ := ih (fun z hz => hx z (by simp [hz])) b1 hb1 ys' h2
    refine ⟨?_, by simp [a2, a3, c2], ?_⟩
    · intro z hz
      rcases List.mem_cons.1 hz with rfl | hz
      · exact a1
      · exact c1 z hz
    · intro i hi hl
      by_cases hm : ∃ z ∈ xs, i ∈ z.md.ids
      · refine c3 i (.inr hm) fun z hz => hl z ?_
        by_cases hxi : i ∈ x.md.ids
        · rw [List.filter_cons_of_pos (by simpa using hxi), List.getLast?_cons, hz]
          rfl
        · rw [List.filter_cons_of_neg (by simpa using hxi), hz]
      · have hnil : (xs.filter fun x => decide (i ∈ x.md.ids)) = [] := by
          rw [List.filter_eq_nil_iff]
          intro z hz
          simpa using fun hzi => hm ⟨z, hz, hzi⟩
        have hb1i : b1 i = none := by
          by_cases hxi : i ∈ x.md.ids
          · rw [List.filter_cons_of_pos (by simpa using hxi), hnil] at hl
            rcases a5 i (hl x rfl) with h | ⟨f, rfl, rfl⟩
            · exact h
            · exact hb f rfl i
          · rw [a4 i hxi]
            rcases hi with hi | ⟨z, hz, hzi⟩
            · exact hi
            · rcases List.mem_cons.1 hz with rfl | hz
              · exact absurd hzi hxi
              · exact absurd ⟨z, hz, hzi⟩ hm
        exact c3 i (.inl hb1i) fun z hz => by rw [hnil] at hz; simp at hz

omit [Zero α] in
theorem finished_of_ends {xs ys : List (ST α)} (h : ys.map (fun y => (y.md.ids, y.md.eos)) = xs.map (fun x => (x.md.ids, x.md.eos))) (hx : Finished xs) : Finished ys := by
  intro i y hy
  have he : ∀ zs : List (ST α), ((zs.map fun z => (z.md.ids, z.md.eos)).filter fun p => decide (i ∈ p.1)).getLast? =
      ((zs.filter fun z => decide (i ∈ z.md.ids)).getLast?).map fun z => (z.md.ids, z.md.eos) := by
    intro zs
    rw [List.filter_map, List.getLast?_map]
    rfl
  have h1 := he ys
  rw [h, he xs, hy] at h1
  cases hxl : (xs.filter fun z => decide (i ∈ z.md.ids)).getLast? with
  | none => rw [hxl] at h1; simp at h1
  | some x =>
    rw [hxl] at h1
    simp only [Option.map_some, Option.some.injEq, Prod.mk.injEq] at h1
    have := hx i x hxl
    rwa [h1.1, h1.2] at this

/-- **C229**, state: when every stream of the batches has ended, a patched stack that was fresh before holds nothing: it is in its initial state again, whatever the
batches are and however often ids are used. Missing: empty last chunks in batches of several rows (`C229_empty_false`); calls that raise (C149). -/
theorem C229_again_partial (ls : List (Layer α)) (xs : List (ST α)) (hx : ∀ x ∈ xs, x.md.WF ∧ x.rows.length = x.md.ids.length) (hr : Ready ls xs) (hf : Finished xs)
    (zs : List (ST α)) (t : List (Layer α × Buf α)) (h : chainRun (fresh ls) xs = .ok (zs, t)) : t = fresh ls := by
  induction ls generalizing xs t with
  | nil =>
    rw [show fresh ([] : List (Layer α)) = [] from rfl, chainRun_nil] at h
    simp only [Except.ok.injEq, Prod.mk.injEq] at h
    exact h.2.symm
  | cons l ls ih =>
    rw [show fresh (l :: ls) = (l, fun _ => none) :: fresh ls from rfl] at h
    obtain ⟨ys, b', t', h1, h2⟩ := chainRun_cons h
    rw [chainRun_cons_ok h1 h2] at h
    simp only [Except.ok.injEq, Prod.mk.injEq] at h
    obtain ⟨-, rfl⟩ := h
    obtain ⟨a1, a2, a3⟩ := layerRun_ends l xs (fun x hm => ⟨hx x hm, hr.1 x hm⟩) (fun _ => none) (fun _ _ _ => rfl) ys b' h1
    rw [ih ys (fun y hy => a1 y hy) (hr.2 ys b' h1) (finished_of_ends a2 hf) t' h2]
    have : b' = fun _ => none := funext fun i => a3 i (.inl rfl) (hf i)
    rw [this]
    rfl

theorem ready_single (ls : List (Layer α)) (xs : List (ST α)) (hx : ∀ x ∈ xs, Lined x ∧ x.md.ids.length = 1) : Ready ls xs := by
  induction ls generalizing xs with
  | nil => trivial
  | cons l ls ih =>
    refine ⟨fun x hm => .inl (hx x hm).2, fun ys b h => ih ys ?_⟩
    obtain ⟨a1, a2, -⟩ := layerRun_ends l xs (fun x hm => ⟨(hx x hm).1, .inl (hx x hm).2⟩) (fun _ => none) (fun _ _ _ => rfl) ys b h
    intro y hy
    refine ⟨a1 y hy, ?_⟩
    have : (y.md.ids, y.md.eos) ∈ xs.map fun x => (x.md.ids, x.md.eos) := a2 ▸ List.mem_map_of_mem hy
    obtain ⟨x, hm, he⟩ := List.mem_map.1 this
    simp only [Prod.mk.injEq] at he
    rw [← he.1]
    exact (hx x hm).2

/-- A layer keeps the starts of batches in which all streams start. -/
theorem layer_starts (l : Layer α) (buf : Buf α) (x : ST α) (hs : ∀ s ∈ x.md.sos, s = true) (y : ST α) (b : Buf α) (h : l.step buf x = .ok (y, b)) : y.md.sos = x.md.sos := by
  cases l with
  | conv c g =>
    simp only [Layer.step] at h
    obtain ⟨o, ho, he⟩ := map_ok_iff h
    simp only [Prod.mk.injEq] at he
    obtain ⟨rfl, rfl⟩ := he
    unfold forward at ho
    obtain ⟨⟨z, s⟩, hz, ho⟩ := bind_ok_iff ho
    obtain ⟨⟨y, its⟩, hy, ho⟩ := bind_ok_iff ho
    simp only [Except.ok.injEq] at ho
    subst ho
    have ha : x.md.allStarting = true := List.all_eq_true.2 hs
    unfold preHook at hz
    rw [if_neg (by rw [ha]; simp)] at hz
    simp only [Except.ok.injEq, Prod.mk.injEq] at hz
    obtain ⟨rfl, -⟩ := hz
    exact (conv1d_md hy).2.1
  | act f =>
    simp only [Layer.step, Except.ok.injEq, Prod.mk.injEq] at h
    obtain ⟨rfl, rfl⟩ := h
    rfl

theorem layerRun_starts (l : Layer α) (xs : List (ST α)) (hx : ∀ x ∈ xs, ∀ s ∈ x.md.sos, s = true) (buf : Buf α) (ys : List (ST α)) (b : Buf α)
    (h : layerRun l buf xs = .ok (ys, b)) : ∀ y ∈ ys, ∀ s ∈ y.md.sos, s = true := by
  induction xs generalizing buf ys with
  | nil =>
    simp only [layerRun, Except.ok.injEq, Prod.mk.injEq] at h
    obtain ⟨rfl, rfl⟩ := h
    simp
  | cons x xs ih =>
    simp only [layerRun] at h
    obtain ⟨⟨y, b1⟩, h1, h⟩ := bind_ok_iff h
    obtain ⟨⟨ys', b2⟩, h2, h⟩ := bind_ok_iff h
    simp only [Except.ok.injEq, Prod.mk.injEq] at h
    obtain ⟨rfl, rfl⟩ := h
    intro z hz
    rcases List.mem_cons.1 hz with rfl | hz
    · rw [layer_starts l buf x (hx x (by simp)) z b1 h1]
      exact hx x (by simp)
    · exact ih (fun z hz => hx z (by simp [hz])) b1 ys' h2 z hz

theorem ready_starting (ls : List (Layer α)) (xs : List (ST α)) (hx : ∀ x ∈ xs, ∀ s ∈ x.md.sos, s = true) : Ready ls xs := by
  induction ls generalizing xs with
  | nil => trivial
  | cons l ls ih => exact ⟨fun x hm => .inr (.inl (hx x hm)), fun ys b h => ih ys (layerRun_starts l xs hx _ ys b h)⟩

omit [Zero α] in
theorem finished_whole (xs : List (ST α)) (h : ∀ x ∈ xs, x.md.WF ∧ ∀ e ∈ x.md.eos, e = true) : Finished xs := by
  intro i x hx
  have hm := List.mem_of_getLast? hx
  rw [List.mem_filter, decide_eq_true_eq] at hm
  obtain ⟨hm, hi⟩ := hm
  obtain ⟨⟨-, w, -⟩, he⟩ := h x hm
  obtain ⟨k, hk, rfl⟩ := List.getElem_of_mem hi
  have : x.md.eos[k]'(by omega) = true := he _ (List.getElem_mem _)
  rw [← this]
  have hl : k < (x.md.ids.zip x.md.eos).length := by rw [List.length_zip]; omega
  have := List.getElem_mem hl
  rwa [List.getElem_zip] at this

theorem chainRun_two (s : List (Layer α × Buf α)) (a b : List (ST α)) :
    chainRun s (a ++ b) = (chainRun s a).bind fun r => (chainRun r.2 b).map fun q => (r.1 ++ q.1, q.2) := by
  induction a generalizing s with
  | nil =>
    simp only [List.nil_append, chainRun, Except.bind]
    cases chainRun s b <;> rfl
  | cons x a ih =>
    simp only [List.cons_append, chainRun, ih]
    cases chainStep s x with
    | error e => rfl
    | ok r =>
      simp only [Except.bind_ok']
      cases chainRun r.2 a with
      | error e => rfl
      | ok q =>
        simp only [Except.bind, Except.bind_ok']
        cases chainRun q.2 b <;> rfl

/-- **C229.** Any number of passes over data, each of which ends every stream it starts, through one patched stack: the results are those of a fresh stack for each pass,
and if a pass raises, so does the whole, with the same exception. Missing: empty last chunks in batches of several rows (`C229_empty_false`). -/
theorem C229_epochs_partial (ls : List (Layer α)) (es : List (List (ST α)))
    (h : ∀ xs ∈ es, (∀ x ∈ xs, x.md.WF ∧ x.rows.length = x.md.ids.length) ∧ Ready ls xs ∧ Finished xs) :
    (chainRun (fresh ls) es.flatten).map (·.1) = (es.mapM fun xs => (chainRun (fresh ls) xs).map (·.1)).map List.flatten := by
  induction es with
  | nil => rfl
  | cons xs es ih =>
    have ih := ih fun z hz => h z (by simp [hz])
    obtain ⟨h1, h2, h3⟩ := h xs (by simp)
    rw [List.flatten_cons, chainRun_two, List.mapM_cons]
    cases hq : chainRun (fresh ls) xs with
    | error e => rfl
    | ok r =>
      obtain ⟨zs, t⟩ := r
      obtain rfl := C229_again_partial ls xs h1 h2 h3 zs t hq
      simp only [Except.bind, map_ok', Except.bind_ok']
      cases hw : chainRun (fresh ls) es.flatten with
      | error e =>
        rw [hw] at ih
        cases hm : es.mapM fun xs => (chainRun (fresh ls) xs).map (·.1) with
        | error e' => rw [hm] at ih; simp only [map_error', Except.error.injEq] at ih; subst ih; rfl
        | ok v => rw [hm] at ih; simp [map_error', map_ok'] at ih
      | ok q =>
        rw [hw] at ih
        cases hm : es.mapM fun xs => (chainRun (fresh ls) xs).map (·.1) with
        | error e' => rw [hm] at ih; simp [map_error', map_ok'] at ih
        | ok v =>
          rw [hm] at ih
          simp only [map_ok', Except.ok.injEq] at ih
          simp [map_ok', ih]
/-- **C229** for streams that are not batched together: with one row per batch a stack can be used for any number of passes that end their streams, empty chunks or not. -/
theorem C229_single (ls : List (Layer α)) (es : List (List (ST α)))
    (h : ∀ xs ∈ es, (∀ x ∈ xs, x.md.WF ∧ x.rows.length = 1 ∧ x.md.ids.length = 1) ∧ Finished xs) :
    (chainRun (fresh ls) es.flatten).map (·.1) = (es.mapM fun xs => (chainRun (fresh ls) xs).map (·.1)).map List.flatten := by
  refine C229_epochs_partial ls es fun xs hm => ?_
  obtain ⟨h1, h2⟩ := h xs hm
  have h3 : ∀ x ∈ xs, Lined x := fun x hx => ⟨(h1 x hx).1, by rw [(h1 x hx).2.1, (h1 x hx).2.2]⟩
  exact ⟨h3, ready_single ls xs fun x hx => ⟨h3 x hx, (h1 x hx).2.2⟩, h2⟩

/-- **C229** for batches of whole sequences: if every row of every batch starts and ends its stream, a stack can be used for any number of passes, empty sequences or not. -/
theorem C229_whole (ls : List (Layer α)) (es : List (List (ST α)))
    (h : ∀ xs ∈ es, ∀ x ∈ xs, x.md.WF ∧ x.rows.length = x.md.ids.length ∧ (∀ s ∈ x.md.sos, s = true) ∧ ∀ e ∈ x.md.eos, e = true) :
    (chainRun (fresh ls) es.flatten).map (·.1) = (es.mapM fun xs => (chainRun (fresh ls) xs).map (·.1)).map List.flatten := by
  refine C229_epochs_partial ls es fun xs hm => ⟨fun x hx => ⟨(h xs hm x hx).1, (h xs hm x hx).2.1⟩, ready_starting ls xs fun x hx => (h xs hm x hx).2.2.1, ?_⟩
  exact finished_whole xs fun x hx => ⟨(h xs hm x hx).1, (h xs hm x hx).2.2.2⟩

end

open Coll (exColl)

instance (x : ST Int) : Decidable (Keeps x) := by unfold Keeps; infer_instance

theorem exColl_finished : Finished exColl := by
  intro i x h
  by_cases ha : i = "a"
  · subst ha
    have : (exColl.filter fun x => decide ("a" ∈ x.md.ids)).getLast? = some exColl[1] := by decide
    rw [this, Option.some.injEq] at h
    subst h
    decide
  · by_cases hb : i = "b"
    · subst hb
      have : (exColl.filter fun x => decide ("b" ∈ x.md.ids)).getLast? = some exColl[2] := by decide
      rw [this, Option.some.injEq] at h
      subst h
      decide
    · simp [exColl, ha, hb] at h

-- a stack of a convolution and a pointwise function over two passes of two streams in mixed batches
example : (∀ x ∈ exColl, x.md.WF ∧ x.rows.length = x.md.ids.length) ∧ Ready [.conv exC exG, .act fun v => 2 * v] exColl ∧ Finished exColl ∧
    ((chainRun (fresh [.conv exC exG, .act fun v => 2 * v]) (exColl ++ exColl)).map fun r => r.1.map (·.rows)) =
      .ok [[[4]], [[48, 80], [12, 0]], [[138]], [[4]], [[48, 80], [12, 0]], [[138]]] := by
  refine ⟨by decide, ⟨by decide, fun ys b h => ⟨?_, fun _ _ _ => trivial⟩⟩, exColl_finished, by decide⟩
  have : ys = ((layerRun (.conv exC exG) (fun _ => none) exColl).map (·.1)).toOption.getD [] := by rw [h]; rfl
  rw [this]
  decide +kernel

-- two whole sequences in a batch, one of them without frames
example : (∀ xs ∈ [[({ md := ⟨["a", "b"], [true, true], [true, true], [3, 0], none⟩, width := 3, rows := [[1, 2, 3], [0, 0, 0]] } : ST Int)]], ∀ x ∈ xs,
      x.md.WF ∧ x.rows.length = x.md.ids.length ∧ (∀ s ∈ x.md.sos, s = true) ∧ ∀ e ∈ x.md.eos, e = true) := by decide

/-- One stream that ends with an empty chunk. -/
def exAlone : List (ST Int) :=
  [ { md := ⟨["a"], [true], [false], [3], none⟩, width := 3, rows := [[1, 2, 3]] },
    { md := ⟨["a"], [false], [true], [0], none⟩, width := 0, rows := [[]] } ]

-- two passes over it; without padding the second call would be refused
example : (∀ x ∈ exAlone, x.md.WF ∧ x.rows.length = 1 ∧ x.md.ids.length = 1) ∧ Finished exAlone ∧
    ((chainRun (fresh [.conv ⟨2, 1, 1, 1⟩ exG]) (exAlone ++ exAlone)).map fun r => r.1.map (·.rows)) = .ok [[[1, 12, 23]], [[30]], [[1, 12, 23]], [[30]]] := by
  refine ⟨by decide, fun i x h => ?_, by decide⟩
  by_cases ha : i = "a"
  · subst ha
    have : (exAlone.filter fun x => decide ("a" ∈ x.md.ids)).getLast? = some exAlone[1] := by decide
    rw [this, Option.some.injEq] at h
    subst h
    decide
  · simp [exAlone, ha] at h

/-- `b` runs through all batches; `a` starts, ends with an empty chunk, and has fewer frames than `b` in the buffer then. -/
def exEmptyEnd : List (ST Int) :=
  [ { md := ⟨["b"], [true], [false], [4], none⟩, width := 4, rows := [[5, 6, 7, 8]] },
    { md := ⟨["a", "b"], [true, false], [false, false], [2, 2], none⟩, width := 2, rows := [[1, 2], [9, 3]] },
    { md := ⟨["a", "b"], [false, false], [true, false], [0, 1], none⟩, width := 1, rows := [[0], [4]] },
    { md := ⟨["b"], [false], [true], [1], none⟩, width := 1, rows := [[5]] } ]

/-- **C229 is false of the code.** If a stream ends with an empty chunk in a batch of several rows, its end is forgotten and its buffer survives the pass. In the next pass its frames are put
in front of the stream: here the first chunk of `a`, too short for an output, gets one computed from frames of the previous pass. -/
theorem C229_empty_false : Finished exEmptyEnd ∧
    (chainRun (fresh [.conv ⟨4, 1, 1, 0⟩ exG]) exEmptyEnd).map (fun r => (r.1.map fun y => (unpack y).map (·.frames), r.2.map fun l => l.2 "a")) =
      .ok ([[[5678]], [[], [6789, 7893]], [[], [8934]], [[9345]]], [some [1, 2]]) ∧
    (chainRun (fresh [.conv ⟨4, 1, 1, 0⟩ exG]) (exEmptyEnd ++ exEmptyEnd)).map (fun r => (r.1.drop 4).map fun y => (unpack y).map (·.frames)) =
      .ok [[[5678]], [[1212], [6789, 7893]], [[], [8934]], [[9345]]] := by
  refine ⟨?_, by decide, by decide⟩
  intro i x h
  by_cases ha : i = "a"
  · subst ha
    have : (exEmptyEnd.filter fun x => decide ("a" ∈ x.md.ids)).getLast? = some exEmptyEnd[2] := by decide
    rw [this, Option.some.injEq] at h
    subst h
    decide
  · by_cases hb : i = "b"
    · subst hb
      have : (exEmptyEnd.filter fun x => decide ("b" ∈ x.md.ids)).getLast? = some exEmptyEnd[3] := by decide
      rw [this, Option.some.injEq] at h
      subst h
      decide
    · simp [exEmptyEnd, ha, hb] at h

/-- A pass whose last batch has been dropped: `a` and `b` have not ended. -/
def exCut : List (ST Int) :=
  [ { md := ⟨["b"], [true], [false], [2], none⟩, width := 2, rows := [[5, 6]] },
    { md := ⟨["a", "b"], [true, false], [false, false], [2, 2], none⟩, width := 2, rows := [[1, 2], [7, 8]] } ]

/-- **C229 is false of the code** for streams cut off: if the last batches of a pass are dropped (C77), streams stay open and the next pass starts from what they left. Here `a` starts its
second pass with the last frame of the first one in front: `[21, 12]` instead of `[12]`. -/
theorem C229_dropped_false :
    (chainRun (fresh [.conv ⟨2, 1, 1, 0⟩ exG]) exCut).map (fun r => r.1.map fun y => (unpack y).map (·.frames)) = .ok [[[56]], [[12], [67, 78]]] ∧
    (chainRun (fresh [.conv ⟨2, 1, 1, 0⟩ exG]) (exCut ++ exCut)).map (fun r => (r.1.drop 2).map fun y => (unpack y).map (·.frames)) =
      .ok [[[56]], [[21, 12], [67, 78]]] := by decide

end DS.Conv

namespace DS.Coll
open DS.Conv Meta
variable {α : Type} [Zero α]

/-- **C229**, collectors: a collector that has taken the batches of one pass, with at least one frame among them, refuses the same batches in a second pass, with a ValueError:
a new collector is needed for every pass. -/
theorem C229_collector (ys : List (ST α)) (css : List (List (Chunk α))) (h : List.Forall₂ (fun y cs => cs ≠ [] ∧ Packs y y.width cs) ys css)
    (c : Chunk α) (cs : List (Chunk α)) (hc : cs ∈ css ∧ c ∈ cs ∧ c.frames ≠ []) :
    (update Coll.new ((ys ++ ys).map Item.batch)).2 = some .valueError := by
  obtain ⟨h1, h2, -⟩ := C68_streams (ys ++ ys) (css ++ css) (List.rel_append h h)
  refine h2 fun hn => ?_
  obtain ⟨hs, -, -⟩ := h1.1 hn c.id
  have he : nonEmpty (chunksOf c.id (css ++ css)) = nonEmpty (chunksOf c.id css) ++ nonEmpty (chunksOf c.id css) := by
    rw [chunksOf_append, nonEmpty, List.filter_append]
    rfl
  rw [he] at hs
  have hm : c ∈ nonEmpty (chunksOf c.id css) := by
    simp only [nonEmpty, chunksOf, List.mem_filter, List.mem_flatten, decide_eq_true_eq, List.length_pos_iff]
    exact ⟨⟨⟨cs, hc.1, hc.2.1⟩, by simp⟩, hc.2.2⟩
  generalize nonEmpty (chunksOf c.id css) = n at hs hm
  cases n with
  | nil => simp at hm
  | cons a n =>
    have a1 := (hs 0 a (by simp)).2 rfl
    have a2 := (hs (n.length + 1) a (by rw [List.getElem?_append_right (by simp)]; simp)).1 a1
    omega

example : List.Forall₂ (fun y cs => cs ≠ [] ∧ Packs y y.width cs) exColl (exColl.map unpack) ∧ (update Coll.new (exColl.map Item.batch)).2 = none ∧
    (update Coll.new ((exColl ++ exColl).map Item.batch)).2 = some .valueError := by
  refine ⟨.cons ⟨by decide, by decide⟩ (.cons ⟨by decide, by decide⟩ (.cons ⟨by decide, by decide⟩ .nil)), by decide, by decide⟩

end DS.Coll
