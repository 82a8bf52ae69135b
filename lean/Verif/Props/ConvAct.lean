import Verif.Props.ConvPad
/-! C113: pointwise functions between convolutions. -/

namespace DS.Conv
open Meta
section
variable {α : Type} [Zero α]

/-- A stack in which every convolution that follows a pointwise function with `f 0 ≠ 0` (with no other convolution between them) has no padding. The flag says whether the input is
zero-padded. -/
def StackOK : Bool → List (Layer α) → Prop
  | _, [] => True
  | clean, .conv c _ :: ls => c.Valid ∧ (clean = true ∨ c.padding = 0) ∧ StackOK true ls
  | clean, .act f :: ls => (clean = true ∧ f 0 = 0 ∧ StackOK true ls) ∨ StackOK false ls

/-- **C113 is false of the code.** Adding 5 to everything also fills the padding of the shorter sequence with 5, and the end padding of the next convolution then sees 5 instead of 0. -/
theorem C113_pointwise_false :
    ((chainRun (fresh [.act (· + 5), .conv ⟨2, 1, 1, 1⟩ exG]) [exClean]).map fun r => collected "a" r.1) = .ok [6, 65] ∧
    offlineChain [.act (· + 5), .conv ⟨2, 1, 1, 1⟩ exG] [1] = [6, 60] ∧ collected "a" [exClean] = [1] := by decide

/-- The batch with zeros in the padding. -/
def zeroed (x : ST α) : ST α := { x with rows := List.zipWith (fun (l : Int) r => r.take l.toNat ++ zeros (x.width - l.toNat)) x.md.lengths x.rows }

/-- `Schedule` without the condition that the padding is zero. -/
def ScheduleUp (xs : List (ST α)) : Prop :=
  (∀ x ∈ xs, Shaped x ∧ BatchOK (unpack x) ∧ Tight x.width (unpack x)) ∧ ∀ i, ∃ done cur, History (chunksOf i (xs.map unpack)) done cur

theorem wp_shaped {x : ST α} (h : WellPacked x) : Shaped x := by
  obtain ⟨h1, h2, -, h4, h5⟩ := h
  refine ⟨h1, ?_, ?_, ?_⟩
  · rw [h5, ids_rows x.md h1, h2]
    simp
  · intro r hr
    rw [h5] at hr
    obtain ⟨u, hu, rfl⟩ := List.mem_map.1 hr
    have := h4 u hu
    simp [zeros_length]
    omega
  · intro l hl
    rw [lengths_rows x.md h1, h2, List.map_map] at hl
    obtain ⟨u, hu, rfl⟩ := List.mem_map.1 hl
    have := h4 u hu
    simp [Chunk.row]
    omega

/-- The columns row by row. -/
theorem shaped_rows {x : ST α} (h : Shaped x) : x.md.rows.length = x.rows.length := by
  rw [h.2.1, rows_length x.md h.1]

theorem zeroed_rows {x : ST α} (h : Shaped x) : (zeroed x).rows = List.zipWith (fun (r : Row) f => f.take r.len.toNat ++ zeros (x.width - r.len.toNat)) x.md.rows x.rows := by
  unfold zeroed
  simp only
  rw [lengths_rows x.md h.1, List.zipWith_map_left]

theorem unpack_zeroed {x : ST α} (h : Shaped x) : unpack (zeroed x) = unpack x := by
  unfold unpack
  rw [zeroed_rows h]
  show List.zipWith _ x.md.rows _ = _
  have hl : ∀ r ∈ x.md.rows, 0 ≤ r.len ∧ r.len ≤ x.width := by
    intro r hr
    exact h.2.2.2 r.len (by rw [lengths_rows x.md h.1]; exact List.mem_map_of_mem hr)
  have hw := h.2.2.1
  generalize x.md.rows = rs at *
  generalize x.rows = fs at *
  induction rs generalizing fs with
  | nil => rfl
  | cons r rs ih =>
    match fs with
    | [] => rfl
    | f :: fs =>
      simp only [List.zipWith_cons_cons]
      have h1 := hl r (by simp)
      have h2 := hw f (by simp)
      rw [ih (fun r hr => hl r (by simp [hr])) fs (fun f hf => hw f (by simp [hf]))]
      congr 2
      rw [List.take_append_of_le_length (by simp; omega), List.take_take, Nat.min_self]

theorem zeroed_wp {x : ST α} (h : Shaped x) : WellPacked (zeroed x) := by
  unfold WellPacked Packs
  rw [unpack_zeroed h]
  have hl : ∀ r ∈ x.md.rows, 0 ≤ r.len ∧ r.len ≤ x.width := by
    intro r hr
    exact h.2.2.2 r.len (by rw [lengths_rows x.md h.1]; exact List.mem_map_of_mem hr)
  have hw := h.2.2.1
  have hn := shaped_rows h
  refine ⟨h.1, ?_, rfl, ?_, ?_⟩
  · show x.md.rows = _
    unfold unpack
    generalize x.md.rows = rs at *
    generalize x.rows = fs at *
    induction rs generalizing fs with
    | nil => rfl
    | cons r rs ih =>
      match fs, hn with
      | f :: fs, hn =>
        simp only [List.zipWith_cons_cons, List.map_cons]
        have h1 := hl r (by simp)
        have h2 := hw f (by simp)
        rw [← ih (fun r hr => hl r (by simp [hr])) fs (fun f hf => hw f (by simp [hf])) (by simpa using hn)]
        congr 1
        cases r
        simp only [Chunk.row, List.length_take, Row.mk.injEq, true_and, and_true] at *
        omega
  · intro u hu
    show u.frames.length ≤ x.width
    unfold unpack at hu
    obtain ⟨k, hk⟩ := List.getElem?_of_mem hu
    rw [List.getElem?_zipWith] at hk
    cases h1 : x.md.rows[k]? with
    | none => simp [h1] at hk
    | some r =>
      cases h2 : x.rows[k]? with
      | none => simp [h1, h2] at hk
      | some f =>
        simp only [h1, h2, Option.some.injEq] at hk
        subst hk
        have := hw f (List.mem_of_getElem? h2)
        simp
        omega
  · rw [zeroed_rows h]
    show _ = (unpack x).map fun c => c.frames ++ zeros (x.width - c.frames.length)
    unfold unpack
    rw [List.map_zipWith]
    generalize x.md.rows = rs at *
    generalize x.rows = fs at *
    induction rs generalizing fs with
    | nil => rfl
    | cons r rs ih =>
      match fs, hn with
      | f :: fs, hn =>
        simp only [List.zipWith_cons_cons]
        have h1 := hl r (by simp)
        have h2 := hw f (by simp)
        rw [ih (fun r hr => hl r (by simp [hr])) fs (fun f hf => hw f (by simp [hf])) (by simpa using hn)]
        have h3 : (f.take r.len.toNat).length = r.len.toNat := by rw [List.length_take]; omega
        simp only [h3]

theorem zeroed_same {x : ST α} (h : Shaped x) : SameButPadding x (zeroed x) := by
  refine ⟨rfl, rfl, ?_⟩
  have hl := h.2.2.2
  have hw := h.2.2.1
  have hn : x.md.lengths.length = x.rows.length := by rw [h.1.2.2.1, h.2.1]
  unfold zeroed
  simp only
  generalize x.md.lengths = ls at *
  generalize x.rows = fs at *
  induction ls generalizing fs with
  | nil =>
    match fs, hn with
    | [], _ => trivial
  | cons l ls ih =>
    match fs, hn with
    | f :: fs, hn =>
      have h1 := hl l (by simp)
      have h2 := hw f (by simp)
      refine ⟨?_, ?_, ih (fun r hr => hl r (by simp [hr])) fs (fun f hf => hw f (by simp [hf])) (by simpa using hn)⟩
      · rw [List.take_append_of_le_length (by simp; omega), List.take_take, Nat.min_self]
      · simp [zeros_length]
        omega

theorem up_zeroed {xs : List (ST α)} (h : ScheduleUp xs) : Schedule (xs.map zeroed) ∧ (xs.map zeroed).map unpack = xs.map unpack := by
  have he : (xs.map zeroed).map unpack = xs.map unpack := by
    rw [List.map_map]
    apply List.map_congr_left
    intro x hx
    exact unpack_zeroed (h.1 x hx).1
  refine ⟨⟨?_, ?_⟩, he⟩
  · intro x hx
    obtain ⟨x0, h0, rfl⟩ := List.mem_map.1 hx
    obtain ⟨a, b, c⟩ := h.1 x0 h0
    rw [unpack_zeroed a]
    exact ⟨zeroed_wp a, b, c⟩
  · rw [he]
    exact h.2

theorem run_zeroed {β : Type} [Zero β] (c : Cfg) (hv : c.Valid) (hp : c.padding = 0) (g : List α → β) (xs : List (ST α)) (h : ∀ x ∈ xs, Shaped x) (buf : Buf α) :
    run c g buf xs = run c g buf (xs.map zeroed) := by
  induction xs generalizing buf with
  | nil => rfl
  | cons x xs ih =>
    simp only [run, List.map_cons]
    rw [C112_padding_partial c hv g buf x (zeroed x) (h x (by simp)) (zeroed_same (h x (by simp))) (.inl hp)]
    cases forward c g buf x with
    | error e => rfl
    | ok o => simp only [Except.bind_ok', ih (fun x hx => h x (by simp [hx])) o.buf]

theorem shaped_act (f : α → α) {x : ST α} (h : Shaped x) : Shaped ({ x with rows := x.rows.map (·.map f) } : ST α) := by
  refine ⟨h.1, by simpa using h.2.1, ?_, h.2.2.2⟩
  intro r hr
  obtain ⟨r0, h0, rfl⟩ := List.mem_map.1 hr
  simpa using h.2.2.1 r0 h0

/-- One layer over a schedule whose padding may hold anything. -/
theorem layer_up {l : Layer α} {ls : List (Layer α)} {clean : Bool} (hl : StackOK clean (l :: ls)) {xs : List (ST α)} (hclear : l.Clear xs) (hx : ScheduleUp xs)
    (hcl : clean = true → ∀ x ∈ xs, WellPacked x) {ys : List (ST α)} {b : Buf α} (h : layerRun l (fun _ => none) xs = .ok (ys, b)) :
    (∃ clean', StackOK clean' ls ∧ (clean' = true → ∀ y ∈ ys, WellPacked y)) ∧ (∀ y ∈ ys, Shaped y ∧ Tight y.width (unpack y)) ∧
    (ys.map fun y => (unpack y).map Chunk.flags) = (xs.map fun x => (unpack x).map Chunk.flags) ∧
    ∀ i done cur, History (chunksOf i (xs.map unpack)) done cur → Via l.offline done cur (chunksOf i (ys.map unpack)) := by
  cases l with
  | conv c g =>
    obtain ⟨h1, h3, h4⟩ := hl
    have key : ∀ xs' : List (ST α), Schedule xs' → xs'.map unpack = xs.map unpack → layerRun (.conv c g) (fun _ => none) xs' = .ok (ys, b) →
        (∃ clean', StackOK clean' ls ∧ (clean' = true → ∀ y ∈ ys, WellPacked y)) ∧ (∀ y ∈ ys, Shaped y ∧ Tight y.width (unpack y)) ∧
        (ys.map fun y => (unpack y).map Chunk.flags) = (xs.map fun x => (unpack x).map Chunk.flags) ∧
        ∀ i done cur, History (chunksOf i (xs.map unpack)) done cur → Via (Layer.conv c g).offline done cur (chunksOf i (ys.map unpack)) := by
      intro xs' hs hu hr
      obtain ⟨a1, a2, a3⟩ := layer_via (l := .conv c g) h1 (by intro i done cur; rw [hu]; exact hclear i done cur) hs hr
      rw [hu] at a3
      refine ⟨⟨true, h4, fun _ y hy => (a1 y hy).1⟩, fun y hy => ⟨wp_shaped (a1 y hy).1, (a1 y hy).2⟩, ?_, a3⟩
      have := congrArg (fun l => l.map (fun u : List (Chunk α) => u.map Chunk.flags)) hu
      simp only [List.map_map] at this
      exact a2.trans this
    rcases h3 with hc | hp
    · refine key xs ⟨fun x hm => ⟨hcl hc x hm, (hx.1 x hm).2⟩, hx.2⟩ rfl h
    · obtain ⟨u1, u2⟩ := up_zeroed hx
      refine key _ u1 u2 ?_
      rw [layerRun_conv] at h ⊢
      rw [← run_zeroed c h1 hp g xs (fun x hm => (hx.1 x hm).1)]
      exact h
  | act f =>
    rw [layerRun_act] at h
    simp only [Except.ok.injEq, Prod.mk.injEq] at h
    obtain ⟨rfl, -⟩ := h
    refine ⟨?_, ?_, ?_, ?_⟩
    · rcases hl with ⟨hc, hf, hl⟩ | hl
      · refine ⟨true, hl, fun _ y hy => ?_⟩
        obtain ⟨x, hxm, rfl⟩ := List.mem_map.1 hy
        exact wellPacked_act hf (hcl hc x hxm)
      · exact ⟨false, hl, by simp⟩
    · intro y hy
      obtain ⟨x, hxm, rfl⟩ := List.mem_map.1 hy
      obtain ⟨a1, -, u, hu, huw⟩ := hx.1 x hxm
      refine ⟨shaped_act f a1, ?_⟩
      rw [unpack_act]
      exact ⟨_, List.mem_map_of_mem hu, by simpa using huw⟩
    · rw [List.map_map]
      apply List.map_congr_left
      intro x _
      simp only [Function.comp_apply, unpack_act, List.map_map]
      rfl
    · intro i done cur hh
      have := via_act (f := f) hh
      have he : chunksOf i ((xs.map fun x : ST α => { x with rows := x.rows.map (·.map f) }).map unpack) =
          (chunksOf i (xs.map unpack)).map fun y => { y with frames := y.frames.map f } := by
        clear hh this hx hcl hclear
        induction xs with
        | nil => rfl
        | cons x xs ih =>
          simp only [List.map_cons]
          rw [← List.singleton_append, chunksOf_append, ih, ← List.singleton_append (x := unpack x), chunksOf_append, List.map_append]
          congr 1
          simp only [chunksOf, List.flatten_cons, List.flatten_nil, List.append_nil, unpack_act, List.filter_map, Function.comp_def]
      rw [he]
      exact this

theorem chain_up (ls : List (Layer α)) (clean : Bool) (hl : StackOK clean ls) (xs : List (ST α)) (hx : ScheduleUp xs) (hcl : clean = true → ∀ x ∈ xs, WellPacked x)
    (hfine : Fine ls xs) (zs : List (ST α)) (t : List (Layer α × Buf α)) (h : chainRun (fresh ls) xs = .ok (zs, t)) :
    ∀ i done cur, History (chunksOf i (xs.map unpack)) done cur → Via (offlineChain ls) done cur (chunksOf i (zs.map unpack)) := by
  induction ls generalizing xs t clean with
  | nil =>
    rw [show fresh ([] : List (Layer α)) = [] from rfl, chainRun_nil] at h
    simp only [Except.ok.injEq, Prod.mk.injEq] at h
    obtain ⟨rfl, -⟩ := h
    refine fun i done cur hh => ⟨done, cur, hh.1, ?_, rfl⟩
    rw [List.forall₂_same]
    exact fun s _ => ⟨rfl, rfl⟩
  | cons l ls ih =>
    rw [show fresh (l :: ls) = (l, fun _ => none) :: fresh ls from rfl] at h
    obtain ⟨ys, b', t', h1, h2⟩ := chainRun_cons h
    obtain ⟨⟨clean', k1, k2⟩, a1, a2, a3⟩ := layer_up hl hfine.2.1 hx hcl h1
    have hfy := hfine.2.2 ys b' h1
    by_cases hne : ls = []
    · subst hne
      rw [show fresh ([] : List (Layer α)) = [] from rfl, chainRun_nil] at h2
      simp only [Except.ok.injEq, Prod.mk.injEq] at h2
      obtain ⟨rfl, -⟩ := h2
      exact a3
    · have hsy : ScheduleUp ys := by
        refine ⟨fun y hy => ⟨(a1 y hy).1, ?_, (a1 y hy).2⟩, fun i => ?_⟩
        · cases ls with
          | nil => exact absurd rfl hne
          | cons l' ls' => exact hfy.1 y hy
        · obtain ⟨done, cur, hh⟩ := hx.2 i
          obtain ⟨d, c, h', -⟩ := via_history hh (a3 i done cur hh)
          exact ⟨d, c, h'⟩
      have b2 := ih clean' k1 ys hsy k2 hfy t' h2
      intro i done cur hh
      obtain ⟨d, c, h', e1, e2⟩ := via_history hh (a3 i done cur hh)
      exact via_comp (f := l.offline) (h := offlineChain ls) e1 e2 (b2 i d c h')

/-- **C113, the part that holds.** A stack of online convolutions with arbitrary pointwise functions between them, over any schedule in which no layer gets an empty first or last chunk next to other rows or a chunk that ends inside a gap of its stride, gives each stream its offline
output, if every convolution that follows a pointwise function with `f 0 ≠ 0` has no padding. Missing: convolutions with padding after such functions (see `C113_pointwise_false`), and what is missing from C62. -/
theorem C113_pointwise_partial (ls : List (Layer α)) (hl : StackOK true ls) (xs : List (ST α)) (hx : Schedule xs) (hfine : Fine ls xs)
    (zs : List (ST α)) (t : List (Layer α × Buf α)) (h : chainRun (fresh ls) xs = .ok (zs, t))
    (i : String) (hc : Complete (chunksOf i (xs.map unpack))) : collected i zs = offlineChain ls (collected i xs) := by
  have hup : ScheduleUp xs := ⟨fun x hm => ⟨wp_shaped (hx.1 x hm).1, (hx.1 x hm).2⟩, hx.2⟩
  obtain ⟨doneO, curO, e1, e2, e3⟩ := chain_up ls true hl xs hup (fun _ x hm => (hx.1 x hm).1) hfine zs t h i [chunksOf i (xs.map unpack)] []
    (by simpa [History] using hc)
  unfold collected
  rw [e1]
  cases e2 with
  | cons hab e2 =>
    cases e2
    have : curO = [] := by simpa using e3
    rw [this]
    simpa using hab.1

/-- A padded convolution, then adding 5, then a convolution without padding. -/
def exAct : List (Layer Int) := [.conv ⟨2, 1, 1, 1⟩ exG, .act (· + 5), .conv ⟨2, 1, 1, 0⟩ exG]

example : StackOK true exAct := by
  refine ⟨by decide, .inl rfl, .inr ⟨by decide, .inr rfl, trivial⟩⟩
example : ((chainRun (fresh exAct) [exClean]).map fun r => (collected "a" r.1, collected "b" r.1)) = .ok (offlineChain exAct [1], offlineChain exAct [2, 3]) := by decide

end
end DS.Conv
