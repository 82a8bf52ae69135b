import Verif.Spec.StreamWork
import Verif.Props.StreamMemory
/-! C231: the work of online convolution. -/

namespace DS.Conv
open Meta
section
variable {α β : Type} [Zero α] [Zero β]

theorem addWhere_le (p : Int) (hp : 0 ≤ p) : ∀ (ls : List Int) (bs : List Bool) (b : Int), (∀ l ∈ ls, l ≤ b) → ∀ l ∈ addWhere p ls bs, l ≤ b + p := by
  intro ls bs b h l hl
  unfold addWhere at hl
  obtain ⟨k, hk, rfl⟩ := List.mem_iff_getElem.1 hl
  simp only [List.getElem_zipWith]
  have hk' : k < ls.length := by simp at hk; omega
  have h1 := h _ (List.getElem_mem hk')
  split
  · exact Int.add_le_add_right h1 p
  · omega

theorem padLengths_le (p : Nat) (m : Meta) (b : Int) (h : ∀ l ∈ m.lengths, l ≤ b) : ∀ l ∈ padLengths p m, l ≤ b + 2 * p := by
  unfold padLengths
  split
  · intro l hl
    obtain ⟨l', hl', rfl⟩ := List.mem_map.1 hl
    have := h l' hl'
    omega
  · split
    · intro l hl
      have := addWhere_le p (by omega) _ m.eos (b + p) (addWhere_le p (by omega) _ m.sos b h) l hl
      omega
    · intro l hl
      have := h l hl
      omega

theorem widen_width {p : Nat} {m : Meta} {w : Nat} {rows : List (List α)} {ml : Int} {w' : Nat} {rows' : List (List α)}
    (h : widen p m w rows ml = .ok (w', rows')) : (w' = w ∨ (w' : Int) = ml) ∧ w ≤ w' ∧ ml ≤ w' ∧ rows'.length = rows.length := by
  unfold widen at h
  dsimp only at h
  split at h
  · split at h
    · split at h
      · simp only [Except.ok.injEq, Prod.mk.injEq] at h
        obtain ⟨rfl, rfl⟩ := h
        refine ⟨.inr (by omega), by omega, by omega, by simp⟩
      · simp at h
    · simp only [Except.ok.injEq, Prod.mk.injEq] at h
      obtain ⟨rfl, rfl⟩ := h
      refine ⟨.inr (by omega), by omega, by omega, by simp⟩
  · simp only [Except.ok.injEq, Prod.mk.injEq] at h
    obtain ⟨rfl, rfl⟩ := h
    exact ⟨.inl rfl, le_refl _, by omega, rfl⟩

theorem applyPadding_width {c : Cfg} {x : ST α} (hl : ∀ l ∈ x.md.lengths, l ≤ (x.width : Int)) {m : Meta} {p w : Nat} {rows : List (List α)}
    (h : applyPadding c x = .ok (m, p, w, rows)) :
    w + 2 * p ≤ x.width + 2 * c.padding ∧ rows.length ≤ x.rows.length ∧ ∀ l ∈ m.lengths, l ≤ ((w + 2 * p : Nat) : Int) := by
  unfold applyPadding at h
  split at h
  · dsimp only at h
    have hpl := padLengths_le c.padding x.md x.width hl
    split at h
    · simp only [Except.ok.injEq, Prod.mk.injEq] at h
      obtain ⟨rfl, rfl, rfl, rfl⟩ := h
      refine ⟨le_refl _, le_refl _, fun l h => ?_⟩
      have := hpl l h
      omega
    · obtain ⟨ml, h1, h⟩ := bind_ok_iff h
      obtain ⟨⟨w', rows'⟩, h2, h⟩ := bind_ok_iff h
      simp only [Except.ok.injEq, Prod.mk.injEq] at h
      obtain ⟨rfl, rfl, rfl, rfl⟩ := h
      have hml : ml ≤ (x.width : Int) + 2 * c.padding := hpl _ ((torchMax_iff _ _).1 h1).1
      obtain ⟨g1, g2, g3, g4⟩ := widen_width h2
      refine ⟨by omega, ?_, fun l h => ?_⟩
      · rw [← g4]
        unfold shiftStarting
        split
        · simp
        · exact le_refl _
      · have : l ≤ ml := ((torchMax_iff _ _).1 h1).2 l h
        omega
  · simp only [Except.ok.injEq, Prod.mk.injEq] at h
    obtain ⟨rfl, rfl, rfl, rfl⟩ := h
    exact ⟨by omega, le_refl _, by simpa using hl⟩

/-- The result of `torch.conv1d`: the width, the size of every row, and that no row is longer than the padded lengths say. -/
theorem conv1d_width {c : Cfg} (hv : c.Valid) {g : List α → β} {x : ST α} (hl : ∀ l ∈ x.md.lengths, l ≤ (x.width : Int)) {y : ST β} {its : List (String × List α)}
    (h : conv1d c g x = .ok (y, its)) :
    (∃ v, v ≤ x.width + 2 * c.padding ∧ c.kw ≤ v ∧ y.width = (v - c.kw) / c.stride + 1) ∧ y.rows.length ≤ x.rows.length ∧ (∀ r ∈ y.rows, r.length = y.width) ∧
      ∀ l ∈ y.md.lengths, l ≤ (y.width : Int) := by
  unfold conv1d at h
  obtain ⟨⟨m, p, w, rows⟩, h1, h⟩ := bind_ok_iff h
  obtain ⟨⟨n, ys⟩, h2, h⟩ := bind_ok_iff h
  simp only [Except.ok.injEq, Prod.mk.injEq] at h
  obtain ⟨rfl, -⟩ := h
  obtain ⟨a1, a2, a3⟩ := applyPadding_width hl h1
  unfold torchConv1d at h2
  split at h2
  · simp at h2
  · rename_i hk
    simp only [Except.ok.injEq, Prod.mk.injEq] at h2
    obtain ⟨rfl, rfl⟩ := h2
    refine ⟨⟨w + 2 * p, a1, by omega, rfl⟩, ?_, ?_, ?_⟩
    · simp only [List.length_zipWith, List.length_map]
      omega
    · intro r hr
      obtain ⟨k, hk, rfl⟩ := List.mem_iff_getElem.1 hr
      simp [maskRow]
    · intro l hlm
      obtain ⟨l', hl', rfl⟩ := List.mem_map.1 hlm
      have h4 := a3 l' hl'
      unfold outLen
      have hs : (0 : Int) < c.stride := by have := hv.2.2; omega
      have h5 : (l' - c.kw) / (c.stride : Int) ≤ ((w + 2 * p - c.kw : Nat) : Int) / (c.stride : Int) :=
        Int.ediv_le_ediv hs (by omega)
      have h6 : ((w + 2 * p - c.kw : Nat) : Int) / (c.stride : Int) = (((w + 2 * p - c.kw) / c.stride : Nat) : Int) := by
        rw [Int.natCast_ediv]
      rw [h6] at h5
      have h7 : (((w + 2 * p - c.kw) / c.stride + 1 : Nat) : Int) = (((w + 2 * p - c.kw) / c.stride : Nat) : Int) + 1 := Int.natCast_succ _
      dsimp only
      rw [h7]
      have h8 := Int.natCast_nonneg ((w + 2 * p - c.kw) / c.stride)
      exact max_le (Int.add_le_add_right h5 1) (by omega)

omit [Zero α] in
theorem raggedRows_size {w k : Nat} : ∀ {ms : List Meta} {rs : List (List α)} {bs : List (Option (List α))} {xs : List (Meta × List α)},
    (∀ b ∈ bs, bufLen b ≤ k) → raggedRows w ms rs bs = .ok xs → xs.length ≤ rs.length ∧ ∀ x ∈ xs, x.2.length ≤ w + k := by
  intro ms
  induction ms with
  | nil => intro rs bs xs _ h; simp only [raggedRows, Except.ok.injEq] at h; subst h; simp
  | cons m ms ih =>
    intro rs bs xs hb h
    cases rs with
    | nil => simp only [raggedRows, Except.ok.injEq] at h; subst h; simp
    | cons r rs =>
      cases bs with
      | nil => simp only [raggedRows, Except.ok.injEq] at h; subst h; simp
      | cons b bs =>
        simp only [raggedRows] at h
        obtain ⟨x, h1, h⟩ := bind_ok_iff h
        obtain ⟨xs', h2, h⟩ := bind_ok_iff h
        simp only [Except.ok.injEq] at h
        subst h
        obtain ⟨i1, i2⟩ := ih (fun b' hb' => hb b' (by simp [hb'])) h2
        refine ⟨by simp; omega, ?_⟩
        have hx : x.2.length ≤ w := by
          unfold narrowRow at h1
          obtain ⟨l, -, h1⟩ := bind_ok_iff h1
          split at h1
          · simp at h1
          · obtain ⟨m', -, h1⟩ := bind_ok_iff h1
            simp only [Except.ok.injEq] at h1
            subst h1
            simp only [List.length_take]
            omega
        have hbk := hb b (by simp)
        intro z hz
        rcases List.mem_cons.1 hz with rfl | hz
        · cases b with
          | none => simp only [prepend]; omega
          | some b => simp only [prepend, List.length_append]; simp only [bufLen, Option.getD_some] at hbk; omega
        · exact i2 z hz

/-- The hook widens a batch by less than the width of the kernel, and does not make lengths exceed the width. -/
theorem preHook_width {c : Cfg} (hv : c.Valid) {buf : Buf α} (hb : ∀ i f, buf i = some f → f.length < c.kw) {x : ST α} (hl : ∀ l ∈ x.md.lengths, l ≤ (x.width : Int))
    {x' : ST α} {sh : Bool} (h : preHook c buf x = .ok (x', sh)) :
    x'.width < x.width + c.kw ∧ x'.rows.length ≤ x.rows.length ∧ ∀ l ∈ x'.md.lengths, l ≤ (x'.width : Int) := by
  have hkw := kw_pos c hv
  have hbl : ∀ i, bufLen (buf i) < c.kw := by
    intro i
    unfold bufLen
    cases hbi : buf i with
    | none => exact hkw
    | some f => simpa using hb i f hbi
  unfold preHook at h
  split at h
  · dsimp only at h
    split at h
    · unfold catEqual at h
      split at h
      · simp [Except.map] at h
      · simp only [Except.map, Except.ok.injEq, Prod.mk.injEq] at h
        obtain ⟨rfl, -⟩ := h
        have href : bufLen ((x.md.ids.map buf).head?.getD none) < c.kw := by
          cases hi : x.md.ids with
          | nil => exact hkw
          | cons i is => simpa using hbl i
        refine ⟨by simp only; omega, by simp, ?_⟩
        intro l hlm
        obtain ⟨l', hl', rfl⟩ := List.mem_map.1 hlm
        have := hl l' hl'
        push_cast
        omega
    · unfold catRagged at h
      obtain ⟨y, h1, h⟩ := map_ok_iff h
      simp only [Prod.mk.injEq] at h
      obtain ⟨rfl, -⟩ := h
      obtain ⟨ms, -, h1⟩ := bind_ok_iff h1
      obtain ⟨xs, h2, h1⟩ := bind_ok_iff h1
      obtain ⟨i1, i2⟩ := raggedRows_size (k := c.kw - 1) (by
        intro b hbm
        obtain ⟨i, -, rfl⟩ := List.mem_map.1 hbm
        have := hbl i
        omega) h2
      unfold padStream at h1
      obtain ⟨m, -, h1⟩ := bind_ok_iff h1
      obtain ⟨md, h3, h1⟩ := bind_ok_iff h1
      simp only [Except.ok.injEq] at h1
      subst h1
      obtain ⟨k1, k2, k3⟩ := foldl_max_nat (xs.map (·.2.length)) 0
      refine ⟨?_, by simpa using i1, ?_⟩
      · dsimp only
        rcases k3 with h | h
        · rw [h]; omega
        · obtain ⟨z, hz, he⟩ := List.mem_map.1 h
          rw [← he]
          have := i2 z hz
          omega
      · dsimp only
        unfold Meta.init at h3
        split at h3
        · simp only [Except.ok.injEq] at h3
          subst h3
          intro l hlm
          obtain ⟨z, hz, rfl⟩ := List.mem_map.1 hlm
          exact_mod_cast k2 _ (List.mem_map_of_mem hz)
        · simp at h3
  · simp only [Except.ok.injEq, Prod.mk.injEq] at h
    obtain ⟨rfl, -⟩ := h
    exact ⟨by omega, le_refl _, hl⟩

theorem forward_work {c : Cfg} (hv : c.Valid) {g : List α → β} {buf : Buf α} (hb : ∀ i f, buf i = some f → f.length < c.kw) {x : ST α}
    (hl : ∀ l ∈ x.md.lengths, l ≤ (x.width : Int)) {o : Out α β} (h : forward c g buf x = .ok o) :
    o.y.width ≤ c.positions x.width ∧ o.y.rows.length ≤ x.rows.length ∧ (∀ r ∈ o.y.rows, r.length = o.y.width) ∧ ∀ l ∈ o.y.md.lengths, l ≤ (o.y.width : Int) := by
  unfold forward at h
  obtain ⟨⟨x', sh⟩, h1, h⟩ := bind_ok_iff h
  obtain ⟨⟨y, its⟩, h2, h⟩ := bind_ok_iff h
  simp only [Except.ok.injEq] at h
  subst h
  obtain ⟨a1, a2, a3⟩ := preHook_width hv hb hl h1
  obtain ⟨⟨v, b1, b2, b3⟩, b4, b5, b6⟩ := conv1d_width hv a3 h2
  refine ⟨?_, by dsimp only; omega, b5, b6⟩
  dsimp only
  rw [b3]
  unfold Cfg.positions
  have hs := hv.2.2
  rw [show x.width + 2 * c.padding + c.stride - 1 = (x.width + 2 * c.padding - 1) + c.stride by omega, Nat.add_div_right _ (by omega)]
  exact Nat.succ_le_succ (Nat.div_le_div_right (by omega))

/-- A batch whose rows are as wide as the batch and whose lengths do not exceed its width. -/
def Boxed (x : ST α) : Prop := (∀ r ∈ x.rows, r.length = x.width) ∧ ∀ l ∈ x.md.lengths, l ≤ (x.width : Int)

omit [Zero α] in
theorem work_le {y : ST α} (hy : Boxed y) {n w : Nat} (h1 : y.rows.length ≤ n) (h2 : y.width ≤ w) : y.work ≤ n * w := by
  unfold ST.work
  have h : ∀ (rs : List (List α)), (∀ r ∈ rs, r.length = y.width) → (rs.map List.length).sum = rs.length * y.width := by
    intro rs
    induction rs with
    | nil => intro _; simp
    | cons r rs ih =>
      intro hr
      rw [List.map_cons, List.sum_cons, ih (fun r' h => hr r' (by simp [h])), hr r (by simp), List.length_cons, Nat.succ_mul]
      omega
  rw [h _ hy.1]
  exact Nat.mul_le_mul h1 h2

theorem run_work_from {c : Cfg} (hv : c.Valid) {g : List α → β} : ∀ {xs pre : List (ST α)} {ys ys0 : List (ST β)} {buf b : Buf α},
    run c g (fun _ => none) pre = .ok (ys0, buf) → (∀ x ∈ xs, ∀ l ∈ x.md.lengths, l ≤ (x.width : Int)) → run c g buf xs = .ok (ys, b) →
    List.Forall₂ (fun x y => y.width ≤ c.positions x.width ∧ y.rows.length ≤ x.rows.length ∧ Boxed y) xs ys := by
  intro xs
  induction xs with
  | nil =>
    intro pre ys ys0 buf b _ _ h
    simp only [run, Except.ok.injEq, Prod.mk.injEq] at h
    rw [← h.1]
    exact .nil
  | cons x xs ih =>
    intro pre ys ys0 buf b hpre hl h
    simp only [run] at h
    obtain ⟨o, h1, h⟩ := bind_ok_iff h
    obtain ⟨⟨ys', b'⟩, h2, h⟩ := bind_ok_iff h
    simp only [Except.ok.injEq, Prod.mk.injEq] at h
    obtain ⟨rfl, rfl⟩ := h
    obtain ⟨a1, a2, a3, a4⟩ := forward_work hv (C55_buffer_small c hv g pre ys0 buf hpre) (hl x (by simp)) h1
    exact .cons ⟨a1, a2, a3, a4⟩ (ih (run_snoc c g x o pre _ _ _ hpre h1) (fun x' h' => hl x' (by simp [h'])) h2)

/-- **C231**, each call: however long its streams are already, a call evaluates the kernel at most once per sequence and kernel position within the chunk and its padding. -/
theorem C231_call (c : Cfg) (hv : c.Valid) (g : List α → β) (xs : List (ST α)) (hl : ∀ x ∈ xs, ∀ l ∈ x.md.lengths, l ≤ (x.width : Int)) (ys : List (ST β)) (buf : Buf α)
    (h : run c g (fun _ => none) xs = .ok (ys, buf)) : List.Forall₂ (fun x y => y.work ≤ x.rows.length * c.positions x.width) xs ys :=
  (run_work_from hv (pre := []) rfl hl h).imp fun _ _ ⟨h1, h2, h3⟩ => work_le h3 h2 h1

/-- **C231**, in total: a stream that is alone in its batches takes exactly the kernel evaluations of the ordinary convolution of the whole sequence. -/
theorem C231_alone (c : Cfg) (hv : c.Valid) (hs : c.stride ≤ c.kw) (g : List α → β) (i : String) (xs : List (ST α))
    (hx : ∀ x ∈ xs, WellPacked x ∧ Tight x.width (unpack x) ∧ ∃ y, unpack x = [y] ∧ y.id = i)
    (hc : Complete (chunksOf i (xs.map unpack))) (ys : List (ST β)) (buf : Buf α) (h : run c g (fun _ => none) xs = .ok (ys, buf)) :
    (ys.map ST.work).sum = (offline c g (collected i xs)).length := by
  rw [← (C51_streaming c hv hs g i xs hx hc ys buf h).1]
  have hsch : Schedule xs := by
    refine ⟨fun x hxm => ?_, fun j => ?_⟩
    · obtain ⟨h1, h2, y, h3, h4⟩ := hx x hxm
      exact ⟨h1, by rw [h3]; exact ⟨by simp, by simp, .inl rfl⟩, h2⟩
    · by_cases hj : j = i
      · subst hj
        exact ⟨[chunksOf j (xs.map unpack)], [], by simp, by simpa using hc, .inl rfl⟩
      · refine ⟨[], [], ?_, by simp, .inl rfl⟩
        simp only [List.flatten_nil, List.append_nil]
        unfold chunksOf
        rw [List.filter_eq_nil_iff]
        intro z hz
        obtain ⟨l, hl, hz⟩ := List.mem_flatten.1 hz
        obtain ⟨x, hxm, rfl⟩ := List.mem_map.1 hl
        obtain ⟨-, -, y, h3, h4⟩ := hx x hxm
        rw [h3, List.mem_singleton] at hz
        subst hz
        simp [h4, Ne.symm hj]
  obtain ⟨-, hwp, hfl, htt⟩ := schedule_inv hv hs hsch h
  have hone : ∀ y ∈ ys, ∃ z, unpack y = [z] ∧ z.id = i ∧ y.work = z.frames.length := by
    intro y hy
    have hm : (unpack y).map Chunk.flags ∈ ys.map fun y => (unpack y).map Chunk.flags := List.mem_map_of_mem hy
    rw [hfl] at hm
    obtain ⟨x, hxm, he⟩ := List.mem_map.1 hm
    obtain ⟨-, -, u, h3, h4⟩ := hx x hxm
    rw [h3] at he
    have hlen : (unpack y).length = 1 := by simpa using (congrArg List.length he).symm
    obtain ⟨z, hu⟩ := List.length_eq_one_iff.1 hlen
    rw [hu] at he
    simp only [List.map_cons, List.map_nil, List.cons.injEq, Chunk.flags, Prod.mk.injEq] at he
    refine ⟨z, hu, by rw [← he.1.1, h4], ?_⟩
    obtain ⟨-, -, -, -, hr⟩ := hwp y hy
    obtain ⟨z', hz', hw⟩ := htt y hy
    rw [hu] at hr hz'
    rw [List.mem_singleton] at hz'
    subst hz'
    unfold ST.work
    rw [hr, ← hw]
    simp [zeros]
  clear h hfl hwp htt
  unfold collected chunksOf
  induction ys with
  | nil => rfl
  | cons y ys ih =>
    obtain ⟨z, h1, h2, h3⟩ := hone y (by simp)
    rw [List.map_cons, List.sum_cons, ih (fun y' h' => hone y' (by simp [h'])), h3, List.map_cons, List.flatten_cons, h1]
    simp [allFrames, h2]

-- three batches of at most two sequences: `(kernel evaluations, bound)` of each call
example : (∀ x ∈ exXs, ∀ l ∈ x.md.lengths, l ≤ (x.width : Int)) ∧
    (run exC exG (fun _ => none) exXs).map (fun r => (r.1.zip exXs).map fun p => (p.1.work, p.2.rows.length * exC.positions p.2.width)) = .ok [(1, 3), (4, 4), (2, 2)] := by decide

-- a sequence of four frames in chunks of 3, 1 and 0 frames
example : Cfg.Valid ⟨2, 1, 1, 1⟩ ∧ (run ⟨2, 1, 1, 1⟩ exG (fun _ => none) exOne).map (fun r => r.1.map ST.work) = .ok [3, 1, 1] ∧
    (offline ⟨2, 1, 1, 1⟩ exG (collected "a" exOne)).length = 5 := by decide

end

section
variable {α : Type} [Zero α]

theorem layer_work (l : Layer α) (hv : ∀ c g, l = .conv c g → c.Valid) (xs : List (ST α)) (hx : ∀ x ∈ xs, Boxed x) (ys : List (ST α)) (b : Buf α)
    (h : layerRun l (fun _ => none) xs = .ok (ys, b)) :
    List.Forall₂ (fun x y => y.width ≤ widthBound [l] x.width ∧ y.rows.length ≤ x.rows.length ∧ Boxed y) xs ys := by
  cases l with
  | conv c g =>
    rw [layerRun_conv] at h
    exact run_work_from (hv c g rfl) (pre := []) rfl (fun x hxm => (hx x hxm).2) h
  | act f =>
    rw [layerRun_act] at h
    simp only [Except.ok.injEq, Prod.mk.injEq] at h
    rw [← h.1]
    clear h
    induction xs with
    | nil => exact .nil
    | cons x xs ih =>
      refine .cons ⟨le_refl _, by simp, ?_, (hx x (by simp)).2⟩ (ih fun x' h' => hx x' (by simp [h']))
      intro r hr
      obtain ⟨r', hr', rfl⟩ := List.mem_map.1 hr
      simpa using (hx x (by simp)).1 r' hr'

omit [Zero α] in
theorem widthBound_mono : ∀ (ls : List (Layer α)) {a b : Nat}, a ≤ b → widthBound ls a ≤ widthBound ls b := by
  intro ls
  induction ls with
  | nil => intro a b h; exact h
  | cons l ls ih =>
    intro a b h
    cases l with
    | conv c g => exact ih (Nat.div_le_div_right (by omega))
    | act f => exact ih h

/-- **C231** for stacks: each layer of a stack, for each call, however long the streams are already. `p` are the layers up to the one in question. -/
theorem C231_stack (ls : List (Layer α)) (hv : ∀ c g, .conv c g ∈ ls → c.Valid) (xs : List (ST α)) (hx : ∀ x ∈ xs, Shaped x)
    (zs : List (ST α)) (t : List (Layer α × Buf α)) (h : chainRun (fresh ls) xs = .ok (zs, t)) (p q : List (Layer α)) (hpq : ls = p ++ q) :
    ∃ ys t', chainRun (fresh p) xs = .ok (ys, t') ∧ List.Forall₂ (fun x y => y.work ≤ x.rows.length * widthBound p x.width) xs ys := by
  have key : ∀ (p : List (Layer α)) (xs zs : List (ST α)) (t : List (Layer α × Buf α)), (∀ c g, .conv c g ∈ p → c.Valid) → (∀ x ∈ xs, Boxed x) →
      chainRun (fresh (p ++ q)) xs = .ok (zs, t) →
      ∃ ys t', chainRun (fresh p) xs = .ok (ys, t') ∧ List.Forall₂ (fun x y => y.width ≤ widthBound p x.width ∧ y.rows.length ≤ x.rows.length ∧ Boxed y) xs ys := by
    intro p
    induction p with
    | nil =>
      intro xs zs t _ hb h0
      refine ⟨xs, [], chainRun_nil xs, ?_⟩
      clear h0 h hx
      induction xs with
      | nil => exact .nil
      | cons x xs ih => exact .cons ⟨le_refl _, le_refl _, hb x (by simp)⟩ (ih fun x' h' => hb x' (by simp [h']))
    | cons l p ih =>
      intro xs zs t hv hb h
      obtain ⟨ys, b', t', h1, h2⟩ := chainRun_cons (s := fresh (p ++ q)) h
      have hw := layer_work l (fun c g he => hv c g (by simp [he])) xs hb ys b' h1
      have hyb : ∀ y ∈ ys, Boxed y := by
        intro y hy
        obtain ⟨k, hk, rfl⟩ := List.mem_iff_getElem.1 hy
        exact (hw.get (by rw [hw.length_eq]; exact hk) hk).2.2
      obtain ⟨us, t2, h3, h4⟩ := ih ys zs t' (fun c g hm => hv c g (by simp [hm])) hyb h2
      refine ⟨us, _, chainRun_cons_ok h1 h3, ?_⟩
      clear h1 h2 h3 h hyb hb
      induction hw generalizing us with
      | nil => cases h4; exact .nil
      | cons a as ih2 =>
        cases h4 with
        | cons b bs =>
          refine .cons ⟨le_trans b.1 ?_, le_trans b.2.1 a.2.1, b.2.2⟩ (ih2 _ bs)
          have := widthBound_mono p a.1
          cases l <;> exact this
  obtain ⟨ys, t', h1, h2⟩ := key p xs zs t (fun c g hm => hv c g (by simp [hpq, hm])) (fun x hxm => ⟨(hx x hxm).2.2.1, fun l hl => ((hx x hxm).2.2.2 l hl).2⟩) (by rw [← hpq]; exact h)
  exact ⟨ys, t', h1, h2.imp fun _ _ ⟨a1, a2, a3⟩ => work_le a3 a2 a1⟩

-- two convolutions with a pointwise function between them: kernel evaluations of the last layer for each call, and the bounds
example : (∀ x ∈ exLanes.take 3, Shaped x) ∧
    (chainRun (fresh [.conv ⟨3, 1, 2, 0⟩ exG, .act (· + 1), .conv ⟨2, 1, 1, 1⟩ exG]) (exLanes.take 3)).map (fun r => r.1.map ST.work) = .ok [6, 4, 4] ∧
    (exLanes.take 3).map (fun x => x.rows.length * widthBound [.conv ⟨3, 1, 2, 0⟩ exG, .act (· + 1), .conv ⟨2, 1, 1, 1⟩ exG] x.width) = [10, 10, 10] := by
  refine ⟨?_, by decide, by decide⟩
  unfold Shaped
  decide

end
end DS.Conv
