import Verif.Spec.Damage
import Verif.Props.Unpadded
import Verif.Props.ConvValues
/-!
# C217: A damaged frame reaches only the outputs near it
-/

namespace DS.Conv

section
variable {α : Type} [Zero α]

omit [Zero α] in
theorem lt_up {n s k : Nat} (hs : 1 ≤ s) (h : k < up n s) : k * s < n := by
  unfold up at h
  have h1 := (Nat.lt_div_iff_mul_lt (by omega)).1 h
  have : s * k = k * s := Nat.mul_comm _ _
  omega

omit [Zero α] in
theorem up_le {n s k : Nat} (hs : 1 ≤ s) (h : up n s ≤ k) : n ≤ k * s := by
  unfold up at h
  by_contra hc
  have : k < (n + s - 1) / s := (Nat.lt_div_iff_mul_lt (by omega)).2 (by have : s * k = k * s := Nat.mul_comm _ _; omega)
  omega

omit [Zero α] in
theorem sameOutside_pad {p q : Nat} {x y : List α} (h : SameOutside p q x y) (a b : List α) : SameOutside (p + a.length) (q + a.length) (a ++ x ++ b) (a ++ y ++ b) := by
  refine ⟨by simp [h.1], fun k hk => ?_⟩
  rw [List.append_assoc, List.append_assoc]
  by_cases h1 : k < a.length
  · rw [List.getElem?_append_left h1, List.getElem?_append_left h1]
  · rw [List.getElem?_append_right (l₁ := a) (l₂ := x ++ b) (by omega), List.getElem?_append_right (l₁ := a) (l₂ := y ++ b) (by omega)]
    by_cases h2 : k - a.length < x.length
    · rw [List.getElem?_append_left h2, List.getElem?_append_left (by rw [← h.1]; exact h2)]
      exact h.2 _ (by omega)
    · rw [List.getElem?_append_right (by omega), List.getElem?_append_right (by rw [← h.1]; omega), h.1]

theorem conv_local {c : Cfg} (hv : c.Valid) (g : List α → α) {p q : Nat} {x y : List α} (h : SameOutside p q x y) :
    SameOutside (up (p + 1 - span c) c.stride) (up q c.stride) (conv c g x) (conv c g y) := by
  refine ⟨by rw [conv_length c hv, conv_length c hv, h.1], fun k hk => ?_⟩
  unfold conv
  rw [h.1, List.getElem?_map, List.getElem?_map]
  rw [fits_eq c hv]
  by_cases hlt : k < nOut c y.length
  · rw [List.getElem?_range hlt]
    simp only [Option.map_some, Option.some.injEq]
    unfold at'
    congr 1
    apply List.map_congr_left
    intro i hi
    rw [List.getD_eq_getElem?_getD, List.getD_eq_getElem?_getD, h.2]
    have hi' : i * c.dil ≤ (c.ks - 1) * c.dil := Nat.mul_le_mul_right _ (by have := List.mem_range.1 hi; omega)
    rcases hk with hk | hk
    · have := lt_up hv.2.2 hk
      unfold span at this
      left; omega
    · have := up_le hv.2.2 hk
      right; omega
  · rw [List.getElem?_eq_none (by simpa using hlt)]
    rfl

/-- The ordinary stack: an output that does not see the frames from `p` up to `q` does not depend on them. -/
theorem offlineChain_local (ls : List (Layer α)) (hl : ∀ c g, Layer.conv c g ∈ ls → c.Valid) {p q : Nat} {x y : List α} (h : SameOutside p q x y) :
    SameOutside (firstReached ls p) (pastReached ls q) (offlineChain ls x) (offlineChain ls y) := by
  induction ls generalizing p q x y with
  | nil => exact h
  | cons l ls ih =>
    cases l with
    | conv c g =>
      refine ih (fun c' g' h' => hl c' g' (List.mem_cons_of_mem _ h')) ?_
      have h1 := conv_local (hl c g (by simp)) g (sameOutside_pad h (zeros c.padding) (zeros c.padding))
      simp only [zeros, List.length_replicate] at h1
      exact h1
    | act f =>
      refine ih (fun c' g' h' => hl c' g' (List.mem_cons_of_mem _ h')) ⟨?_, fun k hk => ?_⟩
      · simp [Layer.offline, h.1]
      · simp only [Layer.offline, List.getElem?_map, h.2 k hk]

theorem chainStep_map {γ : Type} [Zero γ] {f : α → γ} (hf : f 0 = 0) {s : List (Layer α × Buf α)} {s' : List (Layer γ × Buf γ)} (h : StackAlong f s s') (x : ST α) :
    (∃ e, chainStep s x = .error e ∧ chainStep s' (x.map f) = .error e) ∨
      ∃ y t t', chainStep s x = .ok (y, t) ∧ chainStep s' (x.map f) = .ok (y.map f, t') ∧ StackAlong f t t' := by
  induction h generalizing x with
  | nil => exact .inr ⟨x, [], [], rfl, rfl, .nil⟩
  | @cons a a' s s' ha hs ih =>
    obtain ⟨l, b⟩ := a
    obtain ⟨l', b'⟩ := a'
    obtain ⟨h1, h2⟩ := ha
    dsimp only at h1 h2
    subst h2
    have hst := step_map hf h1 b x
    unfold chainStep
    cases hr : l.step b x with
    | error e =>
      rw [hr] at hst
      rw [hst]
      exact .inl ⟨e, rfl, rfl⟩
    | ok r =>
      obtain ⟨z, b2⟩ := r
      rw [hr] at hst
      rw [hst]
      rcases ih z with ⟨e, h3, h4⟩ | ⟨y, t, t', h3, h4, h5⟩
      · exact .inl ⟨e, by simp only [Except.bind_ok', h3]; rfl, by simp only [Except.map, Except.bind_ok', h4]; rfl⟩
      · exact .inr ⟨y, _, _, by simp only [Except.bind_ok', h3]; rfl, by simp only [Except.map, Except.bind_ok', h4]; rfl, .cons ⟨h1, rfl⟩ h5⟩

theorem chainRun_map {γ : Type} [Zero γ] {f : α → γ} (hf : f 0 = 0) {s : List (Layer α × Buf α)} {s' : List (Layer γ × Buf γ)} (h : StackAlong f s s') (xs : List (ST α)) :
    (∃ r, chainRun s xs = .ok r) ↔ ∃ r, chainRun s' (xs.map (ST.map f)) = .ok r := by
  induction xs generalizing s s' with
  | nil => exact ⟨fun _ => ⟨_, rfl⟩, fun _ => ⟨_, rfl⟩⟩
  | cons x xs ih =>
    unfold chainRun
    rcases chainStep_map hf h x with ⟨e, h3, h4⟩ | ⟨y, t, t', h3, h4, h5⟩
    · simp only [h3, List.map_cons, h4]
      constructor <;> rintro ⟨r, hr⟩ <;> cases hr
    · simp only [h3, List.map_cons, h4, Except.bind_ok']
      have hi := ih h5
      constructor
      · rintro ⟨r, hr⟩
        cases hq : chainRun t xs with
        | error e => rw [hq] at hr; cases hr
        | ok q =>
          obtain ⟨r', hr'⟩ := hi.1 ⟨_, hq⟩
          exact ⟨_, by rw [hr']; rfl⟩
      · rintro ⟨r, hr⟩
        cases hq : chainRun t' (xs.map (ST.map f)) with
        | error e => rw [hq] at hr; cases hr
        | ok q =>
          obtain ⟨r', hr'⟩ := hi.2 ⟨_, hq⟩
          exact ⟨_, by rw [hr']; rfl⟩

/-- Whether a run is refused does not depend on the values of the frames. -/
theorem chainRun_same (ls : List (Layer α)) (xs xs' : List (ST α)) (hx : List.Forall₂ SameShape xs xs') (h : ∃ r, chainRun (fresh ls) xs = .ok r) : ∃ r, chainRun (fresh ls) xs' = .ok r := by
  have e : xs.map (ST.map fun _ => (0 : Nat)) = xs'.map (ST.map fun _ => (0 : Nat)) := by
    clear h
    induction hx with
    | nil => rfl
    | cons h _ ih => rw [List.map_cons, List.map_cons, ih]; congr 1; exact blank_eq.2 h
  rw [← show newStack ls = fresh ls from rfl] at h ⊢
  rw [chainRun_map (f := fun _ => (0 : Nat)) rfl (stack_blank ls)] at h ⊢
  rw [← e]
  exact h

omit [Zero α] in
theorem flags_same {x y : ST α} (h : SameShape x y) : (unpack x).map (fun c => (c.id, c.sos, c.eos, c.index, c.frames.length)) = (unpack y).map (fun c => (c.id, c.sos, c.eos, c.index, c.frames.length)) := by
  obtain ⟨m, w, rows⟩ := x
  obtain ⟨m', w', rows'⟩ := y
  obtain ⟨h1, h2, h3⟩ := h
  dsimp only at h1 h2 h3
  subst h1 h2
  unfold unpack
  simp only [List.map_zipWith, List.length_take]
  have : ∀ (a : List Row) (l : List (List α)), List.zipWith (fun (x : Row) (y : List α) => (x.id, x.sos, x.eos, x.chunk, min x.len.toNat y.length)) a l =
      List.zipWith (fun (x : Row) (n : Nat) => (x.id, x.sos, x.eos, x.chunk, min x.len.toNat n)) a (l.map List.length) := by
    intro a l; rw [List.zipWith_map_right]
  rw [this, this, h3]

omit [Zero α] in
theorem once_same {cs cs' : List (Chunk α)} (h : cs.map (fun c => (c.sos, c.eos)) = cs'.map (fun c => (c.sos, c.eos))) (ho : Once cs) : Once cs' := by
  intro p x q e
  subst e
  rw [List.map_append, List.map_cons, List.map_eq_append_iff] at h
  obtain ⟨a, b, rfl, ha, hb⟩ := h
  obtain ⟨x', b', rfl, hx, hb'⟩ := List.map_eq_cons_iff.1 hb
  obtain ⟨h1, h2⟩ := ho a x' b' rfl
  simp only [Prod.mk.injEq] at hx
  constructor
  · intro hs
    have := h1 (by rw [hx.1]; exact hs)
    subst this
    exact List.map_eq_nil_iff.1 ha.symm
  · intro hs
    have := h2 (by rw [hx.2]; exact hs)
    subst this
    exact List.map_eq_nil_iff.1 hb'.symm

omit [Zero α] in
theorem chunks_same {xs xs' : List (ST α)} (hx : List.Forall₂ SameShape xs xs') (i : String) :
    (chunksOf i (xs.map unpack)).map (fun c => (c.id, c.sos, c.eos, c.index, c.frames.length)) = (chunksOf i (xs'.map unpack)).map (fun c => (c.id, c.sos, c.eos, c.index, c.frames.length)) := by
  unfold chunksOf
  have key : ∀ l : List (Chunk α), (l.filter fun c => decide (c.id = i)).map (fun c => (c.id, c.sos, c.eos, c.index, c.frames.length)) =
      (l.map fun c => (c.id, c.sos, c.eos, c.index, c.frames.length)).filter fun c => decide (c.1 = i) := by
    intro l; rw [List.filter_map]; rfl
  rw [key, key]
  congr 1
  induction hx with
  | nil => rfl
  | cons h _ ih => simp only [List.map_cons, List.flatten_cons, List.map_append, flags_same h, ih]

omit [Zero α] in
theorem loose_same {xs xs' : List (ST α)} (hx : List.Forall₂ SameShape xs xs') (h : Loose xs) : Loose xs' := by
  constructor
  · intro x' hx'
    obtain ⟨x, hm, hs⟩ : ∃ x ∈ xs, SameShape x x' := by
      clear h
      induction hx with
      | nil => cases hx'
      | @cons a a' _ _ ha _ ih =>
        rcases List.mem_cons.1 hx' with rfl | hx'
        · exact ⟨a, by simp, ha⟩
        · obtain ⟨x, h1, h2⟩ := ih hx'
          exact ⟨x, by simp [h1], h2⟩
    obtain ⟨⟨h1, h2, h3, h4⟩, h5, h6⟩ := h.1 x hm
    have hf := flags_same hs
    obtain ⟨e1, e2, e3⟩ := hs
    refine ⟨⟨e1 ▸ h1, ?_, ?_, ?_⟩, ?_, ?_⟩
    · have := congrArg List.length e3
      simp only [List.length_map] at this
      rw [← this, h2, e1]
    · intro r hr
      have : r.length ∈ x.rows.map List.length := by rw [e3]; exact List.mem_map_of_mem hr
      obtain ⟨r', h7, h8⟩ := List.mem_map.1 this
      rw [← h8, h3 r' h7, e2]
    · rw [← e1, ← e2]; exact h4
    · intro hn
      rw [hn] at hf
      exact h5 (List.map_eq_nil_iff.1 hf)
    · have := congrArg (List.map Prod.fst) hf
      simp only [List.map_map] at this
      have h7 : (unpack x).map (·.id) = (unpack x').map (·.id) := this
      rw [← h7]; exact h6
  · intro i
    have := congrArg (List.map fun t => (t.2.1, t.2.2.1)) (chunks_same hx i)
    simp only [List.map_map] at this
    exact once_same this (h.2 i)

/-- **C217, stacks without padding**, with strides up to the kernel widths: a run on batches of the same shapes, of which stream `i` has other frames from `p` up to `q`, is accepted as well, and gives the same frames of `i` but for those that can see the damaged frames, however long the stream goes on; streams without damage are given as they were.
Missing: padding (`C217_padded_partial`), strides above the kernel width (`C217_gap_false`). -/
theorem C217_unpadded_partial (ls : List (Layer α)) (hl : ∀ l ∈ ls, l.Bare) (xs xs' : List (ST α)) (hx : Loose xs) (hs : List.Forall₂ SameShape xs xs')
    (zs : List (ST α)) (t : List (Layer α × Buf α)) (h : chainRun (fresh ls) xs = .ok (zs, t)) :
    ∃ zs' t', chainRun (fresh ls) xs' = .ok (zs', t') ∧
      ∀ i p q, SameOutside p q (collected i xs) (collected i xs') → SameOutside (firstReached ls p) (pastReached ls q) (collected i zs) (collected i zs') ∧
        (collected i xs = collected i xs' → collected i zs = collected i zs') := by
  obtain ⟨⟨zs', t'⟩, h'⟩ := chainRun_same ls xs xs' hs ⟨_, h⟩
  refine ⟨zs', t', h', fun i p q hd => ?_⟩
  rw [C62_unpadded_partial ls hl xs hx zs t h i, C62_unpadded_partial ls hl xs' (loose_same hs hx) zs' t' h' i]
  refine ⟨offlineChain_local ls (fun c g hm => (hl _ hm).1) hd, fun e => by rw [e]⟩

/-- **C217, complete streams of stacks with padding**, followed by layers without padding: the frames of a stream are the same but for those that can see the damaged frames.
Missing: empty first or last chunks next to other rows in front of a padded layer, chunks that end inside a gap (`C217_gap_false`). -/
theorem C217_padded_partial (ls ls' : List (Layer α)) (hl : ∀ l ∈ ls, l.OK) (hl' : ∀ l ∈ ls', l.Bare) (xs xs' : List (ST α)) (hx : Schedule xs) (hx' : Schedule xs')
    (ho : ∀ i, Once (chunksOf i (xs.map unpack))) (hs : List.Forall₂ SameShape xs xs') (hf : Fine ls xs) (hf' : Fine ls xs')
    (zs : List (ST α)) (t : List (Layer α × Buf α)) (h : chainRun (fresh (ls ++ ls')) xs = .ok (zs, t)) :
    ∃ zs' t', chainRun (fresh (ls ++ ls')) xs' = .ok (zs', t') ∧
      ∀ i p q, Complete (chunksOf i (xs.map unpack)) → Complete (chunksOf i (xs'.map unpack)) → SameOutside p q (collected i xs) (collected i xs') →
        SameOutside (firstReached (ls ++ ls') p) (pastReached (ls ++ ls') q) (collected i zs) (collected i zs') := by
  obtain ⟨⟨zs', t'⟩, h'⟩ := chainRun_same (ls ++ ls') xs xs' hs ⟨_, h⟩
  have ho' : ∀ i, Once (chunksOf i (xs'.map unpack)) := by
    intro i
    have := congrArg (List.map fun t => (t.2.1, t.2.2.1)) (chunks_same hs i)
    simp only [List.map_map] at this
    exact once_same this (ho i)
  refine ⟨zs', t', h', fun i p q hc hc' hd => ?_⟩
  rw [C62_padded_first_partial ls ls' hl hl' xs hx ho hf zs t h i hc, C62_padded_first_partial ls ls' hl hl' xs' hx' ho' hf' zs' t' h' i hc']
  refine offlineChain_local _ (fun c g hm => ?_) hd
  rcases List.mem_append.1 hm with hm | hm
  · exact hl _ hm
  · exact (hl' _ hm).1

omit [Zero α] in
theorem up_mono {m n : Nat} (s : Nat) (h : m ≤ n) : up m s ≤ up n s := Nat.div_le_div_right (by omega)

omit [Zero α] in
theorem up_add {m n s : Nat} (hs : 1 ≤ s) : up (m + n) s ≤ up m s + up n s := by
  by_contra hc
  have h1 := lt_up hs (Nat.lt_of_not_le hc)
  have h2 := up_le (n := m) hs le_rfl
  have h3 := up_le (n := n) hs le_rfl
  rw [Nat.add_mul] at h1
  omega

omit [Zero α] in
theorem past_mono (ls : List (Layer α)) {m n : Nat} (h : m ≤ n) : pastReached ls m ≤ pastReached ls n := by
  induction ls generalizing m n with
  | nil => exact h
  | cons l ls ih => cases l <;> exact ih (by first | exact h | exact up_mono _ (by omega))

omit [Zero α] in
theorem count_mono (ls : List (Layer α)) {m n : Nat} (h : m ≤ n) : reachCount ls m ≤ reachCount ls n := by
  induction ls generalizing m n with
  | nil => exact h
  | cons l ls ih => cases l <;> exact ih (by first | exact h | exact up_mono _ (by omega))

omit [Zero α] in
/-- C217, how many outputs are damaged: `w` neighbouring frames reach at most `reachCount ls w` outputs, wherever they are in the stream and however long it is. Missing: what is missing from
`C217_unpadded_partial` and `C217_padded_partial`, which say that only these outputs are damaged. -/
theorem C217_few_partial (ls : List (Layer α)) (hl : ∀ c g, Layer.conv c g ∈ ls → c.Valid) (p w : Nat) : pastReached ls (p + w) - firstReached ls p ≤ reachCount ls w := by
  induction ls generalizing p w with
  | nil => simp only [pastReached, firstReached, reachCount]; omega
  | cons l ls ih =>
    have ih' := ih fun c g hm => hl c g (List.mem_cons_of_mem _ hm)
    cases l with
    | act f => exact ih' p w
    | conv c g =>
      have hv := hl c g (by simp)
      have hsp : 1 ≤ span c := by unfold span; omega
      simp only [pastReached, firstReached, reachCount]
      have h1 : up (p + w + c.padding) c.stride ≤ up (p + c.padding + 1 - span c) c.stride + up (w + span c - 1) c.stride :=
        le_trans (up_mono _ (by omega)) (up_add hv.2.2)
      refine le_trans (Nat.sub_le_sub_right (past_mono ls h1) _) (ih' _ _)

/-- Two batches of chunks of one stream, and the same with another third frame. -/
def exGap (v : Int) : List (ST Int) :=
  [ { md := ⟨["a"], [true], [false], [2], none⟩, width := 2, rows := [[1, 2]] }, { md := ⟨["a"], [false], [true], [5], none⟩, width := 5, rows := [[v, 4, 5, 6, 7]] } ]

/-- **C217 is false of the code.** Kernel 1, stride 3: frame 2 is in a gap and reaches no output of the ordinary convolution, but the first chunk ends in that gap, so that the convolution starts over with frame 2: output 1 changes with it. -/
theorem C217_gap_false : List.Forall₂ SameShape (exGap 3) (exGap 9) ∧ SameOutside 2 3 (collected "a" (exGap 3)) (collected "a" (exGap 9)) ∧
    firstReached [.conv ⟨1, 1, 3, 0⟩ (fun w : List Int => w.sum)] 2 = 1 ∧ pastReached [.conv ⟨1, 1, 3, 0⟩ (fun w : List Int => w.sum)] 3 = 1 ∧
    ((chainRun (fresh [.conv ⟨1, 1, 3, 0⟩ (fun w => w.sum)]) (exGap 3)).map fun r => collected "a" r.1) = .ok [1, 3, 6] ∧
    ((chainRun (fresh [.conv ⟨1, 1, 3, 0⟩ (fun w => w.sum)]) (exGap 9)).map fun r => collected "a" r.1) = .ok [1, 9, 6] := by
  refine ⟨.cons ⟨rfl, rfl, rfl⟩ (.cons ⟨rfl, rfl, rfl⟩ .nil), ⟨by decide, ?_⟩, by decide, by decide, by decide +kernel, by decide +kernel⟩
  intro k hk
  rw [show collected "a" (exGap 3) = [1, 2, 3, 4, 5, 6, 7] by decide, show collected "a" (exGap 9) = [1, 2, 9, 4, 5, 6, 7] by decide]
  match k, hk with
  | 0, _ => rfl
  | 1, _ => rfl
  | 2, hk => omega
  | k + 3, _ => rfl

/-- Two convolutions of width 2, the second of stride 2, and a function between them. -/
def exDamage : List (Layer Int) := [.conv ⟨2, 1, 1, 0⟩ (fun w => w.sum), .act (· + 1), .conv ⟨2, 1, 2, 0⟩ (fun w => w.sum)]

/-- As `exGap`, with a longer first chunk. -/
def exFlaw (v : Int) : List (ST Int) :=
  [ { md := ⟨["a"], [true], [false], [3], none⟩, width := 3, rows := [[1, 2, v]] }, { md := ⟨["a"], [false], [true], [4], none⟩, width := 4, rows := [[4, 5, 6, 7]] } ]

/-- The third frame reaches the first two outputs, no others, and both of them change with it. -/
example : firstReached exDamage 2 = 0 ∧ pastReached exDamage 3 = 2 ∧ reachCount exDamage 1 = 2 ∧
    ((chainRun (fresh exDamage) (exFlaw 3)).map fun r => collected "a" r.1) = .ok [10, 18, 26] ∧
    ((chainRun (fresh exDamage) (exFlaw 9)).map fun r => collected "a" r.1) = .ok [16, 24, 26] := by decide +kernel

/-- The hypotheses of `C217_unpadded_partial` hold of it. -/
example : Loose (exFlaw 3) ∧ (∀ l ∈ exDamage, l.Bare) ∧ List.Forall₂ SameShape (exFlaw 3) (exFlaw 9) := by
  refine ⟨⟨?_, ?_⟩, ?_, .cons ⟨rfl, rfl, rfl⟩ (.cons ⟨rfl, rfl, rfl⟩ .nil)⟩
  · intro x hx
    simp only [exFlaw, List.mem_cons, List.not_mem_nil, or_false] at hx
    rcases hx with rfl | rfl <;> exact ⟨by unfold Shaped; decide, by decide, by decide⟩
  · intro i
    have hl : (exFlaw 3).map unpack = [[⟨"a", true, false, none, [1, 2, 3]⟩], [⟨"a", false, true, none, [4, 5, 6, 7]⟩]] := by decide
    rw [hl]
    by_cases h : "a" = i
    · subst h
      intro p x q e
      rw [show chunksOf "a" [[(⟨"a", true, false, none, [1, 2, 3]⟩ : Chunk Int)], [⟨"a", false, true, none, [4, 5, 6, 7]⟩]] = [⟨"a", true, false, none, [1, 2, 3]⟩, ⟨"a", false, true, none, [4, 5, 6, 7]⟩] by decide] at e
      match p, e with
      | [], e => obtain ⟨rfl, rfl⟩ := List.cons.inj e; simp
      | [_], e => obtain ⟨-, e⟩ := List.cons.inj e; obtain ⟨rfl, rfl⟩ := List.cons.inj e; simp
      | _ :: _ :: p, e => simp at e
    · intro p x q e
      rw [show chunksOf i [[(⟨"a", true, false, none, [1, 2, 3]⟩ : Chunk Int)], [⟨"a", false, true, none, [4, 5, 6, 7]⟩]] = [] by simp [chunksOf, h]] at e
      simp at e
  · intro l hl
    simp only [exDamage, List.mem_cons, List.not_mem_nil, or_false] at hl
    rcases hl with rfl | rfl | rfl
    · exact ⟨by decide, by decide, rfl⟩
    · trivial
    · exact ⟨by decide, by decide, rfl⟩

/-- A padded convolution before another one: the schedules are as `C217_padded_partial` wants them, and the third frame reaches outputs 1 to 3, and all of them change with it. -/
example : Schedule (exFlaw 3) ∧ Fine [.conv ⟨2, 1, 1, 1⟩ (fun w : List Int => w.sum)] (exFlaw 3) ∧ Complete (chunksOf "a" ((exFlaw 3).map unpack)) ∧
    firstReached [.conv ⟨2, 1, 1, 1⟩ (fun w : List Int => w.sum), .conv ⟨2, 1, 1, 0⟩ (fun w => w.sum)] 2 = 1 ∧ pastReached [.conv ⟨2, 1, 1, 1⟩ (fun w : List Int => w.sum), .conv ⟨2, 1, 1, 0⟩ (fun w => w.sum)] 3 = 4 ∧
    ((chainRun (fresh [.conv ⟨2, 1, 1, 1⟩ (fun w => w.sum), .conv ⟨2, 1, 1, 0⟩ (fun w => w.sum)]) (exFlaw 3)).map fun r => collected "a" r.1) = .ok [4, 8, 12, 16, 20, 24, 20] ∧
    ((chainRun (fresh [.conv ⟨2, 1, 1, 1⟩ (fun w => w.sum), .conv ⟨2, 1, 1, 0⟩ (fun w => w.sum)]) (exFlaw 9)).map fun r => collected "a" r.1) = .ok [4, 14, 24, 22, 20, 24, 20] := by
  refine ⟨⟨by decide, ?_⟩, ⟨by decide, dense_clear (l := .conv ⟨2, 1, 1, 1⟩ (fun w : List Int => w.sum)) (by decide : (⟨2, 1, 1, 1⟩ : Cfg).Valid) (by decide : (⟨2, 1, 1, 1⟩ : Cfg).stride ≤ span (⟨2, 1, 1, 1⟩ : Cfg)) _, fun _ _ _ => trivial⟩, by decide,
    by decide, by decide, by decide +kernel, by decide +kernel⟩
  intro i
  by_cases ha : "a" = i
  · subst ha
    exact ⟨[[⟨"a", true, false, none, [1, 2, 3]⟩, ⟨"a", false, true, none, [4, 5, 6, 7]⟩]], [], by decide⟩
  · refine ⟨[], [], ?_⟩
    have hl : (exFlaw 3).map unpack = [[⟨"a", true, false, none, [1, 2, 3]⟩], [⟨"a", false, true, none, [4, 5, 6, 7]⟩]] := by decide
    rw [hl, show chunksOf i [[(⟨"a", true, false, none, [1, 2, 3]⟩ : Chunk Int)], [⟨"a", false, true, none, [4, 5, 6, 7]⟩]] = [] by simp [chunksOf, ha]]
    exact ⟨rfl, by simp, .inl rfl⟩

end
end DS.Conv
