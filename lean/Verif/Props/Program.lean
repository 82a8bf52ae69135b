import Verif.Spec.Program
import Verif.Props.ConvMem
import Verif.Props.ConvMore
/-!
# Programs over several StreamTensors
-/

namespace DS.Conv
open Meta
section
variable {α : Type} [Zero α]

theorem getD_snoc {l : List Nat} {a k : Nat} (h : k < l.length) : (l ++ [a]).getD k 0 = l.getD k 0 := by
  simp [List.getD, List.getElem?_append_left h]

theorem getD_last (l : List Nat) (a : Nat) : (l ++ [a]).getD l.length 0 = a := by
  simp [List.getD]

/-! ### C167 -/

/-- **C167 is false of the code.** After `y = relu(x); z = conv(y)` the lengths of `x` (and `y`) are those of `z`, although `x` was never given to the convolution. -/
theorem C167_others_false :
    ∃ (ms : Modules Int) (x : ST Int) (s : MState Int),
      (MState.load [x] (fun _ _ => none)).run ms [.unary (fun v => max v 0) 0, .conv 0 1] = .ok s ∧
      x.md.lengths = [3] ∧ (s.get 0).map (·.md.lengths) = some [2] ∧ (s.get 0).map (·.width) = some 3 :=
  ⟨fun _ => (⟨2, 1, 1, 0⟩, fun w => w.foldl (· + ·) 0), { md := ⟨["a"], [true], [false], [3], none⟩, width := 3, rows := [[1, -2, 3]] }, _, rfl, by decide⟩

/-- C167 for `x.clone()`, `x.detach()` and the like: they copy or share the frames, but give the metadata object of `x` to their result (tensor.py:830-832). After `y = x.clone(); z = conv(y)` the lengths of `x` are those of `z`: cloning a chunk does not protect it. -/
theorem C167_clone_false :
    ∃ (ms : Modules Int) (x : ST Int) (s : MState Int),
      (MState.load [x] (fun _ _ => none)).run ms [.unary id 0, .conv 0 1] = .ok s ∧ x.md.lengths = [3] ∧ (s.get 0).map (·.md.lengths) = some [2] ∧ (s.get 0).map (·.rows) = some x.rows :=
  ⟨fun _ => (⟨2, 1, 1, 0⟩, fun w => w.foldl (· + ·) 0), { md := ⟨["a"], [true], [false], [3], none⟩, width := 3, rows := [[1, -2, 3]] }, _, rfl, by decide⟩

/-- C167, what happens exactly: elementwise functions change no variable. A convolution changes no frames of variables other than its argument, and it changes the metadata of a variable if and only if the variable
shares its metadata object with the argument and the kernel is one frame wide or all sequences start; the metadata are then those of the output. Missing: variables that share the metadata object, for which the property fails. -/
theorem C167_others_partial (ms : Modules α) (s s' : MState α) (p : Ins α) (h : s.step ms p = .ok s') :
    (∀ f i, p = .unary f i → ∀ k, k < s.vars.length → s'.get k = s.get k) ∧
    (∀ f i j, p = .binary f i j → ∀ k, k < s.vars.length → s'.get k = s.get k) ∧
    (∀ m i, p = .conv m i → (∀ v ∈ s.vars, v.ref < s.next) → ∃ v o, s.vars[i]? = some v ∧ forward (ms m).1 (ms m).2 (s.bufs m) (s.see v) = .ok o ∧
      s'.get s.vars.length = some o.y ∧ ∀ k w, s.vars[k]? = some w →
        (∃ y, s'.get k = some y ∧ y.width = w.width ∧ (k ≠ i → y.rows = w.rows) ∧
          (w.ref = v.ref ∧ ((ms m).1.kw ≤ 1 ∨ ∀ b ∈ (s.see v).md.sos, b = true) → y.md = o.y.md) ∧
          (¬ (w.ref = v.ref ∧ ((ms m).1.kw ≤ 1 ∨ ∀ b ∈ (s.see v).md.sos, b = true)) → y.md = (s.see w).md))) := by
  refine ⟨?_, ?_, ?_⟩
  · rintro f i rfl k hk
    simp only [MState.step] at h
    cases hv : s.vars[i]? with
    | none => rw [hv] at h; simp at h
    | some v =>
      rw [hv] at h
      simp only [Except.ok.injEq] at h
      subst h
      unfold MState.get
      rw [List.getElem?_append_left hk]
      rfl
  · rintro f i j rfl k hk
    simp only [MState.step] at h
    cases hv : s.vars[i]? with
    | none => rw [hv] at h; simp at h
    | some v =>
      cases hw : s.vars[j]? with
      | none => rw [hv, hw] at h; simp at h
      | some w =>
        rw [hv, hw] at h
        obtain ⟨z, -, h⟩ := bind_ok_iff h
        simp only [Except.ok.injEq] at h
        subst h
        unfold MState.get
        rw [List.getElem?_append_left hk]
        rfl
  · rintro m i rfl href
    simp only [MState.step] at h
    cases hv : s.vars[i]? with
    | none => rw [hv] at h; simp at h
    | some v =>
      rw [hv] at h
      obtain ⟨o, ho, h⟩ := bind_ok_iff h
      refine ⟨v, o, rfl, ho, ?_⟩
      have hall : (s.see v).md.allStarting = true ↔ ∀ b ∈ (s.see v).md.sos, b = true := by simp [allStarting]
      have hvar : ∀ k w, s.vars[k]? = some w → ∃ w', (s.vars.set i { v with rows := forwardRowsAfter (ms m).1 (s.see v) })[k]? = some w' ∧ w'.ref = w.ref ∧ w'.width = w.width ∧ (k ≠ i → w'.rows = w.rows) := by
        intro k w hw
        by_cases hk : k = i
        · subst hk
          rw [hv] at hw
          simp only [Option.some.injEq] at hw
          subst hw
          refine ⟨{ v with rows := forwardRowsAfter (ms m).1 (s.see v) }, ?_, rfl, rfl, fun hn => absurd rfl hn⟩
          rw [List.getElem?_set_self (List.getElem?_eq_some_iff.1 hv).1]
        · exact ⟨w, by rw [List.getElem?_set_ne (Ne.symm hk)]; exact hw, rfl, rfl, fun _ => rfl⟩
      by_cases hc : (ms m).1.kw > 1 ∧ (s.see v).md.allStarting = false
      · rw [if_pos hc] at h
        simp only [Except.ok.injEq] at h
        subst h
        have hno : ¬ ((ms m).1.kw ≤ 1 ∨ ∀ b ∈ (s.see v).md.sos, b = true) := by
          rw [← hall, hc.2]
          intro hh
          rcases hh with hh | hh
          · omega
          · exact absurd hh (by simp)
        refine ⟨?_, ?_⟩
        · unfold MState.get MState.see
          rw [List.getElem?_append_right (by simp)]
          simp
        · intro k w hw
          obtain ⟨w', h1, h2, h3, h4⟩ := hvar k w hw
          have hk : k < s.vars.length := (List.getElem?_eq_some_iff.1 hw).1
          refine ⟨_, by unfold MState.get; dsimp only; rw [List.getElem?_append_left (by simpa using hk), h1]; rfl, h3, h4, ?_, ?_⟩
          · exact fun hh => absurd hh.2 hno
          · intro _
            dsimp only [MState.see]
            rw [h2, if_neg]
            have := href w (List.mem_of_getElem? hw)
            omega
      · rw [if_neg hc] at h
        simp only [Except.ok.injEq] at h
        subst h
        have hyes : (ms m).1.kw ≤ 1 ∨ ∀ b ∈ (s.see v).md.sos, b = true := by
          rw [← hall]
          by_cases hk : (ms m).1.kw ≤ 1
          · exact .inl hk
          · right
            cases hh : (s.see v).md.allStarting with
            | true => rfl
            | false => exact absurd ⟨by omega, hh⟩ hc
        refine ⟨?_, ?_⟩
        · unfold MState.get MState.see
          rw [List.getElem?_append_right (by simp)]
          simp
        · intro k w hw
          obtain ⟨w', h1, h2, h3, h4⟩ := hvar k w hw
          have hk : k < s.vars.length := (List.getElem?_eq_some_iff.1 hw).1
          refine ⟨_, by unfold MState.get; dsimp only; rw [List.getElem?_append_left (by simpa using hk), h1]; rfl, h3, h4, ?_, ?_⟩
          · intro hh
            dsimp only [MState.see]
            rw [h2, if_pos hh.1]
          · intro hh
            dsimp only [MState.see]
            rw [h2, if_neg]
            exact fun he => hh ⟨he, hyes⟩

/-! ### C168 -/

/-- The two semantics agree on the variables that are not spent; variables that share an object are of one family. -/
structure Sim (kin spent : List Nat) (s : MState α) (p : PState α) : Prop where
  len : s.vars.length = kin.length
  len' : p.vals.length = kin.length
  bufs : s.bufs = p.bufs
  same : ∀ k, k ∉ spent → s.get k = p.vals[k]?
  fam : ∀ k k' (v v' : Var α), s.vars[k]? = some v → s.vars[k']? = some v' → k ∉ spent → k' ∉ spent → v.ref = v'.ref → kin.getD k 0 = kin.getD k' 0
  fresh : ∀ v ∈ s.vars, v.ref < s.next
  old : ∀ k ∈ spent, k < kin.length

theorem Sim.see {kin spent : List Nat} {s : MState α} {p : PState α} (h : Sim kin spent s p) {i : Nat} (hi : i ∉ spent) :
    p.vals[i]? = s.vars[i]?.map s.see := (h.same i hi).symm

/-- Adding a variable with the object of variable `i`. -/
theorem Sim.push {kin spent : List Nat} {s : MState α} {p : PState α} (h : Sim kin spent s p) {i : Nat} {v : Var α} (hi : i ∉ spent) (hv : s.vars[i]? = some v) (w : Nat) (rows : List (List α)) :
    Sim (kin ++ [kin.getD i 0]) spent { s with vars := s.vars ++ [⟨v.ref, w, rows⟩] } { p with vals := p.vals ++ [{ md := s.heap v.ref, width := w, rows }] } := by
  have hil : i < kin.length := by rw [← h.len]; exact (List.getElem?_eq_some_iff.1 hv).1
  refine ⟨by simp [h.len], by simp [h.len'], h.bufs, ?_, ?_, ?_, ?_⟩
  · intro k hk
    unfold MState.get
    by_cases hkl : k < s.vars.length
    · rw [List.getElem?_append_left hkl, List.getElem?_append_left (by rw [h.len', ← h.len]; exact hkl)]
      exact h.same k hk
    · rw [List.getElem?_append_right (by omega), List.getElem?_append_right (by rw [h.len', ← h.len]; omega), h.len, h.len']
      by_cases hz : k - kin.length = 0
      · rw [hz]; rfl
      · rw [List.getElem?_eq_none (by simp; omega), List.getElem?_eq_none (by simp; omega)]
        rfl
  · -- the family of a variable of the new state, seen in the old one
    have key : ∀ k u, (s.vars ++ [⟨v.ref, w, rows⟩])[k]? = some u → k ∉ spent →
        ∃ k₀ u₀, s.vars[k₀]? = some u₀ ∧ k₀ ∉ spent ∧ u₀.ref = u.ref ∧ (kin ++ [kin.getD i 0]).getD k 0 = kin.getD k₀ 0 := by
      intro k u hu hk
      by_cases hkl : k < s.vars.length
      · rw [List.getElem?_append_left hkl] at hu
        refine ⟨k, u, hu, hk, rfl, ?_⟩
        exact getD_snoc (by rw [← h.len]; exact hkl)
      · rw [List.getElem?_append_right (by omega)] at hu
        have hz : k = s.vars.length := by
          have := (List.getElem?_eq_some_iff.1 hu).1
          simp at this
          omega
        subst hz
        simp at hu
        subst hu
        refine ⟨i, v, hv, hi, rfl, ?_⟩
        rw [h.len]
        exact getD_last _ _
    intro k k' u u' hu hu' hk hk' href
    obtain ⟨k₀, u₀, a1, a2, a3, a4⟩ := key k u hu hk
    obtain ⟨k₁, u₁, b1, b2, b3, b4⟩ := key k' u' hu' hk'
    rw [a4, b4]
    exact h.fam k₀ k₁ u₀ u₁ a1 b1 a2 b2 (by rw [a3, b3, href])
  · intro u hu
    rcases List.mem_append.1 hu with hu | hu
    · exact h.fresh u hu
    · simp at hu
      subst hu
      exact h.fresh v (List.mem_of_getElem? hv)
  · intro k hk
    have := h.old k hk
    simp
    omega

theorem sim_step (ms : Modules α) {kin spent : List Nat} {s : MState α} {p : PState α} (h : Sim kin spent s p) (q : Ins α) (ps : List (Ins α)) (hs : Safe kin spent (q :: ps)) :
    (∃ e, s.step ms q = .error e ∧ p.step ms q = .error e) ∨
    (∃ s' p' kin' spent', s.step ms q = .ok s' ∧ p.step ms q = .ok p' ∧ Sim kin' spent' s' p' ∧ Safe kin' spent' ps ∧ spentAfter kin spent (q :: ps) = spentAfter kin' spent' ps) := by
  cases q with
  | unary f i =>
    obtain ⟨hi, hs⟩ := hs
    simp only [MState.step, PState.step]
    rw [h.see hi]
    cases hv : s.vars[i]? with
    | none => exact .inl ⟨_, rfl, rfl⟩
    | some v => exact .inr ⟨_, _, _, _, rfl, rfl, h.push hi hv _ _, hs, rfl⟩
  | binary f i j =>
    obtain ⟨hi, hj, hs⟩ := hs
    simp only [MState.step, PState.step]
    rw [h.see hi, h.see hj]
    cases hv : s.vars[i]? with
    | none => exact .inl ⟨_, rfl, rfl⟩
    | some v =>
      cases hw : s.vars[j]? with
      | none => exact .inl ⟨_, rfl, rfl⟩
      | some w =>
        simp only [Option.map_some]
        cases hz : addST f (s.see v) (s.see w) with
        | error e => exact .inl ⟨e, by rw [Except.bind_error'], by rw [Except.bind_error']⟩
        | ok z =>
          refine .inr ⟨_, _, _, _, by rw [Except.bind_ok'], by rw [Except.bind_ok'], ?_, hs, rfl⟩
          have hmd : z.md = s.heap v.ref := by
            unfold addST at hz
            split at hz
            · obtain ⟨same, -, hz⟩ := bind_ok_iff hz
              split at hz
              · simp only [Except.ok.injEq] at hz
                rw [← hz]
                rfl
              · simp at hz
            · simp at hz
          have := h.push hi hv z.width z.rows
          rw [← hmd] at this
          exact this
  | conv m i =>
    obtain ⟨hi, hs⟩ := hs
    simp only [MState.step, PState.step]
    rw [h.see hi, ← h.bufs]
    cases hv : s.vars[i]? with
    | none => exact .inl ⟨_, rfl, rfl⟩
    | some v =>
      simp only [Option.map_some]
      cases ho : forward (ms m).1 (ms m).2 (s.bufs m) (s.see v) with
      | error e => exact .inl ⟨e, by rw [Except.bind_error'], by rw [Except.bind_error']⟩
      | ok o =>
        rw [Except.bind_ok', Except.bind_ok']
        have hil : i < kin.length := by rw [← h.len]; exact (List.getElem?_eq_some_iff.1 hv).1
        have hilv : i < s.vars.length := (List.getElem?_eq_some_iff.1 hv).1
        -- what is not spent afterwards: the result and the old variables of other families
        have hns : ∀ k, k ∉ spent ++ (List.range kin.length).filter (fun k => kin.getD k 0 == kin.getD i 0) → k < kin.length → k ∉ spent ∧ kin.getD k 0 ≠ kin.getD i 0 ∧ k ≠ i := by
          intro k hk hkl
          simp only [List.mem_append, List.mem_filter, List.mem_range, beq_iff_eq, not_or, not_and] at hk
          refine ⟨hk.1, hk.2 hkl, ?_⟩
          intro he
          exact hk.2 hkl (by rw [he])
        -- both cases at once: the object written is new or the argument's
        have key : ∀ (r next' : Nat), (r = v.ref ∧ next' = s.next) ∨ (r = s.next ∧ next' = s.next + 1) →
            Sim (kin ++ [kin.getD i 0]) (spent ++ (List.range kin.length).filter fun k => kin.getD k 0 == kin.getD i 0)
              { heap := fun k => if k = r then o.y.md else s.heap k, next := next',
                vars := s.vars.set i { v with rows := forwardRowsAfter (ms m).1 (s.see v) } ++ [⟨r, o.y.width, o.y.rows⟩], bufs := fun k => if k = m then o.buf else s.bufs k }
              { vals := p.vals ++ [o.y], bufs := fun k => if k = m then o.buf else s.bufs k } := by
          intro r next' hr
          have hrn : ∀ k u, k < kin.length → k ∉ spent → kin.getD k 0 ≠ kin.getD i 0 → s.vars[k]? = some u → u.ref ≠ r := by
            intro k u hkl hk hf hu he
            rcases hr with ⟨rfl, -⟩ | ⟨rfl, -⟩
            · exact hf (h.fam k i u v hu hv hk hi he)
            · have := h.fresh u (List.mem_of_getElem? hu)
              omega
          refine ⟨by simp [h.len], by simp [h.len'], rfl, ?_, ?_, ?_, ?_⟩
          · intro k hk
            unfold MState.get
            by_cases hkl : k < kin.length
            · obtain ⟨k1, k2, k3⟩ := hns k hk hkl
              dsimp only
              rw [List.getElem?_append_left (by rw [List.length_set, h.len]; exact hkl), List.getElem?_append_left (by rw [h.len']; exact hkl),
                List.getElem?_set_ne (Ne.symm k3), h.see k1]
              cases hu : s.vars[k]? with
              | none => rfl
              | some u =>
                simp only [Option.map_some, MState.see, Option.some.injEq]
                rw [if_neg (hrn k u hkl k1 k2 hu)]
            · dsimp only
              rw [List.getElem?_append_right (by rw [List.length_set, h.len]; omega), List.getElem?_append_right (by rw [h.len']; omega), List.length_set, h.len, h.len']
              by_cases hz : k - kin.length = 0
              · rw [hz]
                simp [MState.see]
              · rw [List.getElem?_eq_none (by simp; omega), List.getElem?_eq_none (by simp; omega)]
                rfl
          · intro k k' u u' hu hu' hk hk' href
            dsimp only at hu hu'
            have split1 : ∀ k u, (s.vars.set i { v with rows := forwardRowsAfter (ms m).1 (s.see v) } ++ [⟨r, o.y.width, o.y.rows⟩])[k]? = some u →
                k ∉ spent ++ (List.range kin.length).filter (fun k => kin.getD k 0 == kin.getD i 0) →
                (k = kin.length ∧ u.ref = r) ∨ (k < kin.length ∧ s.vars[k]? = some u ∧ k ∉ spent ∧ kin.getD k 0 ≠ kin.getD i 0) := by
              intro k u hu hk
              by_cases hkl : k < kin.length
              · obtain ⟨k1, k2, k3⟩ := hns k hk hkl
                rw [List.getElem?_append_left (by rw [List.length_set, h.len]; exact hkl), List.getElem?_set_ne (Ne.symm k3)] at hu
                exact .inr ⟨hkl, hu, k1, k2⟩
              · rw [List.getElem?_append_right (by rw [List.length_set, h.len]; omega), List.length_set, h.len] at hu
                have := (List.getElem?_eq_some_iff.1 hu).1
                simp at this
                have hz : k = kin.length := by omega
                subst hz
                simp at hu
                subst hu
                exact .inl ⟨rfl, rfl⟩
            have hgl : ∀ k, k < kin.length → (kin ++ [kin.getD i 0]).getD k 0 = kin.getD k 0 := fun k hkl => getD_snoc hkl
            rcases split1 k u hu hk with ⟨rfl, e1⟩ | ⟨e1, e2, e3, e4⟩
            · rcases split1 k' u' hu' hk' with ⟨rfl, -⟩ | ⟨f1, f2, f3, f4⟩
              · rfl
              · exact absurd (href.symm.trans e1) (hrn k' u' f1 f3 f4 f2)
            · rcases split1 k' u' hu' hk' with ⟨rfl, f1⟩ | ⟨f1, f2, f3, f4⟩
              · exact absurd (href.trans f1) (hrn k u e1 e3 e4 e2)
              · rw [hgl k e1, hgl k' f1]
                exact h.fam k k' u u' e2 f2 e3 f3 href
          · intro u hu
            have hle : s.next ≤ next' ∧ r < next' := by
              rcases hr with ⟨rfl, rfl⟩ | ⟨rfl, rfl⟩
              · exact ⟨Nat.le_refl _, h.fresh v (List.mem_of_getElem? hv)⟩
              · omega
            dsimp only at hu ⊢
            rcases List.mem_append.1 hu with hu | hu
            · rcases List.mem_or_eq_of_mem_set hu with hu | rfl
              · have := h.fresh u hu
                omega
              · have := h.fresh v (List.mem_of_getElem? hv)
                dsimp only
                omega
            · simp at hu
              subst hu
              exact hle.2
          · intro k hk
            simp only [List.mem_append, List.mem_filter, List.mem_range] at hk
            rw [List.length_append]
            rcases hk with hk | hk
            · have := h.old k hk
              omega
            · omega
        split
        · exact .inr ⟨_, _, _, _, rfl, rfl, key s.next (s.next + 1) (.inr ⟨rfl, rfl⟩), hs, rfl⟩
        · exact .inr ⟨_, _, _, _, rfl, rfl, key v.ref s.next (.inl ⟨rfl, rfl⟩), hs, rfl⟩

theorem sim_run (ms : Modules α) (ps : List (Ins α)) {kin spent : List Nat} {s : MState α} {p : PState α} (h : Sim kin spent s p) (hs : Safe kin spent ps) :
    (∃ e, s.run ms ps = .error e ∧ p.run ms ps = .error e) ∨
    (∃ s' p', s.run ms ps = .ok s' ∧ p.run ms ps = .ok p' ∧ s'.bufs = p'.bufs ∧ ∀ k, k ∉ spentAfter kin spent ps → s'.get k = p'.vals[k]?) := by
  induction ps generalizing kin spent s p with
  | nil => exact .inr ⟨s, p, rfl, rfl, h.bufs, h.same⟩
  | cons q ps ih =>
    rcases sim_step ms h q ps hs with ⟨e, h1, h2⟩ | ⟨s1, p1, kin1, spent1, h1, h2, h3, h4, h5⟩
    · exact .inl ⟨e, by simp only [MState.run, h1, Except.bind_error'], by simp only [PState.run, h2, Except.bind_error']⟩
    · simp only [MState.run, PState.run, h1, h2, Except.bind_ok', h5]
      exact ih h3 h4

theorem sim_load (xs : List (ST α)) (bufs : Nat → Buf α) : Sim (List.range xs.length) [] (MState.load xs bufs) { vals := xs, bufs } := by
  refine ⟨by simp [MState.load], by simp, rfl, ?_, ?_, ?_, by simp⟩
  · intro k _
    unfold MState.get MState.load MState.see
    simp only [List.getElem?_mapIdx, Option.map_map]
    cases hk : xs[k]? with
    | none => rfl
    | some x => simp [hk]
  · intro k k' v v' hv hv' _ _ href
    simp only [MState.load, List.getElem?_mapIdx, Option.map_eq_some_iff] at hv hv'
    obtain ⟨x, -, rfl⟩ := hv
    obtain ⟨x', -, rfl⟩ := hv'
    dsimp only at href
    rw [href]
  · intro v hv
    simp only [MState.load, List.mem_mapIdx] at hv ⊢
    obtain ⟨k, hk, rfl⟩ := hv
    exact hk

/-- The example: `w = relu(x)`, `conv(w)`, and then `x` again. -/
def exRelu : List (Ins Int) := [.unary (fun v => max v 0) 0, .conv 0 1, .unary (fun v => v) 0]

/-- Kernel 2, sums. -/
def exMods : Modules Int := fun _ => (⟨2, 1, 1, 0⟩, fun w => w.foldl (· + ·) 0)

/-- **C168 is false of the code.** With immutable metadata the last variable would have length 3. -/
theorem C168_programs_false :
    ∃ (x : ST Int) (s : MState Int) (p : PState Int), (MState.load [x] (fun _ _ => none)).run exMods exRelu = .ok s ∧
      (PState.mk [x] (fun _ _ => none)).run exMods exRelu = .ok p ∧ (s.get 3).map (·.md.lengths) = some [2] ∧ p.vals[3]?.map (·.md.lengths) = some [3] :=
  ⟨{ md := ⟨["a"], [true], [false], [3], none⟩, width := 3, rows := [[1, -2, 3]] }, _, _, rfl, rfl, by decide, by decide⟩

/-- C168, what holds: if after a convolution no variable of the family of its argument (the variables from which or with which the argument was computed elementwise) is used again, except through the result,
the program raises the same exception, or leaves the same values in all variables that are not spent and the same `stream_buffer`s, as with immutable StreamTensors.
Missing: programs that use a tensor of such a family again (residual connections, C159). -/
theorem C168_programs_partial (ms : Modules α) (xs : List (ST α)) (bufs : Nat → Buf α) (ps : List (Ins α)) (h : Safe (List.range xs.length) [] ps) :
    (∀ e, (MState.load xs bufs).run ms ps = .error e ↔ (PState.mk xs bufs).run ms ps = .error e) ∧
    ∀ s, (MState.load xs bufs).run ms ps = .ok s → ∃ p, (PState.mk xs bufs).run ms ps = .ok p ∧ s.bufs = p.bufs ∧
      ∀ k, k ∉ spentAfter (List.range xs.length) [] ps → s.get k = p.vals[k]? := by
  rcases sim_run ms ps (sim_load xs bufs) h with ⟨e, h1, h2⟩ | ⟨s, p, h1, h2, h3, h4⟩
  · refine ⟨fun e' => by rw [h1, h2]; simp, fun s hs => ?_⟩
    rw [h1] at hs
    simp at hs
  · refine ⟨fun e' => by rw [h1, h2]; simp, fun s' hs => ⟨p, h2, ?_⟩⟩
    rw [h1] at hs
    simp only [Except.ok.injEq] at hs
    subst hs
    exact ⟨h3, h4⟩

omit [Zero α] in
theorem args_first (f : α → α → α) (i j : Nat) : i ∈ (Ins.binary f i j).args := by
  simp only [Ins.args]
  split <;> simp

omit [Zero α] in
theorem args_second (f : α → α → α) (i j : Nat) : j ∈ (Ins.binary f i j).args := by
  simp only [Ins.args]
  split
  · rename_i h; simp [h]
  · simp

omit [Zero α] in
theorem safe_linear (ps : List (Ins α)) {kin spent used : List Nat} (h1 : ∀ k ∈ spent, k ∈ used)
    (h2 : ∀ k k', k < kin.length → k' < kin.length → k ∉ used → k' ∉ used → kin.getD k 0 = kin.getD k' 0 → k = k')
    (h3 : (ps.flatMap Ins.args).Nodup) (h4 : ∀ k ∈ ps.flatMap Ins.args, k ∉ used) (h5 : Defined kin.length ps) :
    Safe kin spent ps ∧ ∀ k ∈ spentAfter kin spent ps, k ∈ used ++ ps.flatMap Ins.args := by
  induction ps generalizing kin spent used with
  | nil => exact ⟨trivial, fun k hk => by simpa using h1 k hk⟩
  | cons q ps ih =>
    rw [List.flatMap_cons, List.nodup_append] at h3
    obtain ⟨n1, n2, n3⟩ := h3
    obtain ⟨d1, d2⟩ := h5
    have hun : ∀ i ∈ q.args, i ∉ used := fun i hi => h4 i (by rw [List.flatMap_cons]; exact List.mem_append_left _ hi)
    -- an older variable of the family of `i` is used
    have hold : ∀ i ∈ q.args, ∀ k, k < kin.length → kin.getD k 0 = kin.getD i 0 → k ∈ used ++ q.args := by
      intro i hi k hkl he
      by_cases hk : k ∈ used
      · exact List.mem_append_left _ hk
      · have := h2 k i hkl (d1 i hi) hk (hun i hi) he
        rw [this]
        exact List.mem_append_right _ hi
    -- one statement whose result is of the family of `i`
    have key : ∀ (i : Nat) (spent' : List Nat), i ∈ q.args → (∀ k ∈ spent', k ∈ used ++ q.args) →
        Safe (kin ++ [kin.getD i 0]) spent' ps ∧ ∀ k ∈ spentAfter (kin ++ [kin.getD i 0]) spent' ps, k ∈ used ++ (q :: ps).flatMap Ins.args := by
      intro i spent' hi hsp
      have := ih (kin := kin ++ [kin.getD i 0]) (spent := spent') (used := used ++ q.args) hsp ?_ n2 ?_ (by simpa using d2)
      · refine ⟨this.1, fun k hk => ?_⟩
        have := this.2 k hk
        rw [List.flatMap_cons, ← List.append_assoc]
        exact this
      · intro k k' hk hk' hu hu' he
        simp only [List.length_append, List.length_singleton] at hk hk'
        by_cases hkl : k < kin.length
        · rw [getD_snoc hkl] at he
          by_cases hkl' : k' < kin.length
          · rw [getD_snoc hkl'] at he
            simp only [List.mem_append, not_or] at hu hu'
            exact h2 k k' hkl hkl' hu.1 hu'.1 he
          · have hz : k' = kin.length := by omega
            rw [hz, getD_last] at he
            exact absurd (hold i hi k hkl he) hu
        · have hz : k = kin.length := by omega
          rw [hz, getD_last] at he
          by_cases hkl' : k' < kin.length
          · rw [getD_snoc hkl'] at he
            exact absurd (hold i hi k' hkl' he.symm) hu'
          · omega
      · intro k hk
        simp only [List.mem_append, not_or]
        refine ⟨h4 k (by rw [List.flatMap_cons]; exact List.mem_append_right _ hk), fun hq => n3 k hq k hk rfl⟩
    have hsp : ∀ k ∈ spent, k ∈ used ++ q.args := fun k hk => List.mem_append_left _ (h1 k hk)
    cases q with
    | unary f i =>
      obtain ⟨a, b⟩ := key i spent (by simp [Ins.args]) hsp
      exact ⟨⟨fun hi => hun i (by simp [Ins.args]) (h1 i hi), a⟩, b⟩
    | binary f i j =>
      have hi' := args_first f i j
      have hj' := args_second f i j
      obtain ⟨a, b⟩ := key i spent hi' hsp
      exact ⟨⟨fun hi => hun i hi' (h1 i hi), fun hj => hun j hj' (h1 j hj), a⟩, b⟩
    | conv m i =>
      obtain ⟨a, b⟩ := key i (spent ++ (List.range kin.length).filter fun k => kin.getD k 0 == kin.getD i 0) (by simp [Ins.args]) (by
        intro k hk
        rcases List.mem_append.1 hk with hk | hk
        · exact hsp k hk
        · simp only [List.mem_filter, List.mem_range, beq_iff_eq] at hk
          exact hold i (by simp [Ins.args]) k hk.1 hk.2)
      exact ⟨⟨fun hi => hun i (by simp [Ins.args]) (h1 i hi), a⟩, b⟩

/-- C168 for straight-line programs, such as stacks of layers: if every tensor is used by at most one statement, the program does what it does with immutable StreamTensors, and all tensors that were not used
have the same values. Missing: tensors that several statements use (`C168_programs_false`). -/
theorem C168_linear_partial (ms : Modules α) (xs : List (ST α)) (bufs : Nat → Buf α) (ps : List (Ins α)) (h : (ps.flatMap Ins.args).Nodup) (hd : Defined xs.length ps) :
    (∀ e, (MState.load xs bufs).run ms ps = .error e ↔ (PState.mk xs bufs).run ms ps = .error e) ∧
    ∀ s, (MState.load xs bufs).run ms ps = .ok s → ∃ p, (PState.mk xs bufs).run ms ps = .ok p ∧ s.bufs = p.bufs ∧
      ∀ k, k ∉ ps.flatMap Ins.args → s.get k = p.vals[k]? := by
  obtain ⟨h1, h2⟩ := safe_linear ps (kin := List.range xs.length) (spent := []) (used := []) (by simp)
    (by
      intro k k' hk hk' _ _ he
      simp only [List.length_range] at hk hk'
      simpa [List.getD, hk, hk'] using he) h (by simp) (by simpa using hd)
  obtain ⟨h3, h4⟩ := C168_programs_partial ms xs bufs ps h1
  refine ⟨h3, fun s hs => ?_⟩
  obtain ⟨p, h5, h6, h7⟩ := h4 s hs
  exact ⟨p, h5, h6, fun k hk => h7 k fun hh => hk (by simpa using h2 k hh)⟩

/-- C168, single statements: `f(x)` gives a tensor with the metadata of `x` and `f` of each of its frames, and `f(x, y)` of two tensors of the same width with equal metadata a tensor with that metadata and `f` of corresponding frames.
Missing: tensors of different widths or with different metadata, and chunk indices (C108, C111, C159). -/
theorem C168_values_partial (ms : Modules α) (s : MState α) (i : Nat) (x : ST α) (hi : s.get i = some x) :
    (∀ f : α → α, ∃ s' y, s.step ms (.unary f i) = .ok s' ∧ s'.get s.vars.length = some y ∧ y.md = x.md ∧ y.width = x.width ∧ y.rows.length = x.rows.length ∧
      ∀ r t : Nat, y.rows[r]?.bind (·[t]?) = (x.rows[r]?.bind (·[t]?)).map f) ∧
    ∀ (f : α → α → α) (j : Nat) (x' : ST α), s.get j = some x' → x'.md = x.md → x'.width = x.width → x.md.chunk = none → (∀ r ∈ x.rows, r.length = x.width) → (∀ r ∈ x'.rows, r.length = x.width) →
      x'.rows.length = x.rows.length →
      ∃ s' y, s.step ms (.binary f i j) = .ok s' ∧ s'.get s.vars.length = some y ∧ y.md = x.md ∧ y.width = x.width ∧ y.rows.length = x.rows.length ∧
        ∀ (r t : Nat) a b, x.rows[r]?.bind (·[t]?) = some a → x'.rows[r]?.bind (·[t]?) = some b → y.rows[r]?.bind (·[t]?) = some (f a b) := by
  unfold MState.get at hi
  rw [Option.map_eq_some_iff] at hi
  obtain ⟨v, hv, rfl⟩ := hi
  constructor
  · intro f
    refine ⟨{ s with vars := s.vars ++ [⟨v.ref, v.width, v.rows.map (·.map f)⟩] }, { s.see v with rows := v.rows.map (·.map f) }, by simp only [MState.step, hv]; rfl, by simp [MState.get, MState.see],
      rfl, rfl, by simp [MState.see], fun r t => ?_⟩
    simp only [MState.see, List.getElem?_map]
    cases v.rows[r]? with
    | none => rfl
    | some l => simp
  · intro f j x' hj hmd hw hwf hr hr' hlen
    unfold MState.get at hj
    rw [Option.map_eq_some_iff] at hj
    obtain ⟨u, hu, rfl⟩ := hj
    have hw' : u.width = v.width := hw
    obtain ⟨rows, hrows⟩ : ∃ rows, rows = List.zipWith (fun r q => (List.range v.width).map fun (j : Nat) => f (r.getD (if v.width = 1 then 0 else j) 0) (q.getD (if v.width = 1 then 0 else j) 0)) v.rows u.rows := ⟨_, rfl⟩
    have hadd : addST f (s.see v) (s.see u) = .ok { s.see v with rows := rows } := by
      unfold addST
      rw [if_pos (.inl hw.symm), hmd, show eqMeta (s.see v).md (s.see v).md = .ok true by unfold eqMeta; simp [hwf], hrows]
      simp only [Except.bind_ok', if_pos, MState.see, hw', ite_self]
      congr
    refine ⟨{ s with vars := s.vars ++ [⟨v.ref, v.width, rows⟩] }, { s.see v with rows := rows }, by simp only [MState.step, hv, hu, hadd, Except.bind_ok']; rfl, by simp [MState.get, MState.see], rfl, rfl,
      by simp [MState.see, hrows] at hlen ⊢; omega, fun r t a b ha hb => ?_⟩
    rw [Option.bind_eq_some_iff] at ha hb
    obtain ⟨l, hl, ha⟩ := ha
    obtain ⟨l', hl', hb⟩ := hb
    have h1 : l.length = v.width := hr l (List.mem_of_getElem? hl)
    have ht : t < v.width := by
      have := (List.getElem?_eq_some_iff.mp ha).1
      omega
    simp only [MState.see] at hl hl'
    have h0 : (if v.width = 1 then 0 else t) = t := by split <;> omega
    simp [hrows, List.getElem?_zipWith, hl, hl', List.getElem?_range ht, h0, ha, hb]

example : let s : MState Int := MState.load [{ md := ⟨["a"], [true], [false], [2], none⟩, width := 2, rows := [[1, -2]] }, { md := ⟨["a"], [true], [false], [2], none⟩, width := 2, rows := [[4, 5]] }] (fun _ _ => none)
    (((s.step exMods (.unary (fun v => v * v) 0)).map fun s => (s.get 2).map (·.rows)) = .ok (some [[1, 4]])) ∧ ((s.step exMods (.binary (fun v w => v - w) 0 1)).map fun s => (s.get 2).map (·.rows)) = .ok (some [[-3, -7]]) := by
  decide

/-- Two streams through a stack, added at the end. -/
def exLinear : List (Ins Int) := [.conv 0 0, .conv 1 1, .unary (fun v => max v 0) 2, .binary (· + ·) 4 3]

/-- `x * x + x` before the convolution. -/
def exShared : List (Ins Int) := [.binary (· * ·) 0 0, .binary (· + ·) 1 0, .conv 0 2]

example : (exLinear.flatMap Ins.args).Nodup ∧ Defined 2 exLinear := by
  refine ⟨by decide, ?_⟩
  simp [exLinear, Defined, Ins.args]
example : Safe [0] [] exShared ∧ ¬ Safe [0] [] exRelu := by
  simp [exShared, exRelu, Safe]
example : ((MState.load [{ md := ⟨["a"], [true], [false], [3], none⟩, width := 3, rows := [[1, -2, 3]] }, { md := ⟨["a"], [true], [false], [3], none⟩, width := 3, rows := [[4, 4, 4]] }] (fun _ _ => none)).run exMods exLinear).map
    (fun s => (s.get 5).map fun z => (z.md.lengths, z.rows)) = .ok (some ([2], [[8, 9]])) := by decide

end
end DS.Conv
