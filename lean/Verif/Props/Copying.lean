import Verif.Model.Copying
import Verif.Props.Grad
import Verif.Props.Modes
/-!
# Copying and saving a patched model (C190, C191)
-/

namespace DS.Grad

theorem late_open {kw kw' : Nat} (hk : 1 < kw') (t : Bool) : ∀ (bs pre : List (List Row)) (s₁ s₂ s₃ : List (Layer × Buf)) (b₁ buf : Buf) (g : Graph),
    WF g.nodes → StackIn g (s₁ ++ (.conv kw true, b₁) :: (s₂ ++ (.conv kw' t, buf) :: s₃)) →
    (∀ a, Open pre a → ∃ n, buf a = some (some n)) →
    ∀ a, Open (pre ++ bs) a → ∃ l ∈ (calls (s₁ ++ (.conv kw true, b₁) :: (s₂ ++ (.conv kw' t, buf) :: s₃)) g bs).1, ∃ a n, l.2 a = some (some n) := by
  intro bs
  induction bs with
  | nil =>
    intro pre s₁ s₂ s₃ b₁ buf g _ _ hinv a ha
    obtain ⟨n, hn⟩ := hinv a (by simpa using ha)
    exact ⟨(.conv kw' t, buf), by simp [calls], a, n, hn⟩
  | cons b bs ih =>
    intro pre s₁ s₂ s₃ b₁ buf g wf hs hinv a ha
    obtain ⟨s₁', b₁', s₂', buf', s₃', out, c, nd, hF, -, -, -, -, -, -, hb2, hb3⟩ := late_step hk t s₁ s₂ s₃ b₁ buf b wf hs
    have hx0 : In g none := fun n e => by simp at e
    obtain ⟨e, w, i, k⟩ := forward_basic _ b none g wf hx0 hs
    generalize hG : (forward (s₁ ++ (.conv kw true, b₁) :: (s₂ ++ (.conv kw' t, buf) :: s₃)) b none g).2.2 = G at *
    simp only [calls, hF]
    rw [hF] at k
    refine ih (pre ++ [b]) s₁' s₂' s₃' b₁' buf' G w k (fun a ha => ?_) a (by simpa using ha)
    obtain ⟨h1, h2⟩ := (open_snoc pre b a).1 ha
    by_cases hrow : ∃ r ∈ b, r.id = a
    · obtain ⟨m, hm, -⟩ := hb3 a hrow h1
      exact ⟨m, hm⟩
    · obtain ⟨n, hn⟩ := hinv a (h2.resolve_left hrow)
      exact ⟨n, by rw [hb2 a fun r hr hra => hrow ⟨r, hr, hra⟩, hn]⟩

theorem kept_calls : ∀ (bs pre : List (List Row)) (s : List (Layer × Buf)) (g : Graph), Kept s pre → WF g.nodes → StackIn g s → Kept (calls s g bs).1 (pre ++ bs) := by
  intro bs
  induction bs with
  | nil => intro pre s g hk _ _; simpa [calls] using hk
  | cons b bs ih =>
    intro pre s g hk wf hs
    have hx0 : In g none := fun n e => by simp at e
    obtain ⟨-, w, -, k⟩ := forward_basic s b none g wf hx0 hs
    have := ih (pre ++ [b]) _ _ (kept_forward s none g hk wf hx0 hs) w k
    simpa [calls] using this

theorem plain_calls : ∀ (bs : List (List Row)) (s : List (Layer × Buf)) (g : Graph), Plain false s → WF g.nodes → StackIn g s → Plain false (calls s g bs).1 := by
  intro bs
  induction bs with
  | nil => intro s g hp _ _; exact hp
  | cons b bs ih =>
    intro s g hp wf hs
    have hx0 : In g none := fun n e => by simp at e
    obtain ⟨-, w, -, k⟩ := forward_basic s b none g wf hx0 hs
    exact ih _ _ (plain_forward s false none g hp (fun _ => rfl) wf hx0 hs) w k

/-- Layers that look at one frame keep no buffers. -/
def Narrow (s : List (Layer × Buf)) : Prop := ∀ l ∈ s, (∀ kw t, l.1 = .conv kw t → ¬ 1 < kw) → ∀ a, l.2 a = none

theorem narrow_forward (rows : List Row) : ∀ (s : List (Layer × Buf)) (x : Val) (g : Graph), Narrow s → Narrow (forward s rows x g).2.1 := by
  intro s
  induction s with
  | nil => intro x g h; simpa [forward] using h
  | cons p s ih =>
    obtain ⟨l, b⟩ := p
    intro x g h q hq hn a
    simp only [forward, List.mem_cons] at hq
    rcases hq with rfl | hq
    · have hb := h (l, b) (by simp) hn a
      cases l with
      | act sv => exact hb
      | conv kw t =>
        have hk : ¬ kw > 1 := hn kw t rfl
        simp only [Layer.step, hk, if_false, drop]
        split
        · rfl
        · exact hb
    · exact ih _ _ (fun q hq => h q (List.mem_cons_of_mem _ hq)) q hq hn a

theorem narrow_calls : ∀ (bs : List (List Row)) (s : List (Layer × Buf)) (g : Graph), Narrow s → Narrow (calls s g bs).1 := by
  intro bs
  induction bs with
  | nil => intro s g h; exact h
  | cons b bs ih => intro s g h; exact ih _ _ (narrow_forward b s none g h)

/-- **C190 (partial, exact).** A stack of online convolutions and pointwise functions is called on batches, and then copied. The copy is made, and has the state of the model, if and only if no convolution wider than one
frame comes after a trained one, or no stream is open; otherwise RuntimeError. Under `torch.no_grad()` no weights count as trained.
Missing: nothing for this model; the property as such is false (`C190_copy_false`). -/
theorem C190_copy_partial (ls : List Layer) (bs : List (List Row)) :
    (deepcopy (calls (fresh ls) .empty bs).1 = .ok (calls (fresh ls) .empty bs).1 ↔ ¬ Late ls ∨ ∀ a, ¬ Open bs a) ∧
    (Late ls → (∃ a, Open bs a) → deepcopy (calls (fresh ls) .empty bs).1 = .error .runtimeError) := by
  have wf : WF Graph.empty.nodes := fun i nd h => by simp [Graph.empty] at h
  have hbad : Late ls → (∃ a, Open bs a) → deepcopy (calls (fresh ls) .empty bs).1 = .error .runtimeError := by
    rintro ⟨l₁, kw, l₂, kw', t, l₃, rfl, hk⟩ ⟨a, ha⟩
    have hfr : fresh (l₁ ++ Layer.conv kw true :: (l₂ ++ Layer.conv kw' t :: l₃)) =
        fresh l₁ ++ (.conv kw true, fun _ => none) :: (fresh l₂ ++ (.conv kw' t, fun _ => none) :: fresh l₃) := by simp [fresh]
    have hin := fresh_in Graph.empty (l₁ ++ Layer.conv kw true :: (l₂ ++ Layer.conv kw' t :: l₃))
    rw [hfr] at hin ⊢
    rw [deepcopy, if_pos]
    exact late_open hk t bs [] _ _ _ _ _ _ wf hin (fun a ha => absurd ha (open_nil a)) a (by simpa using ha)
  refine ⟨⟨fun h => ?_, fun h => ?_⟩, hbad⟩
  · by_cases hl : Late ls
    · refine .inr fun a ha => ?_
      rw [hbad hl ⟨a, ha⟩] at h
      cases h
    · exact .inl hl
  · rw [deepcopy, if_neg]
    rintro ⟨l, hl, a, n, ha⟩
    rcases h with h | h
    · have := plain_bufs _ _ (plain_calls bs _ _ (not_late h) wf (fresh_in _ _)) l hl a _ ha
      simp at this
    · have hk := kept_calls bs [] (fresh ls) .empty ?_ wf (fresh_in _ _)
      · obtain ⟨l, buf⟩ := l
        by_cases hw : ∃ kw t, l = .conv kw t ∧ 1 < kw
        · obtain ⟨kw, t, rfl, hkw⟩ := hw
          exact h a (by simpa using hk kw t buf hl hkw a _ ha)
        · have := narrow_calls bs (fresh ls) .empty (fun q hq _ a => by
            obtain ⟨l, -, rfl⟩ := List.mem_map.1 hq
            rfl) (l, buf) hl (fun kw t e hkw => hw ⟨kw, t, e, hkw⟩) a
          rw [this] at ha
          simp at ha
      · intro kw t buf hm _ a v hv
        obtain ⟨l, -, hl⟩ := List.mem_map.1 hm
        simp only [Prod.mk.injEq] at hl
        rw [← hl.2] at hv
        simp at hv

/-- **C190 (false).** A running model of two convolutions cannot be copied when gradients are recorded; before the first chunk and after the last one it can. -/
theorem C190_copy_false :
    deepcopy (calls (fresh exNet) .empty [[⟨"a", true, false⟩]]).1 = .error .runtimeError ∧
    deepcopy (calls (fresh exNet) .empty [[⟨"a", true, false⟩], [⟨"a", false, true⟩]]).1 = .ok (calls (fresh exNet) .empty [[⟨"a", true, false⟩], [⟨"a", false, true⟩]]).1 := by
  refine ⟨(C190_copy_partial exNet _).2 exNet_late ⟨"a", [], [⟨"a", true, false⟩], [], rfl, by simp, by simp⟩, (C190_copy_partial exNet _).1.2 (.inr fun a ha => ?_)⟩
  obtain ⟨h1, h2⟩ := (open_snoc [[⟨"a", true, false⟩]] [⟨"a", false, true⟩] a).1 ha
  by_cases h : a = "a"
  · subst h
    simpa using h1 ⟨"a", false, true⟩ (by simp)
  · rcases h2 with ⟨r, hr, hra⟩ | h2
    · simp at hr; subst hr; exact h hra.symm
    · obtain ⟨-, ⟨r, hr, hra⟩ | h3⟩ := (open_snoc [] [⟨"a", true, false⟩] a).1 h2
      · simp at hr; subst hr; exact h hra.symm
      · exact open_nil a h3

example : deepcopy (calls (fresh exFlat) .empty [[⟨"a", true, false⟩], [⟨"a", false, false⟩]]).1 = .ok (calls (fresh exFlat) .empty [[⟨"a", true, false⟩], [⟨"a", false, false⟩]]).1 :=
  (C190_copy_partial exFlat _).1.2 (.inl exFlat_flat)

end DS.Grad

namespace DS.Modes

variable {α : Type} [Zero α]

theorem run_append (a b : List Op) (s : List Nat) : run (a ++ b) s = (run a s).bind (run b) := by
  induction a generalizing s with
  | nil => rfl
  | cons o a ih =>
    cases o with
    | new i => simp [run, ih]
    | build i => simp [run, ih]
    | lookup i n =>
      simp only [run, List.cons_append]
      split
      · exact ih s
      · rfl

/-- Reading back raises nothing but AttributeError. -/
theorem run_error {ops : List Op} {s : List Nat} {e : PyErr} (h : run ops s = .error e) : e = .attributeError := by
  induction ops generalizing s with
  | nil => cases h
  | cons o ops ih =>
    cases o with
    | new i => exact ih h
    | build i => exact ih h
    | lookup i n =>
      simp only [run] at h
      split at h
      · exact ih h
      · injection h with h; exact h.symm

theorem run_step {a b : List Op} {s s' : List Nat} (h : run a s = .ok s') : run (a ++ b) s = run b s' := by rw [run_append, h]; rfl

theorem run_stop {a b : List Op} {s : List Nat} (h : run a s = .error .attributeError) : run (a ++ b) s = .error .attributeError := by rw [run_append, h]; rfl

theorem writeMethods_none {i : Nat} {n : Node α} (h : n.methods = false) : writeMethods i n = [] := by simp [writeMethods, h]

mutual
/-- What is read back is written before, and comes from the tree. -/
theorem dump_ok (σ : Store α) : ∀ (t : Tree) (memo built : List Nat), (∀ i ∈ t.ids, (σ i).methods = false) →
    ∃ b, run (dump σ t memo).1 built = .ok b ∧ ∀ i ∈ b, i ∈ built ∨ i ∈ t.ids
  | .node i cs, memo, built, h => by
    rw [dump]
    split
    · exact ⟨built, rfl, fun _ h => .inl h⟩
    · obtain ⟨b, hb, hi⟩ := dumpAll_ok σ cs (i :: memo) built fun j hj => h j (by simp [Tree.ids, hj])
      refine ⟨i :: b, ?_, fun j hj => ?_⟩
      · simp only [run]
        rw [writeMethods_none (h i (by simp [Tree.ids])), List.append_nil, run_step hb]
        rfl
      · rcases List.mem_cons.1 hj with rfl | hj
        · exact .inr (by simp [Tree.ids])
        · rcases hi j hj with hj | hj
          · exact .inl hj
          · exact .inr (by simp [Tree.ids, hj])
theorem dumpAll_ok (σ : Store α) : ∀ (ts : List Tree) (memo built : List Nat), (∀ i ∈ idsAll ts, (σ i).methods = false) →
    ∃ b, run (dumpAll σ ts memo).1 built = .ok b ∧ ∀ i ∈ b, i ∈ built ∨ i ∈ idsAll ts
  | [], memo, built, _ => ⟨built, rfl, fun _ h => .inl h⟩
  | t :: ts, memo, built, h => by
    obtain ⟨b, hb, hi⟩ := dump_ok σ t memo built fun j hj => h j (by simp [idsAll, hj])
    obtain ⟨c, hc, hj⟩ := dumpAll_ok σ ts (dump σ t memo).2 b fun j hj => h j (by simp [idsAll, hj])
    refine ⟨c, ?_, fun k hk => ?_⟩
    · rw [dumpAll, run_step hb, hc]
    · rcases hj k hk with hk | hk
      · rcases hi k hk with hk | hk
        · exact .inl hk
        · exact .inr (by simp [idsAll, hk])
      · exact .inr (by simp [idsAll, hk])
end

mutual
/-- Objects that occur once are all written. -/
theorem dump_memo (σ : Store α) : ∀ (t : Tree) (memo : List Nat), ∀ i ∈ (dump σ t memo).2, i ∈ memo ∨ i ∈ t.ids
  | .node i cs, memo, j, hj => by
    rw [dump] at hj
    split at hj
    · exact .inl hj
    · rcases dumpAll_memo σ cs (i :: memo) j hj with hj | hj
      · rcases List.mem_cons.1 hj with rfl | hj
        · exact .inr (by simp [Tree.ids])
        · exact .inl hj
      · exact .inr (by simp [Tree.ids, hj])
theorem dumpAll_memo (σ : Store α) : ∀ (ts : List Tree) (memo : List Nat), ∀ i ∈ (dumpAll σ ts memo).2, i ∈ memo ∨ i ∈ idsAll ts
  | [], memo, i, h => .inl h
  | t :: ts, memo, i, h => by
    rw [dumpAll] at h
    rcases dumpAll_memo σ ts _ i h with h | h
    · rcases dump_memo σ t memo i h with h | h
      · exact .inl h
      · exact .inr (by simp [idsAll, h])
    · exact .inr (by simp [idsAll, h])
end

mutual
/-- The program read back contains, for every module with methods, the lookup of its method before it gets its attributes. -/
theorem dump_bad (σ : Store α) : ∀ (t : Tree) (memo built : List Nat), t.ids.Nodup → (∀ i ∈ t.ids, i ∉ memo) → (∀ i ∈ t.ids, i ∉ built) →
    (∃ i ∈ t.ids, (σ i).methods = true) → run (dump σ t memo).1 built = .error .attributeError
  | .node i cs, memo, built, hn, hm, hb, h => by
    simp only [Tree.ids, List.nodup_append, List.nodup_cons, List.mem_singleton] at hn
    rw [dump, if_neg (hm i (by simp [Tree.ids]))]
    simp only [run]
    cases hr : run (dumpAll σ cs (i :: memo)).1 built with
    | error e => rw [run_error hr] at hr; exact run_stop (run_stop hr)
    | ok b =>
      by_cases hc : ∃ j ∈ idsAll cs, (σ j).methods = true
      · rw [dumpAll_bad σ cs (i :: memo) built hn.1 (fun j hj hji => ?_) (fun j hj => hb j (by simp [Tree.ids, hj])) hc] at hr
        · cases hr
        · rcases List.mem_cons.1 hji with rfl | hji
          · exact hn.2.2 j hj j rfl rfl
          · exact hm j (by simp [Tree.ids, hj]) hji
      · obtain ⟨j, hj, hjm⟩ := h
        simp only [Tree.ids, List.mem_append, List.mem_singleton] at hj
        rcases hj with hj | rfl
        · exact absurd ⟨j, hj, hjm⟩ hc
        · obtain ⟨b', hb', hi⟩ := dumpAll_ok σ cs (j :: memo) built fun k hk => by
            cases hkm : (σ k).methods with
            | false => rfl
            | true => exact absurd ⟨k, hk, hkm⟩ hc
          rw [List.append_assoc, run_step hb']
          have : j ∉ b' := fun hjb => by
            rcases hi j hjb with h1 | h1
            · exact hb j (by simp [Tree.ids]) h1
            · exact hn.2.2 j h1 j rfl rfl
          simp [writeMethods, hjm, run, this]
theorem dumpAll_bad (σ : Store α) : ∀ (ts : List Tree) (memo built : List Nat), (idsAll ts).Nodup → (∀ i ∈ idsAll ts, i ∉ memo) → (∀ i ∈ idsAll ts, i ∉ built) →
    (∃ i ∈ idsAll ts, (σ i).methods = true) → run (dumpAll σ ts memo).1 built = .error .attributeError
  | [], memo, built, _, _, _, h => by obtain ⟨i, hi, _⟩ := h; simp [idsAll] at hi
  | t :: ts, memo, built, hn, hm, hb, h => by
    simp only [idsAll, List.nodup_append] at hn
    rw [dumpAll]
    by_cases ht : ∃ i ∈ t.ids, (σ i).methods = true
    · exact run_stop (dump_bad σ t memo built hn.1 (fun i hi => hm i (by simp [idsAll, hi])) (fun i hi => hb i (by simp [idsAll, hi])) ht)
    · obtain ⟨b, hr, hi⟩ := dump_ok σ t memo built fun k hk => by
        cases hkm : (σ k).methods with
        | false => rfl
        | true => exact absurd ⟨k, hk, hkm⟩ ht
      rw [run_step hr]
      refine dumpAll_bad σ ts _ b hn.2.1 (fun j hj hjm => ?_) (fun j hj hjb => ?_) ?_
      · rcases dump_memo σ t memo j hjm with h1 | h1
        · exact hm j (by simp [idsAll, hj]) h1
        · exact hn.2.2 j h1 j hj rfl
      · rcases hi j hjb with h1 | h1
        · exact hb j (by simp [idsAll, hj]) h1
        · exact hn.2.2 j h1 j hj rfl
      · obtain ⟨i, hi, him⟩ := h
        simp only [idsAll, List.mem_append] at hi
        exact ⟨i, hi.resolve_left fun h => ht ⟨i, h, him⟩, him⟩
end

theorem run_mono {ops : List Op} {s b : List Nat} (h : run ops s = .ok b) : ∀ i ∈ s, i ∈ b := by
  induction ops generalizing s with
  | nil => injection h with h; subst h; exact fun _ h => h
  | cons o ops ih =>
    cases o with
    | new i => exact ih h
    | build i => exact fun j hj => ih h j (List.mem_cons_of_mem _ hj)
    | lookup i n =>
      simp only [run] at h
      split at h
      · exact ih h
      · cases h

theorem run_split {a b : List Op} {s r : List Nat} (h : run (a ++ b) s = .ok r) : ∃ s', run a s = .ok s' ∧ run b s' = .ok r := by
  rw [run_append] at h
  cases ha : run a s with
  | error e => rw [ha] at h; cases h
  | ok s' => rw [ha] at h; exact ⟨s', rfl, h⟩

theorem run_methods {i : Nat} {n : Node α} {s r : List Nat} (h : run (writeMethods i n) s = .ok r) : r = s := by
  rw [writeMethods] at h
  split at h
  · simp only [run] at h
    split at h
    · injection h with h; exact h.symm
    · cases h
  · injection h with h; exact h.symm

mutual
theorem memo_mono (σ : Store α) : ∀ (t : Tree) (memo : List Nat), ∀ i ∈ memo, i ∈ (dump σ t memo).2
  | .node i cs, memo, j, hj => by
    rw [dump]
    split
    · exact hj
    · exact memoAll_mono σ cs (i :: memo) j (List.mem_cons_of_mem _ hj)
theorem memoAll_mono (σ : Store α) : ∀ (ts : List Tree) (memo : List Nat), ∀ i ∈ memo, i ∈ (dumpAll σ ts memo).2
  | [], _, _, h => h
  | t :: ts, memo, i, h => by
    rw [dumpAll]
    exact memoAll_mono σ ts _ i (memo_mono σ t memo i h)
end

mutual
/-- An object that was written before gets no attributes again. -/
theorem dump_fresh (σ : Store α) : ∀ (t : Tree) (memo built b : List Nat), run (dump σ t memo).1 built = .ok b → ∀ i ∈ memo, i ∈ b → i ∈ built
  | .node i cs, memo, built, b, h, j, hj, hjb => by
    rw [dump] at h
    split at h
    · injection h with h; subst h; exact hjb
    · rename_i hi
      obtain ⟨s1, h1, h2⟩ := run_split (a := (dumpAll σ cs (i :: memo)).1 ++ writeMethods i (σ i)) h
      obtain ⟨s2, h3, h4⟩ := run_split h1
      obtain rfl := run_methods h4
      injection h2 with h2
      subst h2
      rcases List.mem_cons.1 hjb with rfl | hjb
      · exact absurd hj hi
      · exact dumpAll_fresh σ cs (i :: memo) built s1 h3 j (List.mem_cons_of_mem _ hj) hjb
theorem dumpAll_fresh (σ : Store α) : ∀ (ts : List Tree) (memo built b : List Nat), run (dumpAll σ ts memo).1 built = .ok b → ∀ i ∈ memo, i ∈ b → i ∈ built
  | [], memo, built, b, h, i, _, hb => by injection h with h; subst h; exact hb
  | t :: ts, memo, built, b, h, i, hi, hb => by
    rw [dumpAll] at h
    obtain ⟨s1, h1, h2⟩ := run_split h
    exact dump_fresh σ t memo built s1 h1 i hi (dumpAll_fresh σ ts _ s1 b h2 i (memo_mono σ t memo i hi) hb)
end

mutual
theorem dump_all (σ : Store α) : ∀ (t : Tree) (memo built b : List Nat), t.ids.Nodup → (∀ i ∈ t.ids, i ∉ memo) → run (dump σ t memo).1 built = .ok b → ∀ i ∈ t.ids, i ∈ b
  | .node i cs, memo, built, b, hn, hm, h, j, hj => by
    simp only [Tree.ids, List.nodup_append, List.nodup_cons, List.mem_singleton] at hn
    rw [dump, if_neg (hm i (by simp [Tree.ids]))] at h
    obtain ⟨s1, h1, h2⟩ := run_split (a := (dumpAll σ cs (i :: memo)).1 ++ writeMethods i (σ i)) h
    obtain ⟨s2, h3, h4⟩ := run_split h1
    obtain rfl := run_methods h4
    injection h2 with h2
    subst h2
    simp only [Tree.ids, List.mem_append, List.mem_singleton] at hj
    rcases hj with hj | rfl
    · refine List.mem_cons_of_mem _ (dumpAll_all σ cs (i :: memo) built s1 hn.1 (fun k hk hki => ?_) h3 j hj)
      rcases List.mem_cons.1 hki with rfl | hki
      · exact hn.2.2 k hk k rfl rfl
      · exact hm k (by simp [Tree.ids, hk]) hki
    · simp
theorem dumpAll_all (σ : Store α) : ∀ (ts : List Tree) (memo built b : List Nat), (idsAll ts).Nodup → (∀ i ∈ idsAll ts, i ∉ memo) → run (dumpAll σ ts memo).1 built = .ok b →
    ∀ i ∈ idsAll ts, i ∈ b
  | [], memo, built, b, _, _, _, i, hi => by simp [idsAll] at hi
  | t :: ts, memo, built, b, hn, hm, h, i, hi => by
    simp only [idsAll, List.nodup_append] at hn
    rw [dumpAll] at h
    obtain ⟨s1, h1, h2⟩ := run_split h
    simp only [idsAll, List.mem_append] at hi
    rcases hi with hi | hi
    · exact run_mono h2 i (dump_all σ t memo built s1 hn.1 (fun k hk => hm k (by simp [idsAll, hk])) h1 i hi)
    · refine dumpAll_all σ ts _ s1 b hn.2.1 (fun k hk hkm => ?_) h2 i hi
      rcases dump_memo σ t memo k hkm with h3 | h3
      · exact hm k (by simp [idsAll, hk]) h3
      · exact hn.2.2 k h3 k hk rfl
end

/-- The module at the top has methods: reading back raises. -/
theorem reload_root (σ : Store α) (i : Nat) (cs : List Tree) (hi : (σ i).methods = true) : reload (.node i cs) σ = .error .attributeError := by
  rw [reload, dump, if_neg (by simp)]
  simp only [run]
  cases hr : run (dumpAll σ cs [i]).1 [] with
  | error e => rw [run_error hr] at hr; exact run_stop (run_stop hr)
  | ok b =>
    rw [List.append_assoc, run_step hr]
    have : i ∉ b := fun h => by simpa using dumpAll_fresh σ cs [i] [] b hr i (by simp) h
    simp [writeMethods, hi, run, this]

/-- **C191 (false).** A patched model that was saved as a whole can never be loaded: AttributeError, whatever the model. -/
theorem C191_saved_false (t : Tree) (σ : Store α) (h : (patch t σ).2 = none) : reload t (patch t σ).1 = .error .attributeError := by
  by_cases hu : ∃ i ∈ t.ids, (σ i).kind = .unsupported
  · rw [(C65_patch t σ).1 hu] at h; cases h
  · obtain ⟨-, h2, -⟩ := (C65_patch t σ).2 fun i hi hk => hu ⟨i, hi, hk⟩
    cases t with
    | node i cs => exact reload_root _ i cs (h2 i (by simp [Tree.ids])).2.1

example : (patch exTree exStore).2 = none ∧ reload exTree (patch exTree exStore).1 = .error .attributeError :=
  ⟨by decide, C191_saved_false _ _ (by decide)⟩

/-- **C191 (partial, exact).** Every module occurs once in the model. It can be loaded after it was saved if and only if no part of it was patched; then the loaded modules are those of the model.
Missing: false of patched models (`C191_saved_false`, which also covers shared modules). -/
theorem C191_saved_partial (t : Tree) (σ : Store α) (hn : t.ids.Nodup) :
    ((∃ b, reload t σ = .ok b) ↔ ∀ i ∈ t.ids, (σ i).methods = false) ∧
    (∀ b, reload t σ = .ok b → ∀ i, i ∈ b ↔ i ∈ t.ids) ∧
    ∀ e, reload t σ = .error e → e = .attributeError := by
  have hiff : (∃ b, reload t σ = .ok b) ↔ ∀ i ∈ t.ids, (σ i).methods = false := by
    constructor
    · rintro ⟨b, hb⟩ i hi
      cases hm : (σ i).methods with
      | false => rfl
      | true => rw [reload, dump_bad σ t [] [] hn (by simp) (by simp) ⟨i, hi, hm⟩] at hb; cases hb
    · intro h
      obtain ⟨b, hb, -⟩ := dump_ok σ t [] [] h
      exact ⟨b, hb⟩
  refine ⟨hiff, fun b hb i => ⟨fun h => ?_, fun h => dump_all σ t [] [] b hn (by simp) hb i h⟩, fun e h => run_error h⟩
  obtain ⟨b', hb', hi⟩ := dump_ok σ t [] [] (hiff.1 ⟨b, hb⟩)
  rw [reload, hb'] at hb
  injection hb with hb
  subst hb
  simpa using hi i h

example : exTree.ids.Nodup ∧ (∀ i ∈ exTree.ids, (exStore i).methods = false) ∧ reload exTree exStore = .ok [0, 3, 4, 2, 1] ∧
    reload exTree (exStore.modify 4 fun n => { n with methods := true }) = .error .attributeError := by decide

end DS.Modes
