import Verif.Spec.Grad
/-!
# Gradients through online convolutions (C155, C156)
-/

namespace DS.Grad

/-! ## The graph -/

/-- The inputs of every node are older. -/
def WF (nodes : List Node) : Prop := ∀ (i : Nat) nd, nodes[i]? = some nd → ∀ p ∈ nd.parents, p < i

theorem Leads.trans {ns : List Node} {a b c : Nat} (h : Leads ns a b) (k : Leads ns b c) : Leads ns a c := by
  induction h with
  | refl => exact k
  | step h1 h2 _ ih => exact .step h1 h2 (ih k)

theorem Leads.mono {ns ms : List Node} {a b : Nat} (h : Leads ns a b) : Leads (ns ++ ms) a b := by
  induction h with
  | refl => exact .refl _
  | step h1 h2 _ ih =>
    refine .step ?_ h2 ih
    rw [List.getElem?_append_left (List.getElem?_eq_some_iff.1 h1).1]
    exact h1

theorem mem_reach {ns : List Node} (wf : WF ns) (m : Nat) : ∀ (k n : Nat), n < k → (m ∈ reach ns k n ↔ Leads ns n m) := by
  intro k
  induction k with
  | zero => intro n h; omega
  | succ k ih =>
    intro n h
    simp only [reach, List.mem_cons, List.mem_flatMap]
    constructor
    · rintro (rfl | ⟨p, hp, hm⟩)
      · exact .refl _
      · cases hn : ns[n]? with
        | none => simp [hn] at hp
        | some nd =>
          simp [hn] at hp
          have := wf n nd hn p hp
          exact .step hn hp ((ih p (by omega)).1 hm)
    · intro hl
      cases hl with
      | refl => exact .inl rfl
      | step h1 h2 h3 =>
        rename_i p nd
        have := wf n nd h1 p h2
        exact .inr ⟨p, by simp [h1, h2], (ih p (by omega)).2 h3⟩

theorem mem_keepers {g : Graph} (wf : WF g.nodes) {n m : Nat} :
    m ∈ keepers g n ↔ Leads g.nodes n m ∧ ∃ nd, g.nodes[m]? = some nd ∧ nd.saves = true := by
  simp only [keepers, List.mem_filter, mem_reach wf m (n + 1) n (by omega)]
  cases g.nodes[m]? <;> simp

/-- What a step does to the graph: it adds nodes, and frees none. -/
def Ext (g g' : Graph) : Prop := (∃ ms, g'.nodes = g.nodes ++ ms) ∧ g'.freed = g.freed

theorem Ext.rfl' (g : Graph) : Ext g g := ⟨⟨[], by simp⟩, rfl⟩

theorem Ext.trans {a b c : Graph} (h : Ext a b) (k : Ext b c) : Ext a c := by
  obtain ⟨⟨m1, h1⟩, h2⟩ := h
  obtain ⟨⟨m2, k1⟩, k2⟩ := k
  exact ⟨⟨m1 ++ m2, by rw [k1, h1, List.append_assoc]⟩, by rw [k2, h2]⟩

theorem Ext.leads {a b : Graph} (h : Ext a b) {n m : Nat} (k : Leads a.nodes n m) : Leads b.nodes n m := by
  obtain ⟨⟨ms, h⟩, _⟩ := h
  rw [h]; exact k.mono

theorem Ext.len {a b : Graph} (h : Ext a b) : a.nodes.length ≤ b.nodes.length := by
  obtain ⟨⟨ms, h⟩, _⟩ := h
  rw [h]; simp

theorem Ext.get {a b : Graph} (h : Ext a b) {n : Nat} {nd : Node} (k : a.nodes[n]? = some nd) : b.nodes[n]? = some nd := by
  obtain ⟨⟨ms, h⟩, _⟩ := h
  rw [h, List.getElem?_append_left (List.getElem?_eq_some_iff.1 k).1, k]

/-- A value of the graph: its node is there. -/
def In (g : Graph) (v : Val) : Prop := ∀ n, v = some n → n < g.nodes.length

theorem In.ext {a b : Graph} (h : Ext a b) {v : Val} (k : In a v) : In b v := fun n e => Nat.lt_of_lt_of_le (k n e) h.len

theorem apply_ext (g : Graph) (xs : List Val) (s p : Bool) : Ext g (g.apply xs s p).2 := by
  unfold Graph.apply
  split
  · exact ⟨⟨_, rfl⟩, rfl⟩
  · exact .rfl' g

theorem apply_wf {g : Graph} (wf : WF g.nodes) {xs : List Val} (hx : ∀ v ∈ xs, In g v) (s p : Bool) : WF (g.apply xs s p).2.nodes := by
  unfold Graph.apply
  split
  · intro i nd hi q hq
    by_cases hlt : i < g.nodes.length
    · rw [List.getElem?_append_left hlt] at hi
      exact wf i nd hi q hq
    · have hii := (List.getElem?_eq_some_iff.1 hi).1
      simp at hii
      have : i = g.nodes.length := by omega
      subst this
      simp at hi
      subst hi
      simp at hq
      exact hx _ hq q rfl
  · exact wf

theorem apply_in (g : Graph) (xs : List Val) (s p : Bool) : In (g.apply xs s p).2 (g.apply xs s p).1 := by
  unfold Graph.apply
  split
  · intro n e; simp at e; subst e; simp
  · intro n e; simp at e

theorem apply_leads (g : Graph) {xs : List Val} {n : Nat} (h : some n ∈ xs) (s p : Bool) :
    ∃ m, (g.apply xs s p).1 = some m ∧ Leads (g.apply xs s p).2.nodes m n := by
  have hx : xs.any Option.isSome = true := List.any_eq_true.2 ⟨_, h, rfl⟩
  refine ⟨g.nodes.length, by simp [Graph.apply, hx], ?_⟩
  simp only [Graph.apply, hx, Bool.or_true, if_true]
  exact .step (nd := ⟨xs.filterMap id, s⟩) (by simp) (by simp [h]) (.refl _)

theorem apply_param (g : Graph) (xs : List Val) (s : Bool) :
    g.apply xs s true = (some g.nodes.length, { g with nodes := g.nodes ++ [⟨xs.filterMap id, s⟩] }) := by simp [Graph.apply]

/-! ## One layer -/

/-- Every stored buffer is a value of the graph. -/
def BufIn (g : Graph) (buf : Buf) : Prop := ∀ a v, buf a = some v → In g v

theorem fill_basic (x : Val) : ∀ (rows : List Row) (buf : Buf) (g : Graph), WF g.nodes → In g x → BufIn g buf →
    Ext g (fill x rows buf g).2 ∧ WF (fill x rows buf g).2.nodes ∧ BufIn (fill x rows buf g).2 (fill x rows buf g).1 := by
  intro rows
  induction rows with
  | nil => intro buf g wf hx hb; exact ⟨.rfl' g, wf, hb⟩
  | cons r rs ih =>
    intro buf g wf hx hb
    cases he : r.eos with
    | true => simp only [fill, he, if_true]; exact ih buf g wf hx hb
    | false =>
      simp only [fill, he, Bool.false_eq_true, if_false]
      have e := apply_ext g [x] false false
      obtain ⟨h1, h2, h3⟩ := ih (fun i => if i = r.id then some (g.apply [x] false false).1 else buf i) (g.apply [x] false false).2
        (apply_wf wf (by simpa using hx) _ _) (hx.ext e) (by
          intro a v hv
          by_cases ha : a = r.id
          · simp [ha] at hv; subst hv; exact apply_in _ _ _ _
          · simp [ha] at hv; exact (hb a v hv).ext e)
      exact ⟨e.trans h1, h2, h3⟩

/-- The buffer after `fill`: for a row that does not end, a value computed from the input. -/
theorem fill_at (x : Val) (a : String) : ∀ (rows : List Row) (buf : Buf) (g : Graph), WF g.nodes → In g x → BufIn g buf →
    (((∃ r ∈ rows, r.id = a ∧ r.eos = false) → ∃ v, (fill x rows buf g).1 a = some v ∧
        (x = none → v = none) ∧ ∀ n, x = some n → ∃ m, v = some m ∧ Leads (fill x rows buf g).2.nodes m n) ∧
      ((¬ ∃ r ∈ rows, r.id = a ∧ r.eos = false) → (fill x rows buf g).1 a = buf a)) := by
  intro rows
  induction rows with
  | nil => intro buf g _ _ _; exact ⟨fun ⟨r, h, _⟩ => by simp at h, fun _ => rfl⟩
  | cons r rs ih =>
    intro buf g wf hx hb
    cases he : r.eos with
    | true =>
      simp only [fill, he, if_true]
      obtain ⟨h1, h2⟩ := ih buf g wf hx hb
      refine ⟨fun ⟨q, hq, hq2⟩ => ?_, fun h => h2 fun ⟨q, hq, hq2⟩ => h ⟨q, List.mem_cons_of_mem _ hq, hq2⟩⟩
      rcases List.mem_cons.1 hq with rfl | hq
      · rw [he] at hq2; simp at hq2
      · exact h1 ⟨q, hq, hq2⟩
    | false =>
      simp only [fill, he, Bool.false_eq_true, if_false]
      have e := apply_ext g [x] false false
      have wf' : WF (g.apply [x] false false).2.nodes := apply_wf wf (by simpa using hx) _ _
      have hb' : BufIn (g.apply [x] false false).2 (fun i => if i = r.id then some (g.apply [x] false false).1 else buf i) := by
        intro a v hv
        by_cases ha : a = r.id
        · simp [ha] at hv; subst hv; exact apply_in _ _ _ _
        · simp [ha] at hv; exact (hb a v hv).ext e
      obtain ⟨h1, h2⟩ := ih _ _ wf' (hx.ext e) hb'
      obtain ⟨e2, -, -⟩ := fill_basic x rs _ _ wf' (hx.ext e) hb'
      refine ⟨fun hq => ?_, fun h => ?_⟩
      · by_cases hr : ∃ q ∈ rs, q.id = a ∧ q.eos = false
        · exact h1 hr
        · rw [h2 hr]
          have hra : a = r.id := by
            obtain ⟨q, hq, hq2⟩ := hq
            rcases List.mem_cons.1 hq with rfl | hq
            · exact hq2.1.symm
            · exact absurd ⟨q, hq, hq2⟩ hr
          refine ⟨(g.apply [x] false false).1, by simp [hra], fun hn => by simp [hn, Graph.apply], fun n hn => ?_⟩
          obtain ⟨m, hm, hl⟩ := apply_leads g (xs := [x]) (n := n) (by simp [hn]) false false
          exact ⟨m, hm, e2.leads hl⟩
      · rw [h2 fun ⟨q, hq, hq2⟩ => h ⟨q, List.mem_cons_of_mem _ hq, hq2⟩]
        have : a ≠ r.id := fun hh => h ⟨r, by simp, hh.symm, he⟩
        simp [this]

theorem preHook_basic (kw : Nat) {buf : Buf} (rows : List Row) {x : Val} {g : Graph} (wf : WF g.nodes) (hx : In g x) (hb : BufIn g buf) :
    Ext g (preHook kw buf rows x g).2 ∧ WF (preHook kw buf rows x g).2.nodes ∧ In (preHook kw buf rows x g).2 (preHook kw buf rows x g).1 := by
  unfold preHook
  split
  · refine ⟨apply_ext _ _ _ _, apply_wf wf ?_ _ _, apply_in _ _ _ _⟩
    intro v hv
    rcases List.mem_cons.1 hv with rfl | hv
    · exact hx
    · obtain ⟨r, _, hr⟩ := List.mem_filterMap.1 hv
      exact hb _ _ hr
  · exact ⟨.rfl' g, wf, hx⟩

/-- The input of the convolution was computed from the input of the layer. -/
theorem preHook_leads (kw : Nat) (buf : Buf) (rows : List Row) {n : Nat} (g : Graph) :
    ∃ m, (preHook kw buf rows (some n) g).1 = some m ∧ Leads (preHook kw buf rows (some n) g).2.nodes m n := by
  unfold preHook
  split
  · exact apply_leads g (by simp) _ _
  · exact ⟨n, rfl, .refl _⟩

/-- … and, in a batch with a row that does not start, from the buffers of its rows. -/
theorem preHook_buf {kw : Nat} (hk : 1 < kw) {buf : Buf} {rows : List Row} (hs : ∃ r ∈ rows, r.sos = false) {r : Row} (hr : r ∈ rows) {n : Nat}
    (hb : buf r.id = some (some n)) (x : Val) (g : Graph) :
    ∃ m, (preHook kw buf rows x g).1 = some m ∧ Leads (preHook kw buf rows x g).2.nodes m n := by
  unfold preHook
  have : rows.all Row.sos = false := by
    obtain ⟨q, hq, hq2⟩ := hs
    exact List.all_eq_false.2 ⟨q, hq, by simp [hq2]⟩
  rw [if_pos ⟨hk, this⟩]
  exact apply_leads g (List.mem_cons_of_mem _ (List.mem_filterMap.2 ⟨r, hr, hb⟩)) _ _

theorem drop_in {g : Graph} {buf : Buf} (rows : List Row) (h : BufIn g buf) : BufIn g (drop rows buf) := by
  intro a v hv
  unfold drop at hv
  split at hv
  · simp at hv
  · exact h a v hv

theorem BufIn.ext {a b : Graph} (h : Ext a b) {buf : Buf} (k : BufIn a buf) : BufIn b buf := fun i v e => (k i v e).ext h

theorem step_basic (l : Layer) {buf : Buf} (rows : List Row) {x : Val} {g : Graph} (wf : WF g.nodes) (hx : In g x) (hb : BufIn g buf) :
    Ext g (l.step buf rows x g).2.2 ∧ WF (l.step buf rows x g).2.2.nodes ∧ In (l.step buf rows x g).2.2 (l.step buf rows x g).1 ∧
      BufIn (l.step buf rows x g).2.2 (l.step buf rows x g).2.1 := by
  cases l with
  | act s => exact ⟨apply_ext _ _ _ _, apply_wf wf (by simpa using hx) _ _, apply_in _ _ _ _, hb.ext (apply_ext _ _ _ _)⟩
  | conv kw t =>
    obtain ⟨e1, w1, i1⟩ := preHook_basic kw rows wf hx hb
    simp only [Layer.step]
    by_cases hk : kw > 1
    · simp only [if_pos hk]
      obtain ⟨e2, w2, b2⟩ := fill_basic (preHook kw buf rows x g).1 rows buf _ w1 i1 (hb.ext e1)
      have e3 := apply_ext (fill (preHook kw buf rows x g).1 rows buf (preHook kw buf rows x g).2).2 [(preHook kw buf rows x g).1] true t
      exact ⟨(e1.trans e2).trans e3, apply_wf w2 (by simpa using i1.ext e2) _ _, apply_in _ _ _ _, drop_in _ (b2.ext e3)⟩
    · simp only [if_neg hk]
      have e3 := apply_ext (preHook kw buf rows x g).2 [(preHook kw buf rows x g).1] true t
      exact ⟨e1.trans e3, apply_wf w1 (by simpa using i1) _ _, apply_in _ _ _ _, drop_in _ ((hb.ext e1).ext e3)⟩

/-- The output of a layer was computed from its input. -/
theorem step_leads (l : Layer) {buf : Buf} (rows : List Row) {n : Nat} {g : Graph} (wf : WF g.nodes) (hx : In g (some n)) (hb : BufIn g buf) :
    ∃ m, (l.step buf rows (some n) g).1 = some m ∧ Leads (l.step buf rows (some n) g).2.2.nodes m n := by
  cases l with
  | act s => exact apply_leads g (by simp) _ _
  | conv kw t =>
    obtain ⟨e1, w1, i1⟩ := preHook_basic kw rows wf hx hb
    obtain ⟨m, hm, hl⟩ := preHook_leads kw buf rows (n := n) g
    simp only [Layer.step]
    by_cases hk : kw > 1
    · simp only [if_pos hk]
      obtain ⟨e2, w2, b2⟩ := fill_basic (preHook kw buf rows (some n) g).1 rows buf _ w1 i1 (hb.ext e1)
      obtain ⟨k, hk1, hk2⟩ := apply_leads (fill (preHook kw buf rows (some n) g).1 rows buf (preHook kw buf rows (some n) g).2).2
        (xs := [(preHook kw buf rows (some n) g).1]) (n := m) (by simp [hm]) true t
      exact ⟨k, hk1, hk2.trans ((apply_ext _ _ _ _).leads (e2.leads hl))⟩
    · simp only [if_neg hk]
      obtain ⟨k, hk1, hk2⟩ := apply_leads (preHook kw buf rows (some n) g).2 (xs := [(preHook kw buf rows (some n) g).1]) (n := m) (by simp [hm]) true t
      exact ⟨k, hk1, hk2.trans ((apply_ext _ _ _ _).leads hl)⟩

/-- The output of a wide convolution was computed from what `preHook` made. -/
theorem step_pre {kw : Nat} (hk : 1 < kw) (t : Bool) {buf : Buf} (rows : List Row) {x : Val} {g : Graph} (wf : WF g.nodes) (hx : In g x) (hb : BufIn g buf) {n : Nat}
    (h : ∃ m, (preHook kw buf rows x g).1 = some m ∧ Leads (preHook kw buf rows x g).2.nodes m n) :
    ∃ m, ((Layer.conv kw t).step buf rows x g).1 = some m ∧ Leads ((Layer.conv kw t).step buf rows x g).2.2.nodes m n := by
  obtain ⟨e1, w1, i1⟩ := preHook_basic kw rows wf hx hb
  obtain ⟨m, hm, hl⟩ := h
  simp only [Layer.step, if_pos hk]
  obtain ⟨e2, w2, b2⟩ := fill_basic (preHook kw buf rows x g).1 rows buf _ w1 i1 (hb.ext e1)
  obtain ⟨k, hk1, hk2⟩ := apply_leads (fill (preHook kw buf rows x g).1 rows buf (preHook kw buf rows x g).2).2
    (xs := [(preHook kw buf rows x g).1]) (n := m) (by simp [hm]) true t
  exact ⟨k, hk1, hk2.trans ((apply_ext _ _ _ _).leads (e2.leads hl))⟩

/-- The output of a trained convolution has a new node, which keeps tensors. -/
theorem step_trained (kw : Nat) {buf : Buf} (rows : List Row) {x : Val} {g : Graph} (wf : WF g.nodes) (hx : In g x) (hb : BufIn g buf) :
    ∃ m nd, ((Layer.conv kw true).step buf rows x g).1 = some m ∧ g.nodes.length ≤ m ∧
      ((Layer.conv kw true).step buf rows x g).2.2.nodes[m]? = some nd ∧ nd.saves = true := by
  obtain ⟨e1, w1, i1⟩ := preHook_basic kw rows wf hx hb
  simp only [Layer.step]
  by_cases hk : kw > 1
  · simp only [if_pos hk]
    obtain ⟨e2, w2, b2⟩ := fill_basic (preHook kw buf rows x g).1 rows buf _ w1 i1 (hb.ext e1)
    rw [apply_param]
    exact ⟨_, _, rfl, (e1.trans e2).len, by simp; rfl, rfl⟩
  · simp only [if_neg hk]
    rw [apply_param]
    exact ⟨_, _, rfl, e1.len, by simp; rfl, rfl⟩

/-- The buffer of a wide convolution after a batch. -/
theorem step_buf {kw : Nat} (hk : 1 < kw) (t : Bool) {buf : Buf} (rows : List Row) {x : Val} {g : Graph} (wf : WF g.nodes) (hx : In g x) (hb : BufIn g buf)
    (a : String) :
    ((∃ r ∈ rows, r.id = a ∧ r.eos = true) → ((Layer.conv kw t).step buf rows x g).2.1 a = none) ∧
    ((∀ r ∈ rows, r.id ≠ a) → ((Layer.conv kw t).step buf rows x g).2.1 a = buf a) ∧
    (((∃ r ∈ rows, r.id = a) ∧ ∀ r ∈ rows, r.id = a → r.eos = false) →
      ∃ v, ((Layer.conv kw t).step buf rows x g).2.1 a = some v ∧ ((preHook kw buf rows x g).1 = none → v = none) ∧
        ∀ n, (∃ m, (preHook kw buf rows x g).1 = some m ∧ Leads (preHook kw buf rows x g).2.nodes m n) →
          ∃ m, v = some m ∧ Leads ((Layer.conv kw t).step buf rows x g).2.2.nodes m n) := by
  obtain ⟨e1, w1, i1⟩ := preHook_basic kw rows wf hx hb
  simp only [Layer.step, if_pos hk]
  obtain ⟨e2, w2, b2⟩ := fill_basic (preHook kw buf rows x g).1 rows buf _ w1 i1 (hb.ext e1)
  obtain ⟨f1, f2⟩ := fill_at (preHook kw buf rows x g).1 a rows buf _ w1 i1 (hb.ext e1)
  refine ⟨fun ⟨r, hr, h1, h2⟩ => ?_, fun h => ?_, fun ⟨⟨r, hr, h1⟩, h2⟩ => ?_⟩
  · have : (rows.any fun r => r.eos && decide (r.id = a)) = true := List.any_eq_true.2 ⟨r, hr, by simp [h1, h2]⟩
    simp [drop, this]
  · have : (rows.any fun r => r.eos && decide (r.id = a)) = false := List.any_eq_false.2 fun r hr => by simp [h r hr]
    simp only [drop, this, Bool.false_eq_true, if_false]
    exact f2 fun ⟨r, hr, h1, _⟩ => h r hr h1
  · have : (rows.any fun r => r.eos && decide (r.id = a)) = false := List.any_eq_false.2 fun q hq => by
      by_cases hqa : q.id = a
      · simp [h2 q hq hqa]
      · simp [hqa]
    simp only [drop, this, Bool.false_eq_true, if_false]
    obtain ⟨v, hv, hv1, hv2⟩ := f1 ⟨r, hr, h1, h2 r hr h1⟩
    refine ⟨v, hv, hv1, fun n ⟨m, hm, hl⟩ => ?_⟩
    obtain ⟨k, hk1, hk2⟩ := hv2 m hm
    exact ⟨k, hk1, (apply_ext _ _ _ _).leads (hk2.trans (e2.leads hl))⟩

/-! ## A stack -/

/-- Every stored buffer of the stack is a value of the graph. -/
def StackIn (g : Graph) (s : List (Layer × Buf)) : Prop := ∀ l ∈ s, BufIn g l.2

theorem forward_basic : ∀ (s : List (Layer × Buf)) (rows : List Row) (x : Val) (g : Graph), WF g.nodes → In g x → StackIn g s →
    Ext g (forward s rows x g).2.2 ∧ WF (forward s rows x g).2.2.nodes ∧ In (forward s rows x g).2.2 (forward s rows x g).1 ∧
      StackIn (forward s rows x g).2.2 (forward s rows x g).2.1 := by
  intro s
  induction s with
  | nil => intro rows x g wf hx _; exact ⟨.rfl' g, wf, hx, fun l h => by simp [forward] at h⟩
  | cons p s ih =>
    obtain ⟨l, buf⟩ := p
    intro rows x g wf hx hs
    obtain ⟨e1, w1, i1, b1⟩ := step_basic l rows wf hx (hs (l, buf) (by simp) : BufIn g buf)
    obtain ⟨e2, w2, i2, b2⟩ := ih rows _ _ w1 i1 fun q hq => (hs q (List.mem_cons_of_mem _ hq)).ext e1
    refine ⟨e1.trans e2, w2, i2, fun q hq => ?_⟩
    simp only [forward, List.mem_cons] at hq
    rcases hq with rfl | hq
    · exact b1.ext e2
    · exact b2 q hq

theorem forward_leads : ∀ (s : List (Layer × Buf)) (rows : List Row) (n : Nat) (g : Graph), WF g.nodes → In g (some n) → StackIn g s →
    ∃ m, (forward s rows (some n) g).1 = some m ∧ Leads (forward s rows (some n) g).2.2.nodes m n := by
  intro s
  induction s with
  | nil => intro rows n g _ _ _; exact ⟨n, rfl, .refl _⟩
  | cons p s ih =>
    obtain ⟨l, buf⟩ := p
    intro rows n g wf hx hs
    have hb : BufIn g buf := hs (l, buf) (by simp)
    obtain ⟨e1, w1, i1, b1⟩ := step_basic l rows wf hx hb
    obtain ⟨m, hm, hl⟩ := step_leads l rows wf hx hb
    have i1' : In (l.step buf rows (some n) g).2.2 (some m) := hm ▸ i1
    have hs' : StackIn (l.step buf rows (some n) g).2.2 s := fun q hq => (hs q (List.mem_cons_of_mem _ hq)).ext e1
    obtain ⟨k, hk, hk2⟩ := ih rows m _ w1 i1' hs'
    obtain ⟨e2, -, -, -⟩ := forward_basic s rows (some m) _ w1 i1' hs'
    simp only [forward, hm]
    exact ⟨k, hk, hk2.trans (e2.leads hl)⟩

theorem forward_append (s₁ s₂ : List (Layer × Buf)) (rows : List Row) (x : Val) (g : Graph) :
    forward (s₁ ++ s₂) rows x g =
      ((forward s₂ rows (forward s₁ rows x g).1 (forward s₁ rows x g).2.2).1,
        (forward s₁ rows x g).2.1 ++ (forward s₂ rows (forward s₁ rows x g).1 (forward s₁ rows x g).2.2).2.1,
        (forward s₂ rows (forward s₁ rows x g).1 (forward s₁ rows x g).2.2).2.2) := by
  induction s₁ generalizing x g with
  | nil => rfl
  | cons p s₁ ih =>
    obtain ⟨l, buf⟩ := p
    simp only [List.cons_append, forward, ih]

theorem forward_layers (s : List (Layer × Buf)) (rows : List Row) (x : Val) (g : Graph) : (forward s rows x g).2.1.map Prod.fst = s.map Prod.fst := by
  induction s generalizing x g with
  | nil => rfl
  | cons p s ih =>
    obtain ⟨l, buf⟩ := p
    simp only [forward, List.map_cons, ih]

/-- A batch in a stack with a wide convolution (buffer `buf`) after a trained one: the trained one makes a node that keeps tensors; the output and the new buffers of the wide one come
from it, and, in a batch with a row that does not start, from the old buffers of the batch's streams. -/
theorem late_step {kw kw' : Nat} (hk : 1 < kw') (t : Bool) (s₁ s₂ s₃ : List (Layer × Buf)) (b₁ buf : Buf) (rows : List Row) {g : Graph} (wf : WF g.nodes)
    (hs : StackIn g (s₁ ++ (.conv kw true, b₁) :: (s₂ ++ (.conv kw' t, buf) :: s₃))) :
    ∃ s₁' b₁' s₂' buf' s₃' out c nd, forward (s₁ ++ (.conv kw true, b₁) :: (s₂ ++ (.conv kw' t, buf) :: s₃)) rows none g =
        (some out, s₁' ++ (.conv kw true, b₁') :: (s₂' ++ (.conv kw' t, buf') :: s₃'),
          (forward (s₁ ++ (.conv kw true, b₁) :: (s₂ ++ (.conv kw' t, buf) :: s₃)) rows none g).2.2) ∧
      (forward (s₁ ++ (.conv kw true, b₁) :: (s₂ ++ (.conv kw' t, buf) :: s₃)) rows none g).2.2.nodes[c]? = some nd ∧ nd.saves = true ∧
      g.nodes.length ≤ c ∧
      Leads (forward (s₁ ++ (.conv kw true, b₁) :: (s₂ ++ (.conv kw' t, buf) :: s₃)) rows none g).2.2.nodes out c ∧
      (∀ a, (∃ r ∈ rows, r.id = a) → (∃ r ∈ rows, r.sos = false) → ∀ n, buf a = some (some n) →
        Leads (forward (s₁ ++ (.conv kw true, b₁) :: (s₂ ++ (.conv kw' t, buf) :: s₃)) rows none g).2.2.nodes out n) ∧
      (∀ a, (∃ r ∈ rows, r.id = a ∧ r.eos = true) → buf' a = none) ∧
      (∀ a, (∀ r ∈ rows, r.id ≠ a) → buf' a = buf a) ∧
      ∀ a, (∃ r ∈ rows, r.id = a) → (∀ r ∈ rows, r.id = a → r.eos = false) → ∃ m, buf' a = some (some m) ∧
        Leads (forward (s₁ ++ (.conv kw true, b₁) :: (s₂ ++ (.conv kw' t, buf) :: s₃)) rows none g).2.2.nodes m c ∧
        ((∃ r ∈ rows, r.sos = false) → ∀ n, buf a = some (some n) →
          Leads (forward (s₁ ++ (.conv kw true, b₁) :: (s₂ ++ (.conv kw' t, buf) :: s₃)) rows none g).2.2.nodes m n) := by
  have hx0 : In g none := fun n e => by simp at e
  obtain ⟨e1, w1, i1, k1⟩ := forward_basic s₁ rows none g wf hx0 fun q hq => hs q (by simp [hq])
  have hb₁ : BufIn g b₁ := hs (.conv kw true, b₁) (by simp)
  have hbuf : BufIn g buf := hs (.conv kw' t, buf) (by simp)
  have hs2 : StackIn g s₂ := fun q hq => hs q (by simp [hq])
  have hs3 : StackIn g s₃ := fun q hq => hs q (by simp [hq])
  have E1 := step_basic (.conv kw true) rows w1 i1 (hb₁.ext e1)
  obtain ⟨e2, w2, i2, -⟩ := E1
  obtain ⟨c, nd, hc, hlen, hnd, hsv⟩ := step_trained kw rows w1 i1 (hb₁.ext e1)
  rw [hc] at i2
  have e12 := e1.trans e2
  have E2 := forward_basic s₂ rows (some c) _ w2 i2 fun q hq => (hs2 q hq).ext e12
  obtain ⟨e3, w3, i3, -⟩ := E2
  obtain ⟨m, hm, hml⟩ := forward_leads s₂ rows c _ w2 i2 fun q hq => (hs2 q hq).ext e12
  rw [hm] at i3
  have e123 := e12.trans e3
  have E3 := step_basic (.conv kw' t) rows w3 i3 (hbuf.ext e123)
  obtain ⟨e4, w4, i4, -⟩ := E3
  obtain ⟨y, hy, hyl⟩ := step_leads (.conv kw' t) rows w3 i3 (hbuf.ext e123)
  rw [hy] at i4
  have e1234 := e123.trans e4
  have E4 := forward_basic s₃ rows (some y) _ w4 i4 fun q hq => (hs3 q hq).ext e1234
  obtain ⟨e5, w5, i5, -⟩ := E4
  obtain ⟨out, ho, hol⟩ := forward_leads s₃ rows y _ w4 i4 fun q hq => (hs3 q hq).ext e1234
  obtain ⟨p, hp, hpl⟩ := preHook_leads kw' buf rows (n := m) (forward s₂ rows (some c) ((Layer.conv kw true).step b₁ rows (forward s₁ rows none g).1 (forward s₁ rows none g).2.2).2.2).2.2
  have B := step_buf hk t rows w3 i3 (hbuf.ext e123)
  have hstepin : ∀ n, (∃ q, (preHook kw' buf rows (some m) (forward s₂ rows (some c) ((Layer.conv kw true).step b₁ rows (forward s₁ rows none g).1 (forward s₁ rows none g).2.2).2.2).2.2).1 = some q ∧
      Leads (preHook kw' buf rows (some m) (forward s₂ rows (some c) ((Layer.conv kw true).step b₁ rows (forward s₁ rows none g).1 (forward s₁ rows none g).2.2).2.2).2.2).2.nodes q n) →
      Leads ((Layer.conv kw' t).step buf rows (some m) (forward s₂ rows (some c) ((Layer.conv kw true).step b₁ rows (forward s₁ rows none g).1 (forward s₁ rows none g).2.2).2.2).2.2).2.2.nodes y n := by
    rintro n ⟨q, hq, hql⟩
    obtain ⟨z, hz, hzl⟩ := step_pre hk t rows w3 i3 (hbuf.ext e123) ⟨q, hq, hql⟩
    rw [hy] at hz
    obtain rfl := Option.some.inj hz
    exact hzl
  have hF : forward (s₁ ++ (.conv kw true, b₁) :: (s₂ ++ (.conv kw' t, buf) :: s₃)) rows none g =
      (some out, (forward s₁ rows none g).2.1 ++ (.conv kw true, ((Layer.conv kw true).step b₁ rows (forward s₁ rows none g).1 (forward s₁ rows none g).2.2).2.1) ::
        ((forward s₂ rows (some c) ((Layer.conv kw true).step b₁ rows (forward s₁ rows none g).1 (forward s₁ rows none g).2.2).2.2).2.1 ++
          (.conv kw' t, ((Layer.conv kw' t).step buf rows (some m) (forward s₂ rows (some c) ((Layer.conv kw true).step b₁ rows (forward s₁ rows none g).1 (forward s₁ rows none g).2.2).2.2).2.2).2.1) ::
          (forward s₃ rows (some y) ((Layer.conv kw' t).step buf rows (some m) (forward s₂ rows (some c) ((Layer.conv kw true).step b₁ rows (forward s₁ rows none g).1 (forward s₁ rows none g).2.2).2.2).2.2).2.2).2.1),
        (forward s₃ rows (some y) ((Layer.conv kw' t).step buf rows (some m) (forward s₂ rows (some c) ((Layer.conv kw true).step b₁ rows (forward s₁ rows none g).1 (forward s₁ rows none g).2.2).2.2).2.2).2.2).2.2) := by
    rw [forward_append]
    simp only [forward, hc, forward_append, hm, hy, ho]
  refine ⟨_, _, _, _, _, out, c, nd, by rw [hF], ?_, hsv, ?_, ?_, ?_, fun a h => (B a).1 h, fun a h => (B a).2.1 h, ?_⟩
  · rw [hF]; exact e5.get (e4.get (e3.get hnd))
  · exact Nat.le_trans e1.len hlen
  · rw [hF]; exact hol.trans (e5.leads (hyl.trans (e4.leads hml)))
  · intro a ⟨r, hr, hra⟩ h0 n hn
    rw [hF]
    subst hra
    exact hol.trans (e5.leads (hstepin n (preHook_buf hk h0 hr hn _ _)))
  · intro a ha hae
    obtain ⟨v, hv, -, hv2⟩ := (B a).2.2 ⟨ha, hae⟩
    obtain ⟨z, rfl, hzl⟩ := hv2 m ⟨p, hp, hpl⟩
    refine ⟨z, hv, ?_, ?_⟩
    · rw [hF]; exact e5.leads (hzl.trans (e4.leads hml))
    · intro h0 n hn
      obtain ⟨r, hr, rfl⟩ := ha
      obtain ⟨z', hz', hzl'⟩ := hv2 n (preHook_buf hk h0 hr hn _ _)
      obtain rfl := Option.some.inj hz'
      rw [hF]; exact e5.leads hzl'

/-! ## Training raises -/

theorem open_snoc (bs : List (List Row)) (b : List Row) (a : String) :
    Open (bs ++ [b]) a ↔ (∀ r ∈ b, r.id = a → r.eos = false) ∧ ((∃ r ∈ b, r.id = a) ∨ Open bs a) := by
  constructor
  · rintro ⟨b1, c, b2, h, ⟨r, hr, h1, h2⟩, h3⟩
    rcases List.eq_nil_or_concat b2 with rfl | ⟨b2', d, rfl⟩
    · obtain ⟨rfl, hh⟩ := List.append_inj' h rfl
      obtain rfl : b = c := by simpa using hh
      exact ⟨h3 b (by simp), .inl ⟨r, hr, h1⟩⟩
    · rw [List.concat_eq_append] at h h3
      rw [← List.cons_append, ← List.append_assoc] at h
      obtain ⟨rfl, hh⟩ := List.append_inj' h rfl
      obtain rfl : b = d := by simpa using hh
      refine ⟨h3 b (by simp), .inr ⟨b1, c, b2', rfl, ⟨r, hr, h1, h2⟩, fun d hd => h3 d ?_⟩⟩
      simp only [List.mem_cons, List.mem_append] at hd ⊢
      rcases hd with hd | hd
      · exact .inl hd
      · exact .inr (.inl hd)
  · rintro ⟨h1, ⟨r, hr, hra⟩ | ⟨b1, c, b2, rfl, h2, h3⟩⟩
    · exact ⟨bs, b, [], rfl, ⟨r, hr, hra, h1 r hr hra⟩, fun d hd => by simp at hd; subst hd; exact h1⟩
    · refine ⟨b1, c, b2 ++ [b], by simp, h2, fun d hd => ?_⟩
      simp only [List.mem_cons, List.mem_append, List.not_mem_nil, or_false] at hd
      rcases hd with hd | hd | hd
      · exact h3 d (by simp [hd])
      · exact h3 d (by simp [hd])
      · subst hd; exact h1

theorem open_nil (a : String) : ¬ Open [] a := by
  rintro ⟨b1, c, b2, h, -⟩
  simp at h

theorem backward_ok {g g' : Graph} {n : Nat} (h : backward g (some n) = .ok g') :
    (∀ r ∈ keepers g n, r ∉ g.freed) ∧ g' = { g with freed := g.freed ++ keepers g n } := by
  simp only [backward] at h
  split at h
  · cases h
  · rename_i hn
    refine ⟨fun r hr hf => hn (List.any_eq_true.2 ⟨r, hr, by simpa using hf⟩), ?_⟩
    injection h with h
    exact h.symm

theorem late_train {kw kw' : Nat} (hk : 1 < kw') (t : Bool) : ∀ (bs pre : List (List Row)) (s₁ s₂ s₃ : List (Layer × Buf)) (b₁ buf : Buf) (g : Graph),
    WF g.nodes → StackIn g (s₁ ++ (.conv kw true, b₁) :: (s₂ ++ (.conv kw' t, buf) :: s₃)) →
    (∀ a, Open pre a → ∃ n c nd, buf a = some (some n) ∧ Leads g.nodes n c ∧ g.nodes[c]? = some nd ∧ nd.saves = true ∧ c ∈ g.freed) →
    ∀ z, train (s₁ ++ (.conv kw true, b₁) :: (s₂ ++ (.conv kw' t, buf) :: s₃)) g bs = .ok z →
    ¬ ∃ bs₁ b bs₂, bs = bs₁ ++ b :: bs₂ ∧ (∃ r ∈ b, Open (pre ++ bs₁) r.id) ∧ ∃ r ∈ b, r.sos = false := by
  intro bs
  induction bs with
  | nil =>
    rintro pre s₁ s₂ s₃ b₁ buf g - - - z - ⟨c1, c, c2, h, -⟩
    simp at h
  | cons b bs ih =>
    intro pre s₁ s₂ s₃ b₁ buf g wf hs hinv z hz
    obtain ⟨s₁', b₁', s₂', buf', s₃', out, c, nd, hF, hnd, hsv, -, hoc, hob, hb1, hb2, hb3⟩ := late_step hk t s₁ s₂ s₃ b₁ buf b wf hs
    have hx0 : In g none := fun n e => by simp at e
    obtain ⟨e, w, i, k⟩ := forward_basic _ b none g wf hx0 hs
    generalize hG : (forward (s₁ ++ (.conv kw true, b₁) :: (s₂ ++ (.conv kw' t, buf) :: s₃)) b none g).2.2 = G at *
    simp only [train, hF] at hz
    rw [hF] at k
    obtain ⟨g', hg, hz⟩ : ∃ g', backward G (some out) = .ok g' ∧ train (s₁' ++ (.conv kw true, b₁') :: (s₂' ++ (.conv kw' t, buf') :: s₃')) g' bs = .ok z := by
      cases hg : backward G (some out) with
      | error e => rw [hg] at hz; cases hz
      | ok g' => rw [hg] at hz; exact ⟨g', rfl, hz⟩
    obtain ⟨hfree, rfl⟩ := backward_ok hg
    have hno : ¬ ((∃ r ∈ b, Open pre r.id) ∧ ∃ r ∈ b, r.sos = false) := by
      rintro ⟨⟨r, hr, ho⟩, h0⟩
      obtain ⟨n, c', nd', hn, hl, hnd', hsv', hfr⟩ := hinv _ ho
      exact hfree c' ((mem_keepers w).2 ⟨(hob r.id ⟨r, hr, rfl⟩ h0 n hn).trans (e.leads hl), nd', e.get hnd', hsv'⟩) (by rw [e.2]; exact hfr)
    have ih' := ih (pre ++ [b]) s₁' s₂' s₃' b₁' buf' { G with freed := G.freed ++ keepers G out } w k (by
      intro a ha
      obtain ⟨h1, h2⟩ := (open_snoc pre b a).1 ha
      by_cases hrow : ∃ r ∈ b, r.id = a
      · obtain ⟨m, hm, hmc, -⟩ := hb3 a hrow h1
        exact ⟨m, c, nd, hm, hmc, hnd, hsv, List.mem_append_right _ ((mem_keepers w).2 ⟨hoc, nd, hnd, hsv⟩)⟩
      · obtain ⟨n, c', nd', hn, hl, hnd', hsv', hfr⟩ := hinv a (h2.resolve_left hrow)
        refine ⟨n, c', nd', ?_, e.leads hl, e.get hnd', hsv', List.mem_append_left _ (by rw [e.2]; exact hfr)⟩
        rw [hb2 a fun r hr hra => hrow ⟨r, hr, hra⟩, hn]) z hz
    rintro ⟨c1, d, c2, h, h1, h2⟩
    cases c1 with
    | nil =>
      obtain ⟨rfl, rfl⟩ : b = d ∧ bs = c2 := by simpa using h
      exact hno ⟨by simpa using h1, h2⟩
    | cons x c1 =>
      obtain ⟨rfl, rfl⟩ : b = x ∧ bs = c1 ++ d :: c2 := by simpa using h
      exact ih' ⟨c1, d, c2, rfl, by simpa using h1, h2⟩

/-! ## Training works -/

/-- The nodes from `base` on were computed from such nodes only. -/
def Above (base : Nat) (ns : List Node) : Prop := ∀ (i : Nat) nd, base ≤ i → ns[i]? = some nd → ∀ p ∈ nd.parents, base ≤ p

theorem Above.leads {base : Nat} {ns : List Node} (h : Above base ns) {n m : Nat} (hl : Leads ns n m) (hn : base ≤ n) : base ≤ m := by
  induction hl with
  | refl => exact hn
  | step h1 h2 _ ih => exact ih (h _ _ hn h1 _ h2)

theorem apply_above {base : Nat} {g : Graph} (hg : base ≤ g.nodes.length) (h : Above base g.nodes) {xs : List Val} (hx : ∀ n, some n ∈ xs → base ≤ n) (s p : Bool) :
    Above base (g.apply xs s p).2.nodes ∧ base ≤ (g.apply xs s p).2.nodes.length ∧ ∀ n, (g.apply xs s p).1 = some n → base ≤ n := by
  unfold Graph.apply
  split
  · refine ⟨?_, by simp; omega, fun n e => by simp at e; omega⟩
    intro i nd hi hnd q hq
    by_cases hlt : i < g.nodes.length
    · rw [List.getElem?_append_left hlt] at hnd
      exact h i nd hi hnd q hq
    · have hii := (List.getElem?_eq_some_iff.1 hnd).1
      simp at hii
      have : i = g.nodes.length := by omega
      subst this
      simp at hnd
      subst hnd
      simp at hq
      exact hx q hq
  · exact ⟨h, hg, fun n e => by simp at e⟩

theorem fill_above {base : Nat} {x : Val} (hx : ∀ n, x = some n → base ≤ n) : ∀ (rows : List Row) (buf : Buf) (g : Graph), base ≤ g.nodes.length → Above base g.nodes →
    Above base (fill x rows buf g).2.nodes ∧ base ≤ (fill x rows buf g).2.nodes.length := by
  intro rows
  induction rows with
  | nil => intro buf g hg h; exact ⟨h, hg⟩
  | cons r rs ih =>
    intro buf g hg h
    cases he : r.eos with
    | true => simp only [fill, he, if_true]; exact ih buf g hg h
    | false =>
      simp only [fill, he, Bool.false_eq_true, if_false]
      obtain ⟨h1, h2, -⟩ := apply_above hg h (xs := [x]) (fun n hn => hx n (List.mem_singleton.1 hn).symm) false false
      exact ih _ _ h2 h1

/-- The batch takes nothing from the past that requires gradients. -/
def Clean (s : List (Layer × Buf)) (rows : List Row) : Prop :=
  ∀ kw t buf, (Layer.conv kw t, buf) ∈ s → 1 < kw → (∀ r ∈ rows, r.sos = true) ∨ ∀ r ∈ rows, ∀ v, buf r.id = some v → v = none

theorem forward_above {base : Nat} {rows : List Row} : ∀ (s : List (Layer × Buf)) (x : Val) (g : Graph), Clean s rows → (∀ n, x = some n → base ≤ n) →
    base ≤ g.nodes.length → Above base g.nodes →
    Above base (forward s rows x g).2.2.nodes ∧ ∀ n, (forward s rows x g).1 = some n → base ≤ n := by
  intro s
  induction s with
  | nil => intro x g _ hx _ h; exact ⟨h, hx⟩
  | cons p s ih =>
    obtain ⟨l, buf⟩ := p
    intro x g hc hx hg h
    have hc' : Clean s rows := fun kw t b hb => hc kw t b (List.mem_cons_of_mem _ hb)
    have key : Above base (l.step buf rows x g).2.2.nodes ∧ base ≤ (l.step buf rows x g).2.2.nodes.length ∧ ∀ n, (l.step buf rows x g).1 = some n → base ≤ n := by
      cases l with
      | act sv => exact apply_above hg h (xs := [x]) (fun n hn => hx n (List.mem_singleton.1 hn).symm) _ _
      | conv kw t =>
        have hp : Above base (preHook kw buf rows x g).2.nodes ∧ base ≤ (preHook kw buf rows x g).2.nodes.length ∧ ∀ n, (preHook kw buf rows x g).1 = some n → base ≤ n := by
          unfold preHook
          split
          · rename_i hh
            refine apply_above hg h (fun n hn => ?_) _ _
            rcases List.mem_cons.1 hn with hn | hn
            · exact hx n hn.symm
            · obtain ⟨r, hr, hrb⟩ := List.mem_filterMap.1 hn
              rcases hc kw t buf (by simp) hh.1 with h1 | h1
              · have : rows.all Row.sos = true := List.all_eq_true.2 h1
                rw [this] at hh; simp at hh
              · exact absurd (h1 r hr _ hrb) (by simp)
          · exact ⟨h, hg, hx⟩
        obtain ⟨p1, p2, p3⟩ := hp
        simp only [Layer.step]
        by_cases hk : kw > 1
        · simp only [if_pos hk]
          obtain ⟨f1, f2⟩ := fill_above p3 rows buf _ p2 p1
          exact apply_above f2 f1 (fun n hn => p3 n (List.mem_singleton.1 hn).symm) _ _
        · simp only [if_neg hk]
          exact apply_above p2 p1 (fun n hn => p3 n (List.mem_singleton.1 hn).symm) _ _
    obtain ⟨k1, k2, k3⟩ := key
    exact ih _ _ hc' k3 k2 k1

theorem forward_some {s : List (Layer × Buf)} {kw : Nat} {b : Buf} (hb : (Layer.conv kw true, b) ∈ s) (rows : List Row) {g : Graph} (wf : WF g.nodes) (hs : StackIn g s) :
    ∃ n, (forward s rows none g).1 = some n := by
  obtain ⟨s1, s2, rfl⟩ := List.append_of_mem hb
  have hx0 : In g none := fun n e => by simp at e
  obtain ⟨e1, w1, i1, k1⟩ := forward_basic s1 rows none g wf hx0 fun q hq => hs q (by simp [hq])
  have hb₁ : BufIn g b := hs (.conv kw true, b) (by simp)
  obtain ⟨e2, w2, i2, -⟩ := step_basic (.conv kw true) rows w1 i1 (hb₁.ext e1)
  obtain ⟨c, nd, hc, -⟩ := step_trained kw rows w1 i1 (hb₁.ext e1)
  rw [hc] at i2
  obtain ⟨m, hm, -⟩ := forward_leads s2 rows c _ w2 i2 fun q hq => (hs q (by simp [hq])).ext (e1.trans e2)
  exact ⟨m, by rw [forward_append]; simp only [forward, hc, hm]⟩

/-- One call and its backward pass on a clean batch. -/
theorem clean_ok {s : List (Layer × Buf)} {rows : List Row} (hc : Clean s rows) {g : Graph} (wf : WF g.nodes) (hs : StackIn g s)
    (hf : ∀ r ∈ g.freed, r < g.nodes.length) (ht : Trained (s.map Prod.fst)) :
    ∃ g', backward (forward s rows none g).2.2 (forward s rows none g).1 = .ok g' ∧ WF g'.nodes ∧ StackIn g' (forward s rows none g).2.1 ∧
      ∀ r ∈ g'.freed, r < g'.nodes.length := by
  have hx0 : In g none := fun n e => by simp at e
  obtain ⟨e, w, i, k⟩ := forward_basic s rows none g wf hx0 hs
  obtain ⟨a1, a2⟩ := forward_above (base := g.nodes.length) s none g hc (fun n e => by simp at e) (Nat.le_refl _) (by
    intro i nd hi hnd
    have := (List.getElem?_eq_some_iff.1 hnd).1
    omega)
  obtain ⟨kw, hkw⟩ := ht
  obtain ⟨⟨l, b⟩, hb, rfl : l = _⟩ := List.mem_map.1 hkw
  obtain ⟨n, hn⟩ := forward_some hb rows wf hs
  rw [hn]
  refine ⟨{ (forward s rows none g).2.2 with freed := (forward s rows none g).2.2.freed ++ keepers (forward s rows none g).2.2 n }, ?_, w, k, ?_⟩
  · simp only [backward]
    rw [if_neg]
    intro hh
    obtain ⟨r, hr, hr2⟩ := List.any_eq_true.1 hh
    obtain ⟨hl, -⟩ := (mem_keepers w).1 hr
    have h1 := a1.leads hl (a2 n hn)
    have h2 : r ∈ g.freed := by rw [← e.2]; simpa using hr2
    have := hf r h2
    omega
  · intro r hr
    rcases List.mem_append.1 hr with hr | hr
    · rw [e.2] at hr
      exact Nat.lt_of_lt_of_le (hf r hr) e.len
    · obtain ⟨-, nd, hnd, -⟩ := (mem_keepers w).1 hr
      exact (List.getElem?_eq_some_iff.1 hnd).1

/-- The stack's buffers, as long as no convolution with a buffer comes after a trained one: `grad` says whether the input may require gradients. -/
def Plain : Bool → List (Layer × Buf) → Prop
  | _, [] => True
  | grad, (.act _, buf) :: s => (∀ a v, buf a = some v → v = none) ∧ Plain grad s
  | grad, (.conv kw t, buf) :: s => (1 < kw → grad = false) ∧ (∀ a v, buf a = some v → v = none) ∧ Plain (grad || t) s

theorem plain_bufs : ∀ (grad : Bool) (s : List (Layer × Buf)), Plain grad s → ∀ l ∈ s, ∀ a v, l.2 a = some v → v = none := by
  intro grad s
  induction s generalizing grad with
  | nil => intro _ l hl; simp at hl
  | cons p s ih =>
    obtain ⟨l, b⟩ := p
    intro hp q hq
    cases l with
    | act sv =>
      rcases List.mem_cons.1 hq with rfl | hq
      · exact hp.1
      · exact ih grad hp.2 q hq
    | conv kw t =>
      rcases List.mem_cons.1 hq with rfl | hq
      · exact hp.2.1
      · exact ih _ hp.2.2 q hq

theorem plain_clean {rows : List Row} (grad : Bool) (s : List (Layer × Buf)) (h : Plain grad s) : Clean s rows :=
  fun _ _ _ hm _ => .inr fun _ _ v hv => plain_bufs grad s h _ hm _ v hv

theorem plain_forward {rows : List Row} : ∀ (s : List (Layer × Buf)) (grad : Bool) (x : Val) (g : Graph), Plain grad s → (grad = false → x = none) →
    WF g.nodes → In g x → StackIn g s → Plain grad (forward s rows x g).2.1 := by
  intro s
  induction s with
  | nil => intro grad x g _ _ _ _ _; trivial
  | cons p s ih =>
    obtain ⟨l, buf⟩ := p
    intro grad x g hp hx wf hi hs
    have hb : BufIn g buf := hs (l, buf) (by simp)
    obtain ⟨e1, w1, i1, b1⟩ := step_basic l rows wf hi hb
    have hs' : StackIn (l.step buf rows x g).2.2 s := fun q hq => (hs q (List.mem_cons_of_mem _ hq)).ext e1
    cases l with
    | act sv =>
      exact ⟨hp.1, ih grad _ _ hp.2 (fun hg => by simp [Layer.step, hx hg, Graph.apply]) w1 i1 hs'⟩
    | conv kw t =>
      obtain ⟨h1, hn, h2⟩ := hp
      have hpre : grad = false → (preHook kw buf rows x g).1 = none := by
        intro hg
        unfold preHook
        split
        · rename_i hh
          have : ((x :: rows.filterMap fun r => buf r.id).any Option.isSome) = false := by
            refine List.any_eq_false.2 fun v hv => ?_
            rcases List.mem_cons.1 hv with rfl | hv
            · simp [hx hg]
            · obtain ⟨r, -, hr⟩ := List.mem_filterMap.1 hv
              simp [hn _ _ hr]
          simp [Graph.apply, this]
        · exact hx hg
      refine ⟨h1, fun a v hv => ?_, ih (grad || t) _ _ h2 (fun hg => ?_) w1 i1 hs'⟩
      · rcases Nat.lt_or_ge 1 kw with hk | hk
        rotate_left
        · have hk : ¬ 1 < kw := by omega
          simp only [Layer.step, hk, if_false, drop] at hv
          split at hv
          · simp at hv
          · exact hn a v hv
        obtain ⟨B1, B2, B3⟩ := step_buf hk t rows wf hi hb a
        by_cases hrow : ∃ r ∈ rows, r.id = a
        · by_cases hend : ∃ r ∈ rows, r.id = a ∧ r.eos = true
          · rw [B1 hend] at hv; simp at hv
          · obtain ⟨v', hv', hv1, -⟩ := B3 ⟨hrow, fun r hr hra => by
              cases he : r.eos with
              | false => rfl
              | true => exact absurd ⟨r, hr, hra, he⟩ hend⟩
            rw [hv'] at hv
            obtain rfl := Option.some.inj hv
            exact hv1 (hpre (h1 hk))
        · rw [B2 fun r hr hra => hrow ⟨r, hr, hra⟩] at hv
          exact hn a v hv
      · simp only [Bool.or_eq_false_iff] at hg
        obtain ⟨hg, rfl⟩ := hg
        simp [Layer.step, Graph.apply, hpre hg]

theorem plain_train : ∀ (bs : List (List Row)) (s : List (Layer × Buf)) (g : Graph), Plain false s → Trained (s.map Prod.fst) → WF g.nodes → StackIn g s →
    (∀ r ∈ g.freed, r < g.nodes.length) → ∃ z, train s g bs = .ok z := by
  intro bs
  induction bs with
  | nil => intro s g _ _ _ _ _; exact ⟨_, rfl⟩
  | cons b bs ih =>
    intro s g hp ht wf hs hf
    obtain ⟨g', hg, w, k, f⟩ := clean_ok (plain_clean (rows := b) _ s hp) wf hs hf ht
    have hx0 : In g none := fun n e => by simp at e
    obtain ⟨z, hz⟩ := ih _ g' (plain_forward (rows := b) s false none g hp (fun _ => rfl) wf hx0 hs) (by rw [forward_layers]; exact ht) w k f
    exact ⟨z, by simp only [train, hg]; exact hz⟩

/-- Only open streams have buffers. -/
def Kept (s : List (Layer × Buf)) (pre : List (List Row)) : Prop :=
  ∀ kw t buf, (Layer.conv kw t, buf) ∈ s → 1 < kw → ∀ a v, buf a = some v → Open pre a

theorem kept_forward {pre : List (List Row)} {rows : List Row} : ∀ (s : List (Layer × Buf)) (x : Val) (g : Graph), Kept s pre → WF g.nodes → In g x → StackIn g s →
    Kept (forward s rows x g).2.1 (pre ++ [rows]) := by
  intro s
  induction s with
  | nil => intro x g _ _ _ _ kw t buf h; simp [forward] at h
  | cons p s ih =>
    obtain ⟨l, b⟩ := p
    intro x g hk wf hi hs
    have hb : BufIn g b := hs (l, b) (by simp)
    obtain ⟨e1, w1, i1, b1⟩ := step_basic l rows wf hi hb
    have hs' : StackIn (l.step b rows x g).2.2 s := fun q hq => (hs q (List.mem_cons_of_mem _ hq)).ext e1
    have ih' := ih _ _ (fun kw t buf hm => hk kw t buf (List.mem_cons_of_mem _ hm)) w1 i1 hs'
    intro kw t buf hm hkw a v hv
    simp only [forward, List.mem_cons] at hm
    rcases hm with hm | hm
    · simp only [Prod.mk.injEq] at hm
      obtain ⟨rfl, rfl⟩ := hm
      obtain ⟨B1, B2, B3⟩ := step_buf hkw t rows wf hi hb a
      refine (open_snoc pre rows a).2 ?_
      by_cases hend : ∃ r ∈ rows, r.id = a ∧ r.eos = true
      · rw [B1 hend] at hv; simp at hv
      · refine ⟨fun r hr hra => ?_, ?_⟩
        · cases he : r.eos with
          | false => rfl
          | true => exact absurd ⟨r, hr, hra, he⟩ hend
        · by_cases hrow : ∃ r ∈ rows, r.id = a
          · exact .inl hrow
          · rw [B2 fun r hr hra => hrow ⟨r, hr, hra⟩] at hv
            exact .inr (hk kw t b (by simp) hkw a v hv)
    · exact ih' kw t buf hm hkw a v hv

theorem kept_train : ∀ (bs pre : List (List Row)) (s : List (Layer × Buf)) (g : Graph), Kept s pre → Trained (s.map Prod.fst) → WF g.nodes → StackIn g s →
    (∀ r ∈ g.freed, r < g.nodes.length) →
    (¬ ∃ bs₁ b bs₂, bs = bs₁ ++ b :: bs₂ ∧ (∃ r ∈ b, Open (pre ++ bs₁) r.id) ∧ ∃ r ∈ b, r.sos = false) → ∃ z, train s g bs = .ok z := by
  intro bs
  induction bs with
  | nil => intro pre s g _ _ _ _ _ _; exact ⟨_, rfl⟩
  | cons b bs ih =>
    intro pre s g hk ht wf hs hf hc
    have hcl : Clean s b := by
      intro kw t buf hm hkw
      by_cases h0 : ∃ r ∈ b, r.sos = false
      · refine .inr fun r hr v hv => ?_
        exact absurd ⟨[], b, bs, rfl, ⟨r, hr, by simpa using hk kw t buf hm hkw _ v hv⟩, h0⟩ hc
      · refine .inl fun r hr => ?_
        cases he : r.sos with
        | true => rfl
        | false => exact absurd ⟨r, hr, he⟩ h0
    obtain ⟨g', hg, w, k, f⟩ := clean_ok hcl wf hs hf ht
    have hx0 : In g none := fun n e => by simp at e
    obtain ⟨z, hz⟩ := ih (pre ++ [b]) _ g' (kept_forward s none g hk wf hx0 hs) (by rw [forward_layers]; exact ht) w k f (by
      rintro ⟨c1, c, c2, rfl, h1, h2⟩
      exact hc ⟨b :: c1, c, c2, rfl, by simpa using h1, h2⟩)
    exact ⟨z, by simp only [train, hg]; exact hz⟩

theorem not_late {ls : List Layer} (h : ¬ Late ls) : Plain false (fresh ls) := by
  have key : ∀ (post pre : List Layer) (grad : Bool), ls = pre ++ post → (grad = true → ∃ kw, Layer.conv kw true ∈ pre) → Plain grad (fresh post) := by
    intro post
    induction post with
    | nil => intro pre grad _ _; trivial
    | cons l post ih =>
      intro pre grad he hg
      cases l with
      | act sv => exact ⟨fun a v hv => by simp at hv, ih (pre ++ [.act sv]) grad (by simp [he]) fun h => by obtain ⟨kw, hkw⟩ := hg h; exact ⟨kw, by simp [hkw]⟩⟩
      | conv kw t =>
        refine ⟨fun hk => ?_, fun a v hv => by simp at hv, ih (pre ++ [.conv kw t]) (grad || t) (by simp [he]) fun hh => ?_⟩
        · cases hgr : grad with
          | false => rfl
          | true =>
            obtain ⟨kw', hkw'⟩ := hg hgr
            obtain ⟨p1, p2, rfl⟩ := List.append_of_mem hkw'
            exact absurd ⟨p1, kw', p2, kw, t, post, by simp [he], hk⟩ h
        · rcases Bool.or_eq_true_iff.1 hh with hh | rfl
          · obtain ⟨kw', hkw'⟩ := hg hh; exact ⟨kw', by simp [hkw']⟩
          · exact ⟨kw, by simp⟩
  exact key ls [] false rfl fun h => by simp at h

theorem fresh_layers (ls : List Layer) : (fresh ls).map Prod.fst = ls := by simp [fresh, Function.comp_def]

theorem fresh_in (g : Graph) (ls : List Layer) : StackIn g (fresh ls) := by
  intro l hl
  obtain ⟨l, -, rfl⟩ := List.mem_map.1 hl
  intro a v hv
  simp at hv

/-! ## C155: training chunk by chunk -/

/-- **C155 (partial, exact).** A stack of online convolutions and pointwise functions, some of whose weights are trained, is called on batches, each call followed by the backward pass of its output.
No call raises if and only if no convolution wider than one frame comes after a trained one, or no batch continues a stream.
Missing: nothing for this model; the property as such is false (`C155_training_false`). -/
theorem C155_training_partial {ls : List Layer} (ht : Trained ls) (bs : List (List Row)) :
    (∃ z, train (fresh ls) .empty bs = .ok z) ↔ ¬ Late ls ∨ ¬ Continues bs := by
  have wf : WF Graph.empty.nodes := fun i nd h => by simp [Graph.empty] at h
  have hf : ∀ r ∈ Graph.empty.freed, r < Graph.empty.nodes.length := fun r h => by simp [Graph.empty] at h
  constructor
  · rintro ⟨z, hz⟩
    by_cases hl : Late ls
    · obtain ⟨l₁, kw, l₂, kw', t, l₃, rfl, hk⟩ := hl
      refine .inr fun ⟨c1, c, c2, h, h1, h2⟩ => ?_
      have hfr : fresh (l₁ ++ Layer.conv kw true :: (l₂ ++ Layer.conv kw' t :: l₃)) =
          fresh l₁ ++ (.conv kw true, fun _ => none) :: (fresh l₂ ++ (.conv kw' t, fun _ => none) :: fresh l₃) := by simp [fresh]
      have hin := fresh_in Graph.empty (l₁ ++ Layer.conv kw true :: (l₂ ++ Layer.conv kw' t :: l₃))
      rw [hfr] at hz hin
      exact late_train hk t bs [] _ _ _ _ _ _ wf hin (fun a ha => absurd ha (open_nil a)) z hz ⟨c1, c, c2, h, by simpa using h1, h2⟩
    · exact .inl hl
  · rintro (hl | hc)
    · exact plain_train bs _ _ (not_late hl) (by rw [fresh_layers]; exact ht) wf (fresh_in _ _) hf
    · refine kept_train bs [] _ _ ?_ (by rw [fresh_layers]; exact ht) wf (fresh_in _ _) hf ?_
      · intro kw t buf hm _ a v hv
        obtain ⟨l, -, hl⟩ := List.mem_map.1 hm
        simp only [Prod.mk.injEq] at hl
        rw [← hl.2] at hv
        simp at hv
      · simpa [Continues] using hc

/-- Two convolutions of width two. -/
def exNet : List Layer := [.conv 2 true, .act true, .conv 2 true]

theorem exNet_late : Late exNet := ⟨[], 2, [.act true], 2, true, [], rfl, by decide⟩

example : Trained exNet := ⟨2, by simp [exNet]⟩

/-- C155: whatever the stack, training chunk by chunk goes through or raises RuntimeError, and it raises at once if nothing in the stack is trained. Missing: training (`C155_training_partial`). -/
theorem C155_raises_partial (ls : List Layer) (bs : List (List Row)) :
    ((∃ z, train (fresh ls) .empty bs = .ok z) ∨ train (fresh ls) .empty bs = .error .runtimeError) ∧
      (¬ Trained ls → bs ≠ [] → train (fresh ls) .empty bs = .error .runtimeError) := by
  have hb : ∀ (g : Graph) (v : Val), (∃ g', backward g v = .ok g') ∨ backward g v = .error .runtimeError := by
    intro g v
    cases v with
    | none => exact .inr rfl
    | some n =>
      have he : backward g (some n) = if ((keepers g n).any fun r => decide (r ∈ g.freed)) = true then .error .runtimeError
          else .ok { g with freed := g.freed ++ keepers g n } := rfl
      rw [he]
      by_cases h : ((keepers g n).any fun r => decide (r ∈ g.freed)) = true
      · rw [if_pos h]
        exact .inr rfl
      · rw [if_neg h]
        exact .inl ⟨_, rfl⟩
  constructor
  · have key : ∀ (bs : List (List Row)) (s : List (Layer × Buf)) (g : Graph), (∃ z, train s g bs = .ok z) ∨ train s g bs = .error .runtimeError := by
      intro bs
      induction bs with
      | nil => intro s g; exact .inl ⟨_, rfl⟩
      | cons b bs ih =>
        intro s g
        unfold train
        simp only
        rcases hb (forward s b none g).2.2 (forward s b none g).1 with ⟨g', hg⟩ | hg
        · rw [hg]
          exact ih _ _
        · rw [hg]
          exact .inr rfl
    exact key bs _ _
  · intro ht hne
    cases bs with
    | nil => exact absurd rfl hne
    | cons b bs =>
      have key : ∀ (ls : List Layer) (g : Graph), ¬ Trained ls → (forward (fresh ls) b none g).1 = none := by
        intro ls
        induction ls with
        | nil => intro g _; rfl
        | cons l ls ih =>
          intro g hl
          have hls : ¬ Trained ls := fun ⟨kw, h⟩ => hl ⟨kw, by simp [h]⟩
          show (forward (fresh ls) b ((l.step (fun _ => none) b none g).1) _).1 = none
          have h0 : (l.step (fun _ => none) b none g).1 = none := by
            cases l with
            | conv kw t =>
              have ht : t = false := by
                cases t
                · rfl
                · exact absurd ⟨kw, by simp⟩ hl
              subst ht
              have h1 : (preHook kw (fun _ => none) b none g).1 = none := by
                unfold preHook
                split
                · have : (b.filterMap fun r => (none : Option Val)) = [] := by simp
                  simp [Graph.apply]
                · rfl
              show (Graph.apply _ [(preHook kw (fun _ => none) b none g).1] true false).1 = none
              rw [h1]
              simp [Graph.apply]
            | act saves => simp [Layer.step, Graph.apply]
          rw [h0]
          exact ih _ hls
      unfold train
      simp only
      rw [key ls .empty ht]
      rfl

-- Non-trivial case: a stack whose weights are frozen.
example : train (fresh [.conv 3 false, .act true]) .empty [[⟨"a", true, false⟩]] = .error .runtimeError :=
  (C155_raises_partial _ _).2 (by rintro ⟨kw, h⟩; simp at h) (by simp)

/-- **C155 (false).** Training chunk by chunk, as the README promises, raises on the second chunk of a stream already with two convolutions. -/
theorem C155_training_false :
    train (fresh exNet) .empty [[⟨"a", true, false⟩], [⟨"a", false, false⟩]] = .error .runtimeError ∧
    (∃ z, train (fresh exNet) .empty [[⟨"a", true, false⟩]] = .ok z) := by
  refine ⟨by rfl, (C155_training_partial ⟨2, by simp [exNet]⟩ _).2 (.inr ?_)⟩
  rintro ⟨c1, c, c2, h, ⟨r, hr, ho⟩, r', hr', hs⟩
  cases c1 with
  | nil => exact open_nil _ ho
  | cons x c1 => simp at h

/-- A net that can be trained chunk by chunk: only its first convolution looks at more than one frame. -/
def exFlat : List Layer := [.conv 3 true, .act true, .conv 1 true]

theorem exFlat_flat : ¬ Late exFlat := by
  rintro ⟨l₁, kw, l₂, kw', t, l₃, h, hk⟩
  have hm : Layer.conv kw' t ∈ exFlat.tail := by
    cases l₁ with
    | nil => rw [h]; simp
    | cons x l₁ => rw [h]; simp
  simp [exFlat] at hm
  omega

example : ∃ z, train (fresh exFlat) .empty [[⟨"a", true, false⟩, ⟨"b", true, false⟩], [⟨"a", false, false⟩, ⟨"b", false, true⟩], [⟨"a", false, true⟩]] = .ok z := by
  exact (C155_training_partial ⟨3, by simp [exFlat]⟩ _).2 (.inl exFlat_flat)

/-! ## C156: memory -/

/-- **C156 (partial).** If no convolution wider than one frame comes after a trained one, the buffers keep no result of a layer alive, however many chunks were processed.
Missing: false for other stacks (`C156_memory_false`). -/
theorem C156_memory_partial {ls : List Layer} (h : ¬ Late ls) (bs : List (List Row)) (m : Nat) :
    ¬ Retained (calls (fresh ls) .empty bs).1 (calls (fresh ls) .empty bs).2 m := by
  have key : ∀ (bs : List (List Row)) (s : List (Layer × Buf)) (g : Graph), Plain false s → WF g.nodes → StackIn g s → Plain false (calls s g bs).1 := by
    intro bs
    induction bs with
    | nil => intro s g hp _ _; exact hp
    | cons b bs ih =>
      intro s g hp wf hs
      have hx0 : In g none := fun n e => by simp at e
      obtain ⟨-, w, -, k⟩ := forward_basic s b none g wf hx0 hs
      exact ih _ _ (plain_forward s false none g hp (fun _ => rfl) wf hx0 hs) w k
  rintro ⟨l, hl, a, n, nd, ha, -⟩
  have := plain_bufs _ _ (key bs _ _ (not_late h) (fun i nd h => by simp [Graph.empty] at h) (fresh_in _ _)) l hl a _ ha
  simp at this

example : ∀ m, ¬ Retained (calls (fresh exFlat) .empty [[⟨"a", true, false⟩], [⟨"a", false, false⟩]]).1 (calls (fresh exFlat) .empty [[⟨"a", true, false⟩], [⟨"a", false, false⟩]]).2 m :=
  C156_memory_partial exFlat_flat _

theorem late_calls {kw kw' : Nat} (hk : 1 < kw') (t : Bool) (a : String) : ∀ (bs : List (List Row)) (s₁ s₂ s₃ : List (Layer × Buf)) (b₁ buf : Buf) (g : Graph),
    WF g.nodes → StackIn g (s₁ ++ (.conv kw true, b₁) :: (s₂ ++ (.conv kw' t, buf) :: s₃)) →
    (∀ c ∈ bs, (∃ r ∈ c, r.id = a ∧ r.sos = false) ∧ ∀ r ∈ c, r.id = a → r.eos = false) →
    ∀ (n : Nat) (kept : List Nat), buf a = some (some n) → kept.Nodup →
      (∀ m ∈ kept, m < g.nodes.length ∧ Leads g.nodes n m ∧ ∃ nd, g.nodes[m]? = some nd ∧ nd.saves = true) →
    ∃ kept' : List Nat, kept'.Nodup ∧ kept'.length = bs.length + kept.length ∧
      ∀ m ∈ kept', Retained (calls (s₁ ++ (.conv kw true, b₁) :: (s₂ ++ (.conv kw' t, buf) :: s₃)) g bs).1
        (calls (s₁ ++ (.conv kw true, b₁) :: (s₂ ++ (.conv kw' t, buf) :: s₃)) g bs).2 m := by
  intro bs
  induction bs with
  | nil =>
    intro s₁ s₂ s₃ b₁ buf g _ _ _ n kept hn hnd hkept
    refine ⟨kept, hnd, by simp, fun m hm => ?_⟩
    obtain ⟨-, h1, nd, h2, h3⟩ := hkept m hm
    exact ⟨(.conv kw' t, buf), by simp [calls], a, n, nd, hn, h1, h2, h3⟩
  | cons b bs ih =>
    intro s₁ s₂ s₃ b₁ buf g wf hs hbs n kept hn hnd hkept
    obtain ⟨s₁', b₁', s₂', buf', s₃', out, c, nd, hF, hcn, hsv, hlen, -, -, -, -, hb3⟩ := late_step hk t s₁ s₂ s₃ b₁ buf b wf hs
    have hx0 : In g none := fun n e => by simp at e
    obtain ⟨e, w, i, k⟩ := forward_basic _ b none g wf hx0 hs
    generalize hG : (forward (s₁ ++ (.conv kw true, b₁) :: (s₂ ++ (.conv kw' t, buf) :: s₃)) b none g).2.2 = G at *
    simp only [calls, hF]
    rw [hF] at k
    obtain ⟨⟨r, hr, hra, hrs⟩, hend⟩ := hbs b (by simp)
    obtain ⟨m, hm, hmc, hmn⟩ := hb3 a ⟨r, hr, hra⟩ hend
    obtain ⟨kept', h1, h2, h3⟩ := ih s₁' s₂' s₃' b₁' buf' G w k (fun d hd => hbs d (List.mem_cons_of_mem _ hd)) m (c :: kept) hm
      (List.nodup_cons.2 ⟨fun hc => by have := (hkept c hc).1; omega, hnd⟩) (by
        intro q hq
        rcases List.mem_cons.1 hq with rfl | hq
        · exact ⟨(List.getElem?_eq_some_iff.1 hcn).1, hmc, nd, hcn, hsv⟩
        · obtain ⟨g1, g2, nd', g3, g4⟩ := hkept q hq
          exact ⟨Nat.lt_of_lt_of_le g1 e.len, (hmn ⟨r, hr, hrs⟩ n hn).trans (e.leads g2), nd', e.get g3, g4⟩)
    exact ⟨kept', h1, by simp [h2]; omega, h3⟩

/-- **C156 (false).** In a stack with a convolution wider than one frame after a trained one, the buffers of an open stream keep one more result alive with every chunk. -/
theorem C156_memory_false {ls : List Layer} (h : Late ls) (a : String) (b : List Row) (hb : ∃ r ∈ b, r.id = a) (hb' : ∀ r ∈ b, r.id = a → r.eos = false)
    (bs : List (List Row)) (hbs : ∀ c ∈ bs, (∃ r ∈ c, r.id = a ∧ r.sos = false) ∧ ∀ r ∈ c, r.id = a → r.eos = false) :
    ∃ kept : List Nat, kept.Nodup ∧ kept.length = bs.length + 1 ∧
      ∀ m ∈ kept, Retained (calls (fresh ls) .empty (b :: bs)).1 (calls (fresh ls) .empty (b :: bs)).2 m := by
  obtain ⟨l₁, kw, l₂, kw', t, l₃, rfl, hk⟩ := h
  have wf : WF Graph.empty.nodes := fun i nd h => by simp [Graph.empty] at h
  have hfr : fresh (l₁ ++ Layer.conv kw true :: (l₂ ++ Layer.conv kw' t :: l₃)) =
      fresh l₁ ++ (.conv kw true, fun _ => none) :: (fresh l₂ ++ (.conv kw' t, fun _ => none) :: fresh l₃) := by simp [fresh]
  have hin := fresh_in Graph.empty (l₁ ++ Layer.conv kw true :: (l₂ ++ Layer.conv kw' t :: l₃))
  rw [hfr] at hin ⊢
  obtain ⟨s₁', b₁', s₂', buf', s₃', out, c, nd, hF, hcn, hsv, hlen, -, -, -, -, hb3⟩ := late_step hk t (fresh l₁) (fresh l₂) (fresh l₃) (fun _ => none) (fun _ => none) b wf hin
  have hx0 : In Graph.empty none := fun n e => by simp at e
  obtain ⟨e, w, i, k⟩ := forward_basic _ b none Graph.empty wf hx0 hin
  generalize hG : (forward (fresh l₁ ++ (.conv kw true, fun _ => none) :: (fresh l₂ ++ (.conv kw' t, fun _ => none) :: fresh l₃)) b none .empty).2.2 = G at *
  simp only [calls, hF]
  rw [hF] at k
  obtain ⟨m, hm, hmc, -⟩ := hb3 a hb hb'
  obtain ⟨kept, h1, h2, h3⟩ := late_calls hk t a bs s₁' s₂' s₃' b₁' buf' G w k hbs m [c] hm (by simp) (by
    intro q hq
    simp at hq
    subst hq
    exact ⟨(List.getElem?_eq_some_iff.1 hcn).1, hmc, nd, hcn, hsv⟩)
  exact ⟨kept, h1, by simpa using h2, h3⟩

example (n : Nat) : ∃ kept : List Nat, kept.Nodup ∧ kept.length = n + 1 ∧
    ∀ m ∈ kept, Retained (calls (fresh exNet) .empty ([⟨"a", true, false⟩] :: List.replicate n [⟨"a", false, false⟩])).1
      (calls (fresh exNet) .empty ([⟨"a", true, false⟩] :: List.replicate n [⟨"a", false, false⟩])).2 m := by
  obtain ⟨kept, h1, h2, h3⟩ := C156_memory_false exNet_late "a" [⟨"a", true, false⟩] ⟨⟨"a", true, false⟩, by simp, rfl⟩ (by simp) (List.replicate n [⟨"a", false, false⟩]) (by
    intro c hc
    obtain rfl := (List.mem_replicate.1 hc).2
    exact ⟨⟨⟨"a", false, false⟩, by simp, rfl, rfl⟩, by simp⟩)
  exact ⟨kept, h1, by simpa using h2, h3⟩

end DS.Grad
