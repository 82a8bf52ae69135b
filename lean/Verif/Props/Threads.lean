import Verif.Spec.Threads
import Verif.Props.ConvSession
/-!
# Calls from several threads (C194)
-/

namespace DS.Conc

section
variable {κ ν ρ : Type} [DecidableEq κ]

/-- `n` operations of a program that runs alone. -/
def steps : Nat → Store κ ν × Prog κ ν ρ → Store κ ν × Prog κ ν ρ
  | 0, a => a
  | n + 1, a => steps n (a.2.step a.1)

theorem steps_add (m n : Nat) (a : Store κ ν × Prog κ ν ρ) : steps (m + n) a = steps n (steps m a) := by
  induction m generalizing a with
  | zero => simp [steps]
  | succ m ih => rw [Nat.succ_add]; exact ih _

theorem steps_done (n : Nat) (σ : Store κ ν) (r : ρ) : steps n (σ, .done r) = (σ, .done r) := by
  induction n with
  | zero => rfl
  | succ n ih => exact ih

/-- Running alone, the program comes from `a` to `b`. -/
def Reach (a b : Store κ ν × Prog κ ν ρ) : Prop := ∃ n, steps n a = b

theorem Reach.refl (a : Store κ ν × Prog κ ν ρ) : Reach a a := ⟨0, rfl⟩

theorem Reach.trans {a b c : Store κ ν × Prog κ ν ρ} (h : Reach a b) (h' : Reach b c) : Reach a c := by
  obtain ⟨m, rfl⟩ := h
  obtain ⟨n, rfl⟩ := h'
  exact ⟨m + n, steps_add m n a⟩

theorem Reach.cons {a b : Store κ ν × Prog κ ν ρ} (h : Reach (a.2.step a.1) b) : Reach a b := by
  obtain ⟨n, rfl⟩ := h
  exact ⟨n + 1, rfl⟩

theorem Reach.has {σ : Store κ ν} {k : κ} {next : Bool → Prog κ ν ρ} {b : Store κ ν × Prog κ ν ρ} (v : Option ν) (hv : σ k = v) (h : Reach (σ, next v.isSome) b) : Reach (σ, .has k next) b := by
  subst hv
  exact .cons h

theorem Reach.get {σ : Store κ ν} {k : κ} {next : Option ν → Prog κ ν ρ} {b : Store κ ν × Prog κ ν ρ} (v : Option ν) (hv : σ k = v) (h : Reach (σ, next v) b) : Reach (σ, .get k next) b := by
  subst hv
  exact .cons h

theorem Reach.del {σ : Store κ ν} {k : κ} {next : Bool → Prog κ ν ρ} {b : Store κ ν × Prog κ ν ρ} (v : Option ν) (hv : σ k = v) (h : Reach (σ.set k none, next v.isSome) b) : Reach (σ, .del k next) b := by
  subst hv
  exact .cons h

/-- All operations of the program, whatever it reads, are on keys with the property `own`. -/
def Within (own : κ → Prop) : Prog κ ν ρ → Prop
  | .done _ => True
  | .has k next => own k ∧ ∀ b, Within own (next b)
  | .get k next => own k ∧ ∀ v, Within own (next v)
  | .put k _ next => own k ∧ Within own next
  | .del k next => own k ∧ ∀ b, Within own (next b)

theorem step_within {own : κ → Prop} {p : Prog κ ν ρ} (h : Within own p) (σ : Store κ ν) : Within own (p.step σ).2 := by
  cases p with
  | done r => trivial
  | has k next => exact h.2 _
  | get k next => exact h.2 _
  | put k v next => exact h.2
  | del k next => exact h.2 _

theorem step_same {own : κ → Prop} {p : Prog κ ν ρ} (h : Within own p) {σ τ : Store κ ν} (hs : ∀ k, own k → σ k = τ k) :
    (p.step σ).2 = (p.step τ).2 ∧ ∀ k, own k → (p.step σ).1 k = (p.step τ).1 k := by
  cases p with
  | done r => exact ⟨rfl, hs⟩
  | has k next => exact ⟨by simp only [Prog.step, hs k h.1], hs⟩
  | get k next => exact ⟨by simp only [Prog.step, hs k h.1], hs⟩
  | put k v next =>
    refine ⟨rfl, fun j hj => ?_⟩
    simp only [Prog.step, Store.set, hs j hj]
  | del k next =>
    refine ⟨by simp only [Prog.step, hs k h.1], fun j hj => ?_⟩
    simp only [Prog.step, Store.set, hs j hj]

theorem step_other {own : κ → Prop} {p : Prog κ ν ρ} (h : Within own p) (σ : Store κ ν) (k : κ) (hk : ¬ own k) : (p.step σ).1 k = σ k := by
  cases p with
  | done r => rfl
  | has k next => rfl
  | get k next => rfl
  | put j v next =>
    have : k ≠ j := fun e => hk (e ▸ h.1)
    simp [Prog.step, Store.set, this]
  | del j next =>
    have : k ≠ j := fun e => hk (e ▸ h.1)
    simp [Prog.step, Store.set, this]

/-- In every schedule, a thread is where it would be alone after as many operations, and so are its keys. -/
theorem sched_alone (own : Nat → κ → Prop) (disj : ∀ t u k, own t k → own u k → t = u) (t : Nat) (ts : List Nat) (σ τ : Store κ ν) (ps : Nat → Prog κ ν ρ) (hw : ∀ u, Within (own u) (ps u))
    (hs : ∀ k, own t k → σ k = τ k) :
    (sched σ ps ts).2 t = (steps (ts.count t) (τ, ps t)).2 ∧ ∀ k, own t k → (sched σ ps ts).1 k = (steps (ts.count t) (τ, ps t)).1 k := by
  induction ts generalizing σ τ ps with
  | nil => exact ⟨rfl, hs⟩
  | cons u ts ih =>
    have hw' : ∀ v, Within (own v) (if v = u then ((ps u).step σ).2 else ps v) := by
      intro v
      split
      · rename_i h
        subst h
        exact step_within (hw v) σ
      · exact hw v
    by_cases hu : u = t
    · subst hu
      obtain ⟨h1, h2⟩ := step_same (hw u) hs
      have := ih ((ps u).step σ).1 ((ps u).step τ).1 (fun v => if v = u then ((ps u).step σ).2 else ps v) hw' h2
      simp only [if_true] at this
      rw [List.count_cons_self]
      simp only [sched, steps]
      rw [h1] at this
      rw [h1]
      exact this
    · have h2 : ∀ k, own t k → ((ps u).step σ).1 k = τ k := by
        intro k hk
        rw [step_other (hw u) σ k fun h => hu (disj _ _ _ h hk)]
        exact hs k hk
      have := ih ((ps u).step σ).1 τ (fun v => if v = u then ((ps u).step σ).2 else ps v) hw' h2
      simp only [if_neg (Ne.symm hu)] at this
      rw [List.count_cons_of_ne hu]
      exact this

/-- In every schedule, a thread that has ended has the result that it has alone, and it has ended when it has done as many operations. -/
theorem sched_result (own : Nat → κ → Prop) (disj : ∀ t u k, own t k → own u k → t = u) (t : Nat) (σ : Store κ ν) (ps : Nat → Prog κ ν ρ) (hw : ∀ u, Within (own u) (ps u)) (σ' : Store κ ν) (r : ρ)
    (h : Reach (σ, ps t) (σ', .done r)) : ∃ N, ∀ ts, (N ≤ ts.count t → (sched σ ps ts).2 t = .done r) ∧
      ∀ r', (sched σ ps ts).2 t = .done r' → r' = r ∧ ∀ k, own t k → (sched σ ps ts).1 k = σ' k := by
  obtain ⟨N, hN⟩ := h
  refine ⟨N, fun ts => ?_⟩
  obtain ⟨h1, h2⟩ := sched_alone own disj t ts σ σ ps hw fun _ _ => rfl
  constructor
  · intro hle
    obtain ⟨d, hd⟩ := Nat.exists_eq_add_of_le hle
    rw [h1, hd, steps_add, hN, steps_done]
  · intro r' hr
    rw [h1] at hr
    have key : steps (ts.count t) (σ, ps t) = (σ', .done r) := by
      rcases Nat.le_total N (ts.count t) with hle | hle
      · obtain ⟨d, hd⟩ := Nat.exists_eq_add_of_le hle
        rw [hd, steps_add, hN, steps_done]
      · obtain ⟨d, hd⟩ := Nat.exists_eq_add_of_le hle
        rw [hd, steps_add, show steps (ts.count t) (σ, ps t) = ((steps (ts.count t) (σ, ps t)).1, .done r') by rw [← hr], steps_done] at hN
        rw [show steps (ts.count t) (σ, ps t) = ((steps (ts.count t) (σ, ps t)).1, .done r') by rw [← hr]]
        exact hN
    rw [key] at hr
    refine ⟨by injection hr with hr; exact hr.symm, fun k hk => ?_⟩
    rw [h2 k hk, key]

/-- What belongs to no thread is not touched. -/
theorem sched_other (own : Nat → κ → Prop) (ts : List Nat) (σ : Store κ ν) (ps : Nat → Prog κ ν ρ) (hw : ∀ u, Within (own u) (ps u)) (k : κ) (hk : ∀ t, ¬ own t k) : (sched σ ps ts).1 k = σ k := by
  induction ts generalizing σ ps with
  | nil => rfl
  | cons u ts ih =>
    rw [sched, ih]
    · exact step_other (hw u) σ k (hk u)
    · intro v
      split
      · rename_i h
        subst h
        exact step_within (hw v) σ
      · exact hw v

end

section
open DS.Conv
variable {α ρ : Type} [Zero α]

/-- Another `stream_buffer` for a layer. -/
def withBuf (σ : Store Key (List α)) (l : Nat) (b : Buf α) : Store Key (List α) := fun k => if k.1 = l then b k.2 else σ k

theorem withBuf_self (σ : Store Key (List α)) (l : Nat) : withBuf σ l (bufAt σ l) = σ := by
  funext ⟨m, i⟩
  simp only [withBuf, bufAt]
  split
  · rename_i h; subst h; rfl
  · rfl

theorem bufAt_set (σ : Store Key (List α)) (l : Nat) (i : String) (v : Option (List α)) : bufAt (σ.set (l, i) v) l = fun j => if j = i then v else bufAt σ l j := by
  funext j
  simp [bufAt, Store.set]

theorem withBuf_set (σ : Store Key (List α)) (l : Nat) (i : String) (v : Option (List α)) (b : Buf α) : withBuf (σ.set (l, i) v) l b = withBuf σ l b := by
  funext ⟨m, j⟩
  simp only [withBuf, Store.set, Prod.mk.injEq]
  split
  · rfl
  · rename_i h
    simp [h]

theorem bufAt_withBuf (σ : Store Key (List α)) (l m : Nat) (b : Buf α) : bufAt (withBuf σ l b) m = if m = l then b else bufAt σ m := by
  funext i
  simp only [bufAt, withBuf]
  split <;> rfl

/-! ### What the programs do alone -/

theorem reads_alone (l : Nat) (fail : PyErr → Prog Key (List α) ρ) (is : List String) (k : List (Option (List α)) → Prog Key (List α) ρ) (σ : Store Key (List α)) :
    Reach (σ, reads l fail is k) (σ, k (is.map (bufAt σ l))) := by
  induction is generalizing k with
  | nil => exact .refl _
  | cons i is ih =>
    rcases h : bufAt σ l i with _ | b
    · refine .has none h ?_
      have := ih fun bs => k (none :: bs)
      rw [List.map_cons, h]
      exact this
    · refine .has (some b) h (.get (some b) h ?_)
      have := ih fun bs => k (some b :: bs)
      rw [List.map_cons, h]
      exact this

theorem writes_alone (l : Nat) (kvs : List (String × List α)) (k : Prog Key (List α) ρ) (σ : Store Key (List α)) :
    Reach (σ, writes l kvs k) (withBuf σ l (update (bufAt σ l) kvs), k) := by
  induction kvs generalizing σ with
  | nil =>
    simp only [writes, update, List.foldl_nil, withBuf_self]
    exact .refl _
  | cons kv kvs ih =>
    refine .cons ?_
    simp only [writes, Prog.step]
    have := ih (σ.set (l, kv.1) (some kv.2))
    rwa [withBuf_set, bufAt_set] at this

theorem deletes_alone (l : Nat) (fail : PyErr → Prog Key (List α) ρ) (ies : List (String × Bool)) (k : Prog Key (List α) ρ) (σ : Store Key (List α)) :
    Reach (σ, deletes l fail ies k) (withBuf σ l (ies.foldl (fun b ie => if ie.2 then fun i => if i = ie.1 then none else b i else b) (bufAt σ l)), k) := by
  induction ies generalizing σ with
  | nil =>
    simp only [deletes, List.foldl_nil, withBuf_self]
    exact .refl _
  | cons ie ies ih =>
    obtain ⟨i, e⟩ := ie
    cases e with
    | false =>
      simp only [deletes, Bool.false_eq_true, if_false, List.foldl_cons]
      exact ih σ
    | true =>
      simp only [deletes, if_true, List.foldl_cons]
      rcases h : bufAt σ l i with _ | b
      · refine .has none h ?_
        have hb : (fun j => if j = i then none else bufAt σ l j) = bufAt σ l := by
          funext j
          split
          · rename_i hj
            subst hj
            exact h.symm
          · rfl
        rw [hb]
        exact ih σ
      · refine .has (some b) h (.del (some b) h ?_)
        have := ih (σ.set (l, i) none)
        rw [withBuf_set, bufAt_set] at this
        exact this

/-- Where a call ends, given its outcome. -/
def after (σ : Store Key (List α)) (l : Nat) (fail : PyErr → Prog Key (List α) ρ) (k : ST α → Prog Key (List α) ρ) : Py (ST α × Buf α) → Store Key (List α) × Prog Key (List α) ρ
  | .error e => (σ, fail e)
  | .ok o => (withBuf σ l o.2, k o.1)

theorem finish_alone (l : Nat) (c : Cfg) (g : List α → α) (fail : PyErr → Prog Key (List α) ρ) (k : ST α → Prog Key (List α) ρ) (z : ST α) (σ : Store Key (List α)) :
    Reach (σ, finish l c g fail k (.ok z)) (after σ l fail k ((conv1d c g z).map fun o => (o.1, postHook (bufAt σ l) o.1.md o.2))) := by
  unfold finish
  simp only
  rcases conv1d c g z with e | ⟨y, items⟩
  · exact Reach.refl _
  · simp only [Except.map, after]
    refine Reach.trans (writes_alone l items _ σ) ?_
    unfold postHook
    simp only
    cases y.md.anyEnding with
    | false => exact .refl _
    | true =>
      simp only [if_true]
      refine (deletes_alone l fail _ _ _).trans ?_
      rw [bufAt_withBuf, if_pos rfl]
      have : ∀ (b b' : Buf α), withBuf (withBuf σ l b) l b' = withBuf σ l b' := by
        intro b b'
        funext ⟨m, j⟩
        simp only [withBuf]
        split <;> rfl
      rw [this]
      exact .refl _

/-- A call that runs alone is a call. -/
theorem callConv_alone (l : Nat) (c : Cfg) (g : List α → α) (x : ST α) (fail : PyErr → Prog Key (List α) ρ) (k : ST α → Prog Key (List α) ρ) (σ : Store Key (List α)) :
    Reach (σ, callConv l c g x fail k) (after σ l fail k ((forward c g (bufAt σ l) x).map fun o => (o.y, o.buf))) := by
  unfold callConv forward preHook
  by_cases hc : c.kw > 1 ∧ x.md.allStarting = false
  · rw [if_pos hc, if_pos hc]
    refine (reads_alone l fail x.md.ids _ σ).trans ?_
    simp only
    have main : ∀ (r : Py (ST α)), Reach (σ, finish l c g fail k r)
        (after σ l fail k ((do let (x', shared) ← r.map fun y => (y, false); let (y, items) ← conv1d c g x'
                               .ok { y, buf := postHook (bufAt σ l) y.md items, caller := if shared then y.md else x.md : Out α α }).map fun (o : Out α α) => (o.y, o.buf))) := by
      intro r
      cases r with
      | error e => exact .refl _
      | ok z =>
        refine (finish_alone l c g fail k z σ).trans ?_
        rw [map_ok', Except.bind_ok']
        simp only
        cases conv1d c g z with
        | error e => exact .refl _
        | ok o => exact .refl _
    split
    · exact main _
    · exact main _
  · rw [if_neg hc, if_neg hc, Except.bind_ok']
    refine (finish_alone l c g fail k x σ).trans ?_
    simp only
    cases conv1d c g x with
    | error e => exact .refl _
    | ok o => exact .refl _

theorem stackFrom_congr (σ τ : Store Key (List α)) (ls : List (Layer α)) (n : Nat) (h : ∀ m, n ≤ m → bufAt σ m = bufAt τ m) : stackFrom σ n ls = stackFrom τ n ls := by
  induction ls generalizing n with
  | nil => rfl
  | cons l ls ih => rw [stackFrom, stackFrom, h n (Nat.le_refl n), ih (n + 1) fun m hm => h m (by omega)]

/-- Where a call of a stack goes on. -/
def goOn (fail : PyErr → Prog Key (List α) ρ) (k : ST α → Prog Key (List α) ρ) : Py (ST α) → Prog Key (List α) ρ
  | .error e => fail e
  | .ok y => k y

theorem callStack_alone (fail : PyErr → Prog Key (List α) ρ) (k : ST α → Prog Key (List α) ρ) (ls : List (Layer α)) (n : Nat) (x : ST α) (σ : Store Key (List α)) :
    ∃ σ', Reach (σ, callStack fail k n ls x) (σ', goOn fail k (chainTry (stackFrom σ n ls) x).1) ∧ stackFrom σ' n ls = (chainTry (stackFrom σ n ls) x).2 ∧
      ∀ m, m < n → bufAt σ' m = bufAt σ m := by
  induction ls generalizing n x σ with
  | nil => exact ⟨σ, .refl _, rfl, fun _ _ => rfl⟩
  | cons l ls ih =>
    cases l with
    | conv c g =>
      have h := callConv_alone n c g x fail (fun y => callStack fail k (n + 1) ls y) σ
      simp only [callStack, stackFrom, chainTry, Layer.step]
      cases hf : (forward c g (bufAt σ n) x).map fun o => (o.y, o.buf) with
      | error e =>
        rw [hf] at h
        exact ⟨σ, h, rfl, fun _ _ => rfl⟩
      | ok o =>
        obtain ⟨y, b'⟩ := o
        rw [hf] at h
        simp only [after] at h
        obtain ⟨σ', h1, h2, h3⟩ := ih (n + 1) y (withBuf σ n b')
        have hc : stackFrom (withBuf σ n b') (n + 1) ls = stackFrom σ (n + 1) ls := by
          refine stackFrom_congr _ _ _ _ fun m hm => ?_
          rw [bufAt_withBuf, if_neg (by omega)]
        rw [hc] at h1 h2
        refine ⟨σ', h.trans h1, ?_, fun m hm => ?_⟩
        · simp only
          rw [h2, h3 n (by omega), bufAt_withBuf, if_pos rfl]
        · rw [h3 m (by omega), bufAt_withBuf, if_neg (by omega)]
    | act f =>
      simp only [callStack, stackFrom, chainTry, Layer.step]
      obtain ⟨σ', h1, h2, h3⟩ := ih (n + 1) { x with rows := x.rows.map (·.map f) } σ
      refine ⟨σ', h1, ?_, fun m hm => h3 m (by omega)⟩
      rw [h2, h3 n (by omega)]

theorem caller_alone (ls : List (Layer α)) (xs : List (ST α)) (acc : List (Py (ST α))) (σ : Store Key (List α)) :
    ∃ σ', Reach (σ, caller ls acc xs) (σ', .done (acc ++ (chainCalls (stackFrom σ 0 ls) xs).1)) ∧ stackFrom σ' 0 ls = (chainCalls (stackFrom σ 0 ls) xs).2 := by
  induction xs generalizing acc σ with
  | nil =>
    refine ⟨σ, ?_, rfl⟩
    simp only [caller, chainCalls, List.append_nil]
    exact .refl _
  | cons x xs ih =>
    obtain ⟨σ₁, h1, h2, -⟩ := callStack_alone (fun e => caller ls (acc ++ [.error e]) xs) (fun y => caller ls (acc ++ [.ok y]) xs) ls 0 x σ
    simp only [caller, chainCalls]
    cases hr : (chainTry (stackFrom σ 0 ls) x).1 with
    | error e =>
      rw [hr] at h1
      obtain ⟨σ₂, h3, h4⟩ := ih (acc ++ [.error e]) σ₁
      rw [h2] at h3 h4
      exact ⟨σ₂, h1.trans (by simpa [goOn] using h3), h4⟩
    | ok y =>
      rw [hr] at h1
      obtain ⟨σ₂, h3, h4⟩ := ih (acc ++ [.ok y]) σ₁
      rw [h2] at h3 h4
      exact ⟨σ₂, h1.trans (by simpa [goOn] using h3), h4⟩

/-! ### Which keys the programs use -/

theorem reads_within {own : Key → Prop} {l : Nat} {fail : PyErr → Prog Key (List α) ρ} (hf : ∀ e, Within own (fail e)) (is : List String) (hi : ∀ i ∈ is, own (l, i))
    (k : List (Option (List α)) → Prog Key (List α) ρ) (hk : ∀ bs, bs.length = is.length → Within own (k bs)) : Within own (reads l fail is k) := by
  induction is generalizing k with
  | nil => exact hk [] rfl
  | cons i is ih =>
    refine ⟨hi i (by simp), fun b => ?_⟩
    have hn := fun (v : Option (List α)) => ih (fun j hj => hi j (by simp [hj])) (fun bs => k (v :: bs)) fun bs hb => hk _ (by simp [hb])
    cases b with
    | false => exact hn none
    | true =>
      refine ⟨hi i (by simp), fun v => ?_⟩
      cases v with
      | none => exact hf _
      | some b => exact hn (some b)

theorem writes_within {own : Key → Prop} {l : Nat} (kvs : List (String × List α)) (hi : ∀ kv ∈ kvs, own (l, kv.1)) {k : Prog Key (List α) ρ} (hk : Within own k) : Within own (writes l kvs k) := by
  induction kvs with
  | nil => exact hk
  | cons kv kvs ih => exact ⟨hi kv (by simp), ih fun j hj => hi j (by simp [hj])⟩

theorem deletes_within {own : Key → Prop} {l : Nat} {fail : PyErr → Prog Key (List α) ρ} (hf : ∀ e, Within own (fail e)) (ies : List (String × Bool)) (hi : ∀ ie ∈ ies, own (l, ie.1))
    {k : Prog Key (List α) ρ} (hk : Within own k) : Within own (deletes l fail ies k) := by
  induction ies with
  | nil => exact hk
  | cons ie ies ih =>
    obtain ⟨i, e⟩ := ie
    have ih := ih fun j hj => hi j (by simp [hj])
    cases e with
    | false => simpa only [deletes, Bool.false_eq_true, if_false] using ih
    | true =>
      simp only [deletes, if_true]
      refine ⟨hi (i, true) (by simp), fun b => ?_⟩
      cases b with
      | false => exact ih
      | true =>
        refine ⟨hi (i, true) (by simp), fun b => ?_⟩
        cases b with
        | false => exact hf _
        | true => exact ih

theorem finish_within {own : Key → Prop} {l : Nat} (c : Cfg) (g : List α → α) {fail : PyErr → Prog Key (List α) ρ} (hf : ∀ e, Within own (fail e)) {ids : List String} (hi : ∀ i ∈ ids, own (l, i))
    {k : ST α → Prog Key (List α) ρ} (hk : ∀ y, Lined y → y.md.ids = ids → Within own (k y)) (r : Py (ST α)) (hr : ∀ z, r = .ok z → Lined z ∧ z.md.ids = ids) :
    Within own (finish l c g fail k r) := by
  cases r with
  | error e => exact hf e
  | ok z =>
    obtain ⟨hz, hzi⟩ := hr z rfl
    unfold finish
    simp only
    rcases h : conv1d c g z with e | ⟨y, items⟩
    · exact hf e
    · obtain ⟨h1, h2, h3⟩ := conv1d_ids c g z hz y items h
      rw [hzi] at h2 h3
      have hky := hk y h1 h2
      refine writes_within _ (fun kv hkv => hi _ (h3 kv hkv)) ?_
      split
      · refine deletes_within hf _ (fun ie hie => hi _ ?_) hky
        rw [← h2]
        exact (List.of_mem_zip hie).1
      · exact hky

theorem callStack_within {own : Key → Prop} {fail : PyErr → Prog Key (List α) ρ} (hf : ∀ e, Within own (fail e)) {k : ST α → Prog Key (List α) ρ} (ids : List String) (hi : ∀ l, ∀ i ∈ ids, own (l, i))
    (hk : ∀ y, Within own (k y)) (ls : List (Layer α)) (n : Nat) (x : ST α) (hx : Lined x) (hxi : x.md.ids = ids) : Within own (callStack fail k n ls x) := by
  induction ls generalizing n x with
  | nil => exact hk x
  | cons l ls ih =>
    cases l with
    | act f => exact ih (n + 1) _ ⟨hx.1, by simpa using hx.2⟩ hxi
    | conv c g =>
      simp only [callStack]
      unfold callConv
      have hkk : ∀ y, Lined y → y.md.ids = ids → Within own (callStack fail k (n + 1) ls y) := fun y h1 h2 => ih (n + 1) y h1 h2
      split
      · rename_i hc
        refine reads_within hf _ (by rw [hxi]; exact hi n) _ fun bs hbs => finish_within c g hf (hi n) hkk _ fun z hz => ?_
        obtain ⟨h1, h2⟩ := hook_ids x hx hc.2 bs hbs z hz
        exact ⟨h1, h2.trans hxi⟩
      · refine finish_within c g hf (hi n) hkk _ fun z hz => ?_
        injection hz with hz
        subst hz
        exact ⟨hx, hxi⟩

theorem caller_within {own : Key → Prop} (ls : List (Layer α)) (xs : List (ST α)) (hx : ∀ x ∈ xs, Lined x ∧ ∀ i ∈ x.md.ids, ∀ l, own (l, i)) (acc : List (Py (ST α))) : Within own (caller ls acc xs) := by
  induction xs generalizing acc with
  | nil => trivial
  | cons x xs ih =>
    have ih := ih fun y hy => hx y (by simp [hy])
    obtain ⟨h1, h2⟩ := hx x (by simp)
    exact callStack_within (fun e => ih _) x.md.ids (fun l i hi => h2 i hi l) (fun y => ih _) ls 0 x h1 rfl

theorem sameAt_of {own : String → Prop} {σ τ : Store Key (List α)} (h : ∀ k : Key, own k.2 → σ k = τ k) (ls : List (Layer α)) (n : Nat) : SameAt own (stackFrom σ n ls) (stackFrom τ n ls) := by
  induction ls generalizing n with
  | nil => trivial
  | cons l ls ih => exact ⟨rfl, fun i hi => h (n, i) hi, ih (n + 1)⟩

/-- **C194.** Any number of threads call one online model, each on its own batches one after the other, catching exceptions; no stream is used by two threads. Then, for every interleaving of their operations on the shared buffers, every thread ends after a number of its own
operations that does not depend on the others; its calls have the outcomes, and leave the buffers of its streams, that they have when the thread runs alone. Buffers of other streams are as before. -/
theorem C194_threads (ls : List (Layer α)) (σ : Store Key (List α)) (own : Nat → String → Prop) (disj : ∀ t u i, own t i → own u i → t = u) (xs : Nat → List (ST α))
    (hx : ∀ t, ∀ x ∈ xs t, x.md.WF ∧ x.rows.length = x.md.ids.length ∧ ∀ i ∈ x.md.ids, own t i) :
    (∀ t, ∃ N, ∀ ts, (N ≤ ts.count t → ∃ r, (sched σ (fun u => caller ls [] (xs u)) ts).2 t = .done r) ∧
      ∀ r, (sched σ (fun u => caller ls [] (xs u)) ts).2 t = .done r →
        r = (chainCalls (stackFrom σ 0 ls) (xs t)).1 ∧ SameAt (own t) (stackFrom (sched σ (fun u => caller ls [] (xs u)) ts).1 0 ls) (chainCalls (stackFrom σ 0 ls) (xs t)).2) ∧
    ∀ ts l i, (∀ t, ¬ own t i) → (sched σ (fun u => caller ls [] (xs u)) ts).1 (l, i) = σ (l, i) := by
  have hw : ∀ t, Within (fun k : Key => own t k.2) (caller ls [] (xs t)) := fun t =>
    caller_within ls (xs t) (fun x h => ⟨⟨(hx t x h).1, (hx t x h).2.1⟩, fun i hi _ => (hx t x h).2.2 i hi⟩) []
  constructor
  · intro t
    obtain ⟨σ', h1, h2⟩ := caller_alone ls (xs t) [] σ
    obtain ⟨N, hN⟩ := sched_result (fun t (k : Key) => own t k.2) (fun t u k => disj t u k.2) t σ (fun u => caller ls [] (xs u)) hw σ' _ h1
    refine ⟨N, fun ts => ⟨fun hle => ⟨_, (hN ts).1 hle⟩, fun r hr => ?_⟩⟩
    obtain ⟨h3, h4⟩ := (hN ts).2 r hr
    refine ⟨by simpa using h3, ?_⟩
    rw [← h2]
    exact sameAt_of h4 ls 0
  · intro ts l i hi
    exact sched_other (fun t (k : Key) => own t k.2) ts σ _ hw (l, i) hi

/-- Two threads with the streams `a` and `b`, each with a first and a last chunk. -/
def exBatches : Nat → List (ST Int)
  | 0 => [{ md := ⟨["a"], [true], [false], [2], none⟩, width := 2, rows := [[1, 2]] }, { md := ⟨["a"], [false], [true], [2], none⟩, width := 2, rows := [[3, 4]] }]
  | 1 => [{ md := ⟨["b"], [true], [false], [3], none⟩, width := 3, rows := [[5, 6, 7]] }, { md := ⟨["b"], [false], [true], [1], none⟩, width := 1, rows := [[8]] }]
  | _ => []

def exOwn (t : Nat) (i : String) : Prop := t = 0 ∧ i = "a" ∨ t = 1 ∧ i = "b"

instance (t : Nat) (i : String) : Decidable (exOwn t i) := by unfold exOwn; infer_instance

example : (∀ t u i, exOwn t i → exOwn u i → t = u) ∧ ∀ t, ∀ x ∈ exBatches t, x.md.WF ∧ x.rows.length = x.md.ids.length ∧ ∀ i ∈ x.md.ids, exOwn t i := by
  constructor
  · rintro t u i (⟨rfl, rfl⟩ | ⟨rfl, rfl⟩) (⟨rfl, h⟩ | ⟨rfl, h⟩)
    · rfl
    · simp at h
    · simp at h
    · rfl
  · intro t x hx
    match t, hx with
    | 0, hx =>
      simp only [exBatches, List.mem_cons, List.not_mem_nil, or_false] at hx
      rcases hx with rfl | rfl <;> decide
    | 1, hx =>
      simp only [exBatches, List.mem_cons, List.not_mem_nil, or_false] at hx
      rcases hx with rfl | rfl <;> decide
    | _ + 2, hx => simp [exBatches] at hx

/-- The result of a thread that has ended. -/
def Prog.result? {κ ν ρ : Type} : Prog κ ν ρ → Option ρ
  | .done r => some r
  | _ => none

/-- Operations in turn: both threads end, with the outcomes they have alone. -/
example :
    let o := sched (fun _ => none) (fun t => caller [.conv ⟨2, 1, 1, 0⟩ exG, .act (· + 1)] [] (exBatches t)) [0, 1, 1, 0, 0, 1, 0, 1, 1, 0, 0, 1, 0, 1]
    (o.2 0).result?.map (·.map (·.map fun y => y.rows)) = some [.ok [[13]], .ok [[24, 35]]] ∧ (o.2 1).result?.map (·.map (·.map fun y => y.rows)) = some [.ok [[57, 68]], .ok [[79]]] ∧ o.1 (0, "a") = none ∧
      o.1 (0, "b") = none := by decide

/-- The streams have to be different: two threads send the last chunk of a stream at the same time, both see the buffer, both delete it, and the second `del` raises a `KeyError`. One after the other, neither order of the calls raises it. -/
example :
    let x : ST Int := { md := ⟨["a"], [false], [true], [1], none⟩, width := 1, rows := [[3]] }
    let σ : Store Key (List Int) := fun k => if k = (0, "a") then some [2] else none
    let ls : List (Layer Int) := [.conv ⟨2, 1, 1, 0⟩ exG]
    ((sched σ (fun _ => caller ls [] [x]) [0, 1, 0, 1, 0, 1, 0, 1, 0, 1]).2 0).result? = some [.ok { md := ⟨["a"], [false], [true], [1], none⟩, width := 1, rows := [[23]] }] ∧
    ((sched σ (fun _ => caller ls [] [x]) [0, 1, 0, 1, 0, 1, 0, 1, 0, 1]).2 1).result? = some [.error .keyError] ∧
    ((chainCalls (stackFrom σ 0 ls) [x, x]).1.map fun r => r.map fun y => y.rows) = [.ok [[23]], .error .typeError] := by decide

end
end DS.Conc
