import Verif.Spec.Workers
import Verif.Props.Faults
/-!
# C226: batches do not depend on how fast the workers are
-/

namespace DS.Work

open DS.Data

variable {β : Type}

/-! ### Without queues -/

/-- All processes without queues: the messages that have not been taken. -/
structure AState (β : Type) where
  lanes : List (List (Msg β))
  main : Main β

def State.abs (s : State β) : AState β := ⟨s.lanes.map fun l => l.queue ++ l.rest, s.main⟩

/-- The process that iterates if it never has to wait. -/
def astep (drop : Bool) (s : AState β) : AState β :=
  match s.main.status with
  | .running =>
    match s.lanes[s.main.next]? with
    | none => { s with main := s.main.flush }
    | some (m :: r) => ⟨s.lanes.set s.main.next r, s.main.take drop m⟩
    | some [] => { s with main := { s.main with next := s.main.next + 1 } }
  | _ => s

theorem work_abs (p i : Nat) (s : State β) : (s.work p i).abs = s.abs := by
  unfold State.work
  split
  · rename_i q m r h
    split
    · unfold State.abs
      dsimp only
      congr 1
      rw [List.map_set]
      apply List.ext_getElem?
      intro j
      rw [List.getElem?_set]
      split
      · rename_i hj
        subst hj
        split
        · rw [List.getElem?_map, h]
          simp
        · rename_i hl
          rw [List.length_map] at hl
          rw [List.getElem?_eq_none (by omega)] at h
          cases h
      · rfl
    · rfl
  · rfl

theorem main_abs (p : Nat) (drop : Bool) (s : State β) : (can p s .main = true → (s.main! drop).abs = astep drop s.abs) ∧ (can p s .main = false → s.main! drop = s) := by
  unfold can State.main! astep
  cases hst : s.main.status with
  | running =>
    have e1 : s.abs.main.status = .running := hst
    have e2 : s.abs.main = s.main := rfl
    rw [e1]
    dsimp only
    rw [e2]
    have e3 : s.abs.lanes[s.main.next]? = (s.lanes[s.main.next]?).map fun l => l.queue ++ l.rest := List.getElem?_map ..
    rw [e3]
    cases hl : s.lanes[s.main.next]? with
    | none => exact ⟨fun _ => rfl, by simp⟩
    | some l =>
      obtain ⟨q, r⟩ := l
      cases q with
      | cons m q =>
        refine ⟨fun _ => ?_, by simp⟩
        unfold State.abs
        simp [List.map_set]
      | nil =>
        cases r with
        | nil => exact ⟨fun _ => rfl, by simp⟩
        | cons m r => exact ⟨by simp, fun _ => rfl⟩
  | returned => exact ⟨by simp, fun _ => rfl⟩
  | raised e => exact ⟨by simp, fun _ => rfl⟩

/-- The messages that have not been made. -/
def restOf (s : State β) : Nat := (s.lanes.map fun l => l.rest.length).sum

theorem sum_set (l : List Nat) (i a b : Nat) (h : l[i]? = some a) : (l.set i b).sum + a = l.sum + b := by
  induction l generalizing i with
  | nil => simp at h
  | cons x xs ih =>
    cases i with
    | zero =>
      simp only [List.getElem?_cons_zero, Option.some.injEq] at h
      subst h
      simp only [List.set_cons_zero, List.sum_cons]
      omega
    | succ i =>
      have := ih i (by simpa using h)
      simp only [List.set_cons_succ, List.sum_cons]
      omega

theorem work_rest (p i : Nat) (s : State β) : restOf (s.work p i) + (if can p s (.work i) then 1 else 0) = restOf s := by
  unfold State.work can restOf
  cases hl : s.lanes[i]? with
  | none => simp [hl]
  | some l =>
    obtain ⟨q, r⟩ := l
    cases r with
    | nil => simp [hl]
    | cons m r =>
      dsimp only
      by_cases hq : q.length < p
      · rw [if_pos hq]
        dsimp only
        rw [List.map_set]
        have := sum_set (s.lanes.map fun l => l.rest.length) i (r.length + 1) r.length (by rw [List.getElem?_map, hl]; rfl)
        simp only [hl, hq, decide_true, if_true]
        omega
      · rw [if_neg hq]
        simp [hl, hq]

theorem main_rest (drop : Bool) (s : State β) : restOf (s.main! drop) = restOf s := by
  unfold State.main! restOf
  split
  · split
    · rfl
    · rename_i m q r h
      dsimp only
      rw [List.map_set]
      have := sum_set (s.lanes.map fun l => l.rest.length) s.main.next r.length r.length (by rw [List.getElem?_map, h]; rfl)
      dsimp only at this ⊢
      omega
    · rfl
    · rfl
  · rfl

/-- A schedule does to the messages what as many steps without queues do as its main process could take; every other step that could be taken made a message. -/
theorem run_abs (p : Nat) (drop : Bool) (sched : List Act) (s : State β) :
    ∃ m w, steps p drop s sched = m + w ∧ (s.run p drop sched).abs = (astep drop)^[m] s.abs ∧ restOf (s.run p drop sched) + w = restOf s ∧
      (0 < m → ((astep drop)^[m - 1] s.abs).main.status = .running) := by
  induction sched generalizing s with
  | nil => exact ⟨0, 0, rfl, rfl, rfl, by simp⟩
  | cons a as ih =>
    obtain ⟨m, w, h1, h2, h3, h4⟩ := ih (s.act p drop a)
    have hrun : s.run p drop (a :: as) = (s.act p drop a).run p drop as := rfl
    rw [hrun]
    unfold steps
    cases a with
    | work i =>
      have e : (s.act p drop (.work i)) = s.work p i := rfl
      rw [e] at h1 h2 h3 h4 ⊢
      rw [work_abs] at h2 h4
      have := work_rest p i s
      exact ⟨m, w + (if can p s (.work i) then 1 else 0), by omega, h2, by omega, h4⟩
    | main =>
      have e : (s.act p drop .main) = s.main! drop := rfl
      rw [e] at h1 h2 h3 h4 ⊢
      have hr := main_rest drop s
      obtain ⟨c1, c2⟩ := main_abs p drop s
      cases hc : can p s .main with
      | true =>
        rw [c1 hc] at h2 h4
        refine ⟨m + 1, w, by simp only [if_true]; omega, h2, by omega, ?_⟩
        intro _
        cases m with
        | zero =>
          unfold can at hc
          simp only [Bool.and_eq_true, decide_eq_true_eq] at hc
          exact hc.1
        | succ m => exact h4 (by omega)
      | false =>
        rw [c2 hc] at h1 h2 h3 h4 ⊢
        exact ⟨m, w, by simp only [Bool.false_eq_true, if_false]; omega, h2, h3, h4⟩

/-! ### The same without processes -/

/-- One `next` of the zip of all workers: `zip` or `zip_longest` before it looks for its end. -/
def loop (drop : Bool) (k : Nat) (gs : List (Gen β)) : Next β := if drop then zipNext k gs else longLoop k gs

theorem loop_cons (drop : Bool) (k : Nat) (g : Gen β) (gs : List (Gen β)) :
    (∀ x, g.items[k]? = some x → loop drop k (g :: gs) = (match loop drop k gs with | .item xs => .item (x :: xs) | r => r)) ∧
      (g.items[k]? = none → ∀ e, g.fail = some e → loop drop k (g :: gs) = .raise e) ∧
      (g.items[k]? = none → g.fail = none → loop drop k (g :: gs) = if drop then .stop else loop drop k gs) := by
  unfold loop
  cases drop with
  | true =>
    simp only [if_true, zipNext]
    refine ⟨fun x hx => by rw [hx]; cases zipNext k gs <;> rfl, fun h e he => by rw [h, he], fun h he => by rw [h, he]⟩
  | false =>
    simp only [Bool.false_eq_true, if_false, longLoop]
    refine ⟨fun x hx => by rw [hx]; cases longLoop k gs <;> rfl, fun h e he => by rw [h, he], fun h he => by rw [h, he]⟩

/-- The messages of a worker after `k` rounds. -/
def After (drop : Bool) (k : Nat) (l : List (Msg β)) (g : Gen β) : Prop :=
  (k ≤ g.items.length ∧ l = msgs ⟨g.items.drop k, g.fail⟩) ∨ (drop = false ∧ l = [] ∧ g.items.length < k ∧ g.fail = none)

theorem After.split {drop : Bool} {k : Nat} {l : List (Msg β)} {g : Gen β} (h : After drop k l g) :
    (∃ x r, g.items[k]? = some x ∧ l = .item x :: r ∧ After drop (k + 1) r g) ∨ (∃ e, g.items[k]? = none ∧ g.fail = some e ∧ l = [.fail e]) ∨
      (g.items[k]? = none ∧ g.fail = none ∧ (l = [.stop] ∨ drop = false ∧ l = []) ∧ (drop = false → After drop (k + 1) [] g)) := by
  rcases h with ⟨h1, h2⟩ | ⟨h1, h2, h3, h4⟩
  · by_cases hk : k < g.items.length
    · left
      refine ⟨g.items[k], msgs ⟨g.items.drop (k + 1), g.fail⟩, List.getElem?_eq_getElem hk, ?_, .inl ⟨hk, rfl⟩⟩
      rw [h2, List.drop_eq_getElem_cons hk]
      rfl
    · have hk : k = g.items.length := by omega
      have hn : g.items[k]? = none := List.getElem?_eq_none (by omega)
      have hd : g.items.drop k = [] := List.drop_eq_nil_iff.2 (by omega)
      rw [hd] at h2
      cases hf : g.fail with
      | some e => exact .inr (.inl ⟨e, hn, rfl, by rw [h2, hf]; rfl⟩)
      | none => exact .inr (.inr ⟨hn, rfl, .inl (by rw [h2, hf]; rfl), fun hdr => .inr ⟨hdr, rfl, by omega, hf⟩⟩)
  · have hn : g.items[k]? = none := List.getElem?_eq_none (by omega)
    exact .inr (.inr ⟨hn, h4, .inr ⟨h1, h2⟩, fun hdr => .inr ⟨hdr, rfl, by omega, h4⟩⟩)

theorem lane_at (pre : List (List (Msg β))) (l : List (Msg β)) (suf : List (List (Msg β))) : (pre ++ l :: suf)[pre.length]? = some l := by
  simp

theorem lane_set (pre : List (List (Msg β))) (l l' : List (Msg β)) (suf : List (List (Msg β))) : (pre ++ l :: suf).set pre.length l' = (pre ++ [l']) ++ suf := by
  simp

/-- One round. -/
theorem round_abs (drop : Bool) (k : Nat) (gs : List (Gen β)) (suf : List (List (Msg β))) (h : List.Forall₂ (After drop k) suf gs) (pre : List (List (Msg β))) (out : List (List β)) (acc : List β) :
    (∃ st m, (loop drop k gs = .stop ∧ st = .returned ∨ ∃ e, loop drop k gs = .raise e ∧ st = .raised e) ∧
      ∃ L a nx, (astep drop)^[m] ⟨pre ++ suf, ⟨out, acc, pre.length, .running⟩⟩ = ⟨L, ⟨out, a, nx, st⟩⟩) ∨
    (∃ b suf', loop drop k gs = .item b ∧ (drop = true → gs ≠ [] → b ≠ []) ∧ List.Forall₂ (After drop (k + 1)) suf' gs ∧
      (astep drop)^[suf.length] ⟨pre ++ suf, ⟨out, acc, pre.length, .running⟩⟩ = ⟨pre ++ suf', ⟨out, acc ++ b, pre.length + suf.length, .running⟩⟩) := by
  induction h generalizing pre acc with
  | nil =>
    right
    refine ⟨[], [], by unfold loop; cases drop <;> rfl, by simp, .nil, by simp⟩
  | @cons l g suf gs hl hs ih =>
    obtain ⟨c1, c2, c3⟩ := loop_cons drop k g gs
    rcases hl.split with ⟨x, r, e1, rfl, e3⟩ | ⟨e, e1, e2, rfl⟩ | ⟨e1, e2, e3, e4⟩
    · have hstep : astep drop ⟨pre ++ (.item x :: r) :: suf, ⟨out, acc, pre.length, .running⟩⟩ = ⟨(pre ++ [r]) ++ suf, ⟨out, acc ++ [x], (pre ++ [r]).length, .running⟩⟩ := by
        unfold astep
        dsimp only
        rw [lane_at]
        dsimp only
        rw [lane_set]
        simp [Main.take]
      rw [c1 x e1]
      rcases ih (pre ++ [r]) (acc ++ [x]) with ⟨st, m, h1, L, a, nx, h2⟩ | ⟨b, suf', h1, -, h3, h4⟩
      · left
        refine ⟨st, m + 1, ?_, L, a, nx, ?_⟩
        · rcases h1 with ⟨h1, h1'⟩ | ⟨e, h1, h1'⟩
          · exact .inl ⟨by rw [h1], h1'⟩
          · exact .inr ⟨e, by rw [h1], h1'⟩
        · rw [Function.iterate_succ_apply, hstep, h2]
      · right
        refine ⟨x :: b, r :: suf', by rw [h1], by simp, .cons e3 h3, ?_⟩
        rw [List.length_cons, Function.iterate_succ_apply, hstep, h4]
        simp
        omega
    · left
      refine ⟨.raised e, 1, .inr ⟨e, c2 e1 e e2, rfl⟩, pre ++ [[]] ++ suf, acc, pre.length, ?_⟩
      rw [Function.iterate_one]
      unfold astep
      dsimp only
      rw [lane_at]
      dsimp only
      rw [lane_set]
      rfl
    · cases drop with
      | true =>
        left
        rcases e3 with rfl | ⟨h, -⟩
        · refine ⟨.returned, 1, .inl ⟨by rw [c3 e1 e2]; rfl, rfl⟩, pre ++ [[]] ++ suf, acc, pre.length, ?_⟩
          rw [Function.iterate_one]
          unfold astep
          dsimp only
          rw [lane_at]
          dsimp only
          rw [lane_set]
          rfl
        · cases h
      | false =>
        have hstep : astep false ⟨pre ++ l :: suf, ⟨out, acc, pre.length, .running⟩⟩ = ⟨(pre ++ [[]]) ++ suf, ⟨out, acc, (pre ++ [([] : List (Msg β))]).length, .running⟩⟩ := by
          unfold astep
          dsimp only
          rw [lane_at]
          rcases e3 with rfl | ⟨-, rfl⟩
          · dsimp only
            rw [lane_set]
            simp [Main.take]
          · dsimp only
            simp
        rw [c3 e1 e2]
        simp only [Bool.false_eq_true, if_false]
        rcases ih (pre ++ [[]]) acc with ⟨st, m, h1, L, a, nx, h2⟩ | ⟨b, suf', h1, -, h3, h4⟩
        · left
          refine ⟨st, m + 1, h1, L, a, nx, ?_⟩
          rw [Function.iterate_succ_apply, hstep, h2]
        · right
          refine ⟨b, [] :: suf', h1, by simp, .cons (e4 rfl) h3, ?_⟩
          rw [List.length_cons, Function.iterate_succ_apply, hstep, h4]
          simp
          omega

/-- One `next`. -/
def nextOf (drop : Bool) (gs : List (Gen β)) (k : Nat) : Next β := if drop then zipNext k gs else longNext k gs

theorem nextOf_lt (drop : Bool) (gs : List (Gen β)) (k : Nat) (x : β) (b : List β) (h : loop drop k gs = .item (x :: b)) : k < maxLen (gs.map Gen.items) := by
  induction gs generalizing x b with
  | nil => unfold loop at h; cases drop <;> simp [zipNext, longLoop] at h
  | cons g gs ih =>
    obtain ⟨c1, c2, c3⟩ := loop_cons drop k g gs
    have hmax : maxLen ((g :: gs).map Gen.items) = max g.items.length (maxLen (gs.map Gen.items)) := rfl
    rw [hmax]
    cases hk : g.items[k]? with
    | some y =>
      have := (List.getElem?_eq_some_iff.1 hk).1
      omega
    | none =>
      cases hf : g.fail with
      | some e => rw [c2 hk e hf] at h; cases h
      | none =>
        rw [c3 hk hf] at h
        cases drop with
        | true => cases h
        | false =>
          have := ih x b h
          omega

theorem rounds_abs (drop : Bool) (gs : List (Gen β)) (hne : drop = true → gs ≠ []) (m k : Nat) (hm : maxLen (gs.map Gen.items) < m + k) (lanes : List (List (Msg β)))
    (h : List.Forall₂ (After drop k) lanes gs) (hk : k ≤ maxLen (gs.map Gen.items)) (out : List (List β)) :
    ∃ N L a nx, (astep drop)^[N] ⟨lanes, ⟨out, [], 0, .running⟩⟩ = ⟨L, ⟨out ++ (drive (nextOf drop gs) m k).items, a, nx, endOf (drive (nextOf drop gs) m k).fail⟩⟩ := by
  induction m generalizing k lanes out with
  | zero => omega
  | succ m ih =>
    unfold drive
    rcases round_abs drop k gs lanes h [] out [] with ⟨st, n, h1, L, a, nx, h2⟩ | ⟨b, suf', h1, hb, h3, h4⟩
    · refine ⟨n, L, a, nx, ?_⟩
      rcases h1 with ⟨h1, rfl⟩ | ⟨e, h1, rfl⟩
      · have hn : nextOf drop gs k = .stop := by
          unfold nextOf
          unfold loop at h1
          cases drop with
          | true => exact h1
          | false =>
            simp only [Bool.false_eq_true, if_false] at h1 ⊢
            unfold longNext
            rw [h1]
        rw [hn]
        simpa [endOf] using h2
      · have hn : nextOf drop gs k = .raise e := by
          unfold nextOf
          unfold loop at h1
          cases drop with
          | true => exact h1
          | false =>
            simp only [Bool.false_eq_true, if_false] at h1 ⊢
            unfold longNext
            rw [h1]
        rw [hn]
        simpa [endOf] using h2
    · simp only [List.nil_append, List.length_nil, Nat.zero_add] at h4
      have hlen : suf'.length = lanes.length := by rw [h3.length_eq, h.length_eq]
      cases b with
      | nil =>
        have hd : drop = false := by
          cases hd : drop with
          | false => rfl
          | true => exact absurd rfl (hb hd (hne hd))
        subst hd
        have hn : nextOf false gs k = .stop := by
          unfold nextOf longNext
          unfold loop at h1
          simp only [Bool.false_eq_true, if_false] at h1 ⊢
          rw [h1]
        refine ⟨lanes.length + 1, suf', [], lanes.length, ?_⟩
        rw [Function.iterate_succ_apply', h4, hn]
        unfold astep
        dsimp only
        rw [List.getElem?_eq_none (by omega)]
        simp [Main.flush, endOf]
      | cons x b =>
        have hlt := nextOf_lt drop gs k x b h1
        have hn : nextOf drop gs k = .item (x :: b) := by
          unfold nextOf
          unfold loop at h1
          cases drop with
          | true => exact h1
          | false =>
            simp only [Bool.false_eq_true, if_false] at h1 ⊢
            unfold longNext
            rw [h1]
        rw [hn]
        obtain ⟨N, L, a, nx, hN⟩ := ih (k + 1) (by omega) suf' h3 (by omega) (out ++ [x :: b])
        refine ⟨N + (lanes.length + 1), L, a, nx, ?_⟩
        rw [Function.iterate_add_apply, Function.iterate_succ_apply', h4]
        have hf : astep drop ⟨suf', ⟨out, x :: b, lanes.length, .running⟩⟩ = ⟨suf', ⟨out ++ [x :: b], [], 0, .running⟩⟩ := by
          unfold astep
          dsimp only
          rw [List.getElem?_eq_none (by omega)]
          simp [Main.flush]
        rw [hf, hN]
        simp [List.append_assoc]

/-- The zip of the generators, stream_dataset.py:486-494. -/
def merged (drop : Bool) (gs : List (Gen β)) : Gen (List β) := if drop then zipG gs else longG gs

theorem start_abs (drop : Bool) (gs : List (Gen β)) :
    ∃ N L a nx, (astep drop)^[N] (start gs).abs = ⟨L, ⟨(merged drop gs).items, a, nx, endOf (merged drop gs).fail⟩⟩ := by
  have habs : (start gs).abs = ⟨gs.map msgs, ⟨[], [], 0, .running⟩⟩ := by
    unfold start State.abs
    simp
  have hall : List.Forall₂ (After drop 0) (gs.map msgs) gs := by
    induction gs with
    | nil => exact .nil
    | cons g gs ih => exact .cons (.inl ⟨Nat.zero_le _, rfl⟩) (ih (by unfold start State.abs; simp))
  rw [habs]
  by_cases hg : gs = []
  · subst hg
    refine ⟨1, [], [], 0, ?_⟩
    cases drop <;> rfl
  · obtain ⟨N, L, a, nx, h⟩ := rounds_abs drop gs (fun _ => hg) (callsOf gs) 0 (by unfold callsOf; omega) (gs.map msgs) hall (Nat.zero_le _) []
    refine ⟨N, L, a, nx, ?_⟩
    rw [h]
    unfold merged zipG longG nextOf
    cases drop with
    | true =>
      simp only [if_true]
      rw [if_neg (by simpa using hg)]
      rfl
    | false =>
      simp only [Bool.false_eq_true, if_false]
      rfl

theorem astep_ended (drop : Bool) (s : AState β) (h : s.main.status ≠ .running) (n : Nat) : (astep drop)^[n] s = s := by
  have h1 : astep drop s = s := by
    unfold astep
    split
    · rename_i h'; exact absurd h' h
    · rfl
  exact Function.iterate_fixed h1 n

theorem astep_out (drop : Bool) (s : AState β) : s.main.out <+: (astep drop s).main.out := by
  unfold astep
  split
  · split
    · show s.main.out <+: (Main.flush s.main).out
      unfold Main.flush
      split
      · exact List.prefix_refl _
      · exact List.prefix_append ..
    · rename_i m r _
      show s.main.out <+: (Main.take drop s.main m).out
      unfold Main.take
      split
      · exact List.prefix_refl _
      · split <;> exact List.prefix_refl _
      · exact List.prefix_refl _
    · exact List.prefix_refl _
  · exact List.prefix_refl _

theorem iter_out (drop : Bool) (n : Nat) (s : AState β) : s.main.out <+: ((astep drop)^[n] s).main.out := by
  induction n generalizing s with
  | zero => exact List.prefix_refl _
  | succ n ih => rw [Function.iterate_succ_apply]; exact (astep_out drop s).trans (ih _)

/-- **C226 (order).** Whatever the schedule, the process that iterates has yielded the first batches of the sequential program (C206), in order; when it ends, it has yielded all of them and ends like it. -/
theorem C226_same (gs : List (Gen β)) (prefetch : Nat) (drop : Bool) (sched : List Act) :
    ((start gs).run prefetch drop sched).main.out <+: (merged drop gs).items ∧
      (((start gs).run prefetch drop sched).main.status ≠ .running →
        ((start gs).run prefetch drop sched).main.out = (merged drop gs).items ∧ ((start gs).run prefetch drop sched).main.status = endOf (merged drop gs).fail) := by
  obtain ⟨N, L, a, nx, hN⟩ := start_abs drop gs
  obtain ⟨m, w, -, h2, -, -⟩ := run_abs prefetch drop sched (start gs)
  have hmain : ((start gs).run prefetch drop sched).main = ((astep drop)^[m] (start gs).abs).main := by rw [← h2]; rfl
  have hend : endOf (merged drop gs).fail ≠ .running := by cases (merged drop gs).fail <;> simp [endOf]
  rw [hmain]
  constructor
  · rcases Nat.le_total m N with hmN | hmN
    · obtain ⟨j, rfl⟩ := Nat.exists_eq_add_of_le' hmN
      rw [Function.iterate_add_apply] at hN
      have := iter_out drop j ((astep drop)^[m] (start gs).abs)
      rw [hN] at this
      exact this
    · obtain ⟨j, rfl⟩ := Nat.exists_eq_add_of_le' hmN
      rw [Function.iterate_add_apply, hN, astep_ended drop _ hend]
      exact List.prefix_refl _
  · intro hst
    rcases Nat.le_total m N with hmN | hmN
    · obtain ⟨j, rfl⟩ := Nat.exists_eq_add_of_le' hmN
      rw [Function.iterate_add_apply, astep_ended drop _ hst] at hN
      rw [hN]
      exact ⟨rfl, rfl⟩
    · obtain ⟨j, rfl⟩ := Nat.exists_eq_add_of_le' hmN
      rw [Function.iterate_add_apply, hN, astep_ended drop _ hend]
      exact ⟨rfl, rfl⟩

/-- **C226 (no deadlock).** As long as the iteration has not ended, some process can take a step. -/
theorem C226_progress (gs : List (Gen β)) (prefetch : Nat) (hp : 0 < prefetch) (drop : Bool) (sched : List Act)
    (h : ((start gs).run prefetch drop sched).main.status = .running) : ∃ a, can prefetch ((start gs).run prefetch drop sched) a = true := by
  generalize (start gs).run prefetch drop sched = s at h
  cases hl : s.lanes[s.main.next]? with
  | none => exact ⟨.main, by simp [can, h, hl]⟩
  | some l =>
    obtain ⟨q, r⟩ := l
    cases q with
    | cons m q => exact ⟨.main, by simp [can, h, hl]⟩
    | nil =>
      cases r with
      | nil => exact ⟨.main, by simp [can, h, hl]⟩
      | cons m r => exact ⟨.work s.main.next, by simp [can, hl, hp]⟩

/-- **C226 (ends).** There is a bound on the number of steps that can be taken in any schedule. With `C226_progress`: processes that take steps as long as one can do so end the iteration. -/
theorem C226_ends (gs : List (Gen β)) (prefetch : Nat) (drop : Bool) : ∃ B, ∀ sched, steps prefetch drop (start gs) sched ≤ B := by
  obtain ⟨N, L, a, nx, hN⟩ := start_abs drop gs
  refine ⟨N + restOf (start gs), ?_⟩
  intro sched
  obtain ⟨m, w, h1, h2, h3, h4⟩ := run_abs prefetch drop sched (start gs)
  have hend : endOf (merged drop gs).fail ≠ .running := by cases (merged drop gs).fail <;> simp [endOf]
  have : m ≤ N := by
    by_contra hcon
    have h5 := h4 (by omega)
    obtain ⟨j, hj⟩ : ∃ j, m - 1 = j + N := ⟨m - 1 - N, by omega⟩
    rw [hj, Function.iterate_add_apply, hN, astep_ended drop _ hend] at h5
    exact hend h5
  omega

/-- **C226 (read ahead).** No worker is ever more than `prefetch` messages ahead. -/
theorem C226_ahead (gs : List (Gen β)) (prefetch : Nat) (drop : Bool) (sched : List Act) : ∀ l ∈ ((start gs).run prefetch drop sched).lanes, l.queue.length ≤ prefetch := by
  have key : ∀ s : State β, (∀ l ∈ s.lanes, l.queue.length ≤ prefetch) → ∀ l ∈ (s.run prefetch drop sched).lanes, l.queue.length ≤ prefetch := by
    induction sched with
    | nil => exact fun s h => h
    | cons a as ih =>
      intro s h
      apply ih (s.act prefetch drop a)
      cases a with
      | work i =>
        show ∀ l ∈ (s.work prefetch i).lanes, _
        unfold State.work
        split
        · rename_i q m r hl
          split
          · rename_i hq
            intro l hm
            rcases List.mem_or_eq_of_mem_set hm with hm | rfl
            · exact h l hm
            · simp only [List.length_append, List.length_singleton]
              omega
          · exact h
        · exact h
      | main =>
        show ∀ l ∈ (s.main! drop).lanes, _
        unfold State.main!
        split
        · split
          · exact h
          · rename_i m q r hl
            intro l hm
            rcases List.mem_or_eq_of_mem_set hm with hm | rfl
            · exact h l hm
            · have := h _ (List.mem_of_getElem? hl)
              simp at this ⊢
              omega
          · exact h
          · exact h
        · exact h
  apply key
  intro l hl
  obtain ⟨g, -, rfl⟩ := List.mem_map.1 hl
  exact Nat.zero_le _

/-- **C226 (parts put together).** The same for what `make_streams_synchronous` reads when batches do not overlap. -/
theorem C226_merge {α : Type} (parts : List (Gen (List (Sample α)))) (prefetch : Nat) (drop : Bool) (sched : List Act) (h : ((start parts).run prefetch drop sched).main.status ≠ .running) :
    (mergeG drop parts).items = ((start parts).run prefetch drop sched).main.out.map List.flatten ∧ endOf (mergeG drop parts).fail = ((start parts).run prefetch drop sched).main.status := by
  obtain ⟨h1, h2⟩ := (C226_same parts prefetch drop sched).2 h
  rw [h1, h2]
  exact ⟨rfl, rfl⟩

/-- **C226 (loader).** With overlapping batches, the batches of the loader when the iteration ends are those of the sequential model of the loader (`loaderG`, C206), for every schedule of its workers. -/
theorem C226_loader {α : Type} (parts : List (Gen (List (Sample α)))) (prefetch : Nat) (drop : Bool) (sched : List Act) (fuel : Nat)
    (h : ((start parts).run prefetch drop sched).main.status ≠ .running) :
    (loaderG drop true fuel parts).1 = ((start parts).run prefetch drop sched).main.out.map List.flatten ∧
      ((loaderG drop true fuel parts).2 = .returned ↔ ((start parts).run prefetch drop sched).main.status = .returned) ∧
      ∀ e, (loaderG drop true fuel parts).2 = .raised e ↔ ((start parts).run prefetch drop sched).main.status = .raised e := by
  obtain ⟨h1, h2⟩ := (C226_same parts prefetch drop sched).2 h
  rw [h1, h2]
  unfold loaderG mergeG merged
  simp only [if_true]
  refine ⟨trivial, ?_, ?_⟩
  · cases (if drop = true then zipG parts else longG parts).fail <;> simp [endOf]
  · intro e
    cases (if drop = true then zipG parts else longG parts).fail <;> simp [endOf]

/-! ### Examples -/

/-- A worker with three batches and one with two. -/
def exGens : List (Gen Nat) := [⟨[1, 2, 3], none⟩, ⟨[4, 5], none⟩]

-- the second worker is much faster than the first
example : (((start exGens).run 2 false (List.replicate 5 (.work 1) ++ (List.replicate 9 [.main, .work 0, .main, .main, .work 1]).flatten)).main.out, ((start exGens).run 2 false (List.replicate 5 (.work 1) ++
    (List.replicate 9 [.main, .work 0, .main, .main, .work 1]).flatten)).main.status) = ([[1, 4], [2, 5], [3]], .returned) := by decide +kernel
example : (((start (exGens ++ [⟨[6], some .runtimeError⟩])).run 1 true ((List.replicate 9 [Act.work 2, .work 0, .main, .work 1]).flatten)).main.out,
    ((start (exGens ++ [⟨[6], some .runtimeError⟩])).run 1 true ((List.replicate 9 [Act.work 2, .work 0, .main, .work 1]).flatten)).main.status) = ([[1, 4, 6]], .raised .runtimeError) := by decide +kernel
-- nothing moves if the workers do not: the process that iterates waits
example : ((start exGens).run 2 false (List.replicate 9 .main)).main.status = .running ∧ can 2 ((start exGens).run 2 false (List.replicate 9 .main)) (.work 0) = true := by decide

end DS.Work
