import Verif.Spec.LoaderLive
import Verif.Props.Loader
/-!
# C228: running iterators of a loader
-/

namespace DS.LLive

open DS.Data

variable {α γ : Type}

theorem resultsOf_append (k : Nat) (a b : List (Nat × Res γ)) : resultsOf k (a ++ b) = resultsOf k a ++ resultsOf k b := by
  unfold resultsOf
  rw [List.filter_append, List.map_append]

/-- What an iterator will give. -/
def will (it : Iter α) (cs : List (Option (List (Sample α) → Py γ))) : List (Res γ) :=
  match it with
  | .made => []
  | .run left fin => collated left fin cs
  | .done => List.replicate cs.length .stop

theorem collated_hang (cs : List (Option (List (Sample α) → Py γ))) : collated [] .running cs = List.replicate cs.length .hangs := by
  cases cs <;> rfl

theorem emit_will (c : Option (List (Sample α) → Py γ)) (left : List (List (Sample α))) (fin : Ended) (cs : List (Option (List (Sample α) → Py γ))) :
    collated left fin (c :: cs) = (emit c left fin).1 :: will (emit c left fin).2 cs ∧ (emit c left fin).2 ≠ .made := by
  cases left with
  | nil =>
    cases fin with
    | returned => exact ⟨rfl, by simp [emit]⟩
    | raised e => exact ⟨rfl, by simp [emit]⟩
    | running =>
      refine ⟨?_, by simp [emit]⟩
      show _ = Res.hangs :: collated [] .running cs
      rw [collated_hang cs]
      rfl
  | cons b bs =>
    cases c with
    | none => exact ⟨rfl, by simp [emit, collateOf]⟩
    | some f =>
      unfold emit collated
      dsimp only [collateOf]
      cases hf : f b with
      | ok x => exact ⟨rfl, by simp⟩
      | error e => exact ⟨rfl, by simp⟩

theorem next_will (disk : Disk α) (fuel : Nat) (o : Obj α γ) (c : Choice) (it : Iter α) (h : it ≠ .made) (cs : List (Option (List (Sample α) → Py γ))) :
    will it (o.collate :: cs) = (it.next disk fuel o c).1 :: will (it.next disk fuel o c).2 cs ∧ (it.next disk fuel o c).2 ≠ .made := by
  cases it with
  | made => exact absurd rfl h
  | run left fin => exact emit_will o.collate left fin cs
  | done => exact ⟨rfl, by simp [Iter.next]⟩

/-- From any state in which the iterator has begun. -/
theorem run_will (disk : Disk α) (fuel : Nat) (k : Nat) (acts : List (Act α γ)) (w : World α γ) (it : Iter α) (hk : w.its[k]? = some it) (hm : it ≠ .made) :
    resultsOf k (w.run disk fuel acts).2 = will it ((objsAt k w.obj acts).map Obj.collate) := by
  induction acts generalizing w it with
  | nil => cases it with
    | made => exact absurd rfl hm
    | run left fin => cases left <;> rfl
    | done => rfl
  | cons a as ih =>
    unfold World.run
    dsimp only
    rw [resultsOf_append]
    cases a with
    | set o => exact ih { w with obj := o } it hk hm
    | iter =>
      refine ih { w with its := w.its ++ [.made] } it ?_ hm
      show (w.its ++ [Iter.made])[k]? = _
      rw [List.getElem?_append_left (List.getElem?_eq_some_iff.1 hk).1, hk]
    | next j c =>
      unfold World.act objsAt
      dsimp only
      by_cases hj : j = k
      · subst hj
        rw [if_pos rfl, List.map_cons, hk]
        dsimp only
        obtain ⟨h1, h2⟩ := next_will disk fuel w.obj c it hm ((objsAt j w.obj as).map Obj.collate)
        rw [h1, ih _ (it.next disk fuel w.obj c).2 (by
          show (w.its.set j _)[j]? = _
          rw [List.getElem?_set_self (List.getElem?_eq_some_iff.1 hk).1]) h2]
        simp [resultsOf]
      · rw [if_neg hj]
        cases hw : w.its[j]? with
        | none => exact ih w it hk hm
        | some it' =>
          dsimp only
          have hr : resultsOf k [(j, (it'.next disk fuel w.obj c).1)] = [] := by simp [resultsOf, hj]
          rw [hr]
          refine ih { w with its := w.its.set j _ } it ?_ hm
          show (w.its.set j _)[k]? = _
          rw [List.getElem?_set_ne hj]
          exact hk

/-- Steps that do not touch an iterator leave it as it is. -/
theorem run_untouched (disk : Disk α) (fuel : Nat) (k : Nat) (acts : List (Act α γ)) (ha : ∀ a ∈ acts, Untouched k a) (w : World α γ) (it : Iter α) (hk : w.its[k]? = some it) :
    resultsOf k (w.run disk fuel acts).2 = [] ∧ (w.run disk fuel acts).1.its[k]? = some it ∧ (w.run disk fuel acts).1.obj = objAfter w.obj acts := by
  induction acts generalizing w with
  | nil => exact ⟨rfl, hk, rfl⟩
  | cons a as ih =>
    have iha := ih fun a h => ha a (List.mem_cons_of_mem _ h)
    have h0 := ha a List.mem_cons_self
    unfold World.run
    dsimp only
    rw [resultsOf_append]
    cases a with
    | set o => exact iha { w with obj := o } hk
    | iter =>
      refine iha { w with its := w.its ++ [.made] } ?_
      show (w.its ++ [Iter.made])[k]? = _
      rw [List.getElem?_append_left (List.getElem?_eq_some_iff.1 hk).1, hk]
    | next j c =>
      have hj : j ≠ k := h0
      unfold World.act objAfter
      dsimp only
      cases hw : w.its[j]? with
      | none => exact iha w hk
      | some it' =>
        dsimp only
        have hr : resultsOf k [(j, (it'.next disk fuel w.obj c).1)] = [] := by simp [resultsOf, hj]
        rw [hr]
        refine iha { w with its := w.its.set j _ } ?_
        show (w.its.set j _)[k]? = _
        rw [List.getElem?_set_ne hj]
        exact hk

theorem run_append (disk : Disk α) (fuel : Nat) (w : World α γ) (a b : List (Act α γ)) :
    (w.run disk fuel (a ++ b)).2 = (w.run disk fuel a).2 ++ ((w.run disk fuel a).1.run disk fuel b).2 := by
  induction a generalizing w with
  | nil => rfl
  | cons x xs ih =>
    show (w.act disk fuel x).2 ++ ((w.act disk fuel x).1.run disk fuel (xs ++ b)).2 = ((w.act disk fuel x).2 ++ ((w.act disk fuel x).1.run disk fuel xs).2) ++ _
    rw [ih, List.append_assoc]
    rfl

/-- **C228 (started).** A program makes an iterator of a loader, does anything but call `next` on it, calls `next` on it for the first time, and then does anything: uses this and other iterators, assigns to any attribute of the loader and of its
dataset. If the loader can split its dataset at that first call, the iterator gives the batches of the loader as it was then, each collated with the `collate_fn` of the moment, and then their end; after an exception always StopIteration. If the
split raises, the first call raises the same. Missing: the loader as it was when the iterator was made (`C228_made_false`) and its `collate_fn` (`C228_collate_false`). -/
theorem C228_started_partial (disk : Disk α) (fuel : Nat) (w : World α γ) (before after : List (Act α γ)) (c : Choice) (hb : ∀ a ∈ before, Untouched w.its.length a) (o : Obj α γ) (ho : o = objAfter w.obj before) :
    (∀ bs fin, batches disk fuel o c = .ok (bs, fin) →
      resultsOf w.its.length (w.run disk fuel (.iter :: before ++ .next w.its.length c :: after)).2 = collated bs fin (o.collate :: (objsAt w.its.length o after).map Obj.collate)) ∧
    (∀ e, batches disk fuel o c = .error e →
      resultsOf w.its.length (w.run disk fuel (.iter :: before ++ .next w.its.length c :: after)).2 = .raised e :: List.replicate (objsAt w.its.length o after).length .stop) := by
  have h0 : ({ w with its := w.its ++ [Iter.made] } : World α γ).its[w.its.length]? = some .made := by simp
  obtain ⟨u1, u2, u3⟩ := run_untouched disk fuel w.its.length before hb { w with its := w.its ++ [.made] } .made h0
  have hrun : resultsOf w.its.length (w.run disk fuel (.iter :: before ++ .next w.its.length c :: after)).2 =
      (Iter.next disk fuel o c .made).1 :: will (Iter.next disk fuel o c .made).2 ((objsAt w.its.length o after).map Obj.collate) := by
    have e : (w.run disk fuel (.iter :: before ++ .next w.its.length c :: after)).2 = (World.run disk fuel { w with its := w.its ++ [.made] } (before ++ .next w.its.length c :: after)).2 := rfl
    rw [e, run_append, resultsOf_append, u1]
    generalize (World.run disk fuel { w with its := w.its ++ [.made] } before).1 = v at u2 u3
    have u4 : v.obj = o := by rw [u3, ho]
    unfold World.run
    dsimp only
    rw [resultsOf_append]
    unfold World.act
    dsimp only
    rw [u2, u4]
    dsimp only
    have hne : (Iter.next disk fuel o c .made).2 ≠ .made := by
      unfold Iter.next
      dsimp only
      cases batches disk fuel o c with
      | ok r => exact (emit_will o.collate r.1 r.2 []).2
      | error e => simp
    have := run_will disk fuel w.its.length after ⟨o, v.its.set w.its.length (Iter.next disk fuel o c .made).2⟩ _ (by
      show (v.its.set w.its.length _)[w.its.length]? = _
      rw [List.getElem?_set_self (List.getElem?_eq_some_iff.1 u2).1]) hne
    rw [this]
    simp [resultsOf]
  rw [hrun]
  constructor
  · intro bs fin h
    rw [(emit_will o.collate bs fin _).1]
    unfold Iter.next
    dsimp only
    rw [h]
  · intro e h
    unfold Iter.next
    dsimp only
    rw [h]
    simp [will]

/-- C228, an iterator that has begun is not disturbed: two programs that go on differently after the first call of `next`, but do not change `collate_fn`, get the same from it, call by call. Missing: as in `C228_started_partial`. -/
theorem C228_undisturbed_partial (disk : Disk α) (fuel : Nat) (w : World α γ) (before after after' : List (Act α γ)) (c : Choice) (hb : ∀ a ∈ before, Untouched w.its.length a)
    (hc : (objsAt w.its.length (objAfter w.obj before) after).map Obj.collate = (objsAt w.its.length (objAfter w.obj before) after').map Obj.collate) :
    resultsOf w.its.length (w.run disk fuel (.iter :: before ++ .next w.its.length c :: after)).2 = resultsOf w.its.length (w.run disk fuel (.iter :: before ++ .next w.its.length c :: after')).2 := by
  obtain ⟨h1, h2⟩ := C228_started_partial disk fuel w before after c hb _ rfl
  obtain ⟨h1', h2'⟩ := C228_started_partial disk fuel w before after' c hb _ rfl
  have hl := congrArg List.length hc
  rw [List.length_map, List.length_map] at hl
  rcases hq : batches disk fuel (objAfter w.obj before) c with e | ⟨bs, fin⟩
  · rw [h2 e hq, h2' e hq, hl]
  · rw [h1 bs fin hq, h1' bs fin hq, hc]

/-! ### What reaches iterators -/

/-- A loader of three files whose batches are shown as their ids and chunk indices. -/
def exObj : Obj Nat (List (String × Nat)) := ⟨⟨2, 2, false, true, false⟩, exLoad, some fun b => .ok (b.map fun s => (s.id, s.chunkIndex))⟩
def exChoice : Choice := ⟨[1, 2, 0], id⟩

/-- C228 is false: an assignment between `iter(loader)` and the first `next` changes the batches of the iterator. -/
theorem C228_made_false : ∃ (o o' : Obj Nat (List (String × Nat))), o' = { o with cfg := { o.cfg with overlapping := false } } ∧
    resultsOf 0 (World.run exLoadDisk 20 ⟨o, []⟩ [.iter, .next 0 exChoice, .next 0 exChoice]).2 = [.batch [("b", 0), ("c", 0)], .batch [("a", 0), ("c", 1)]] ∧
    resultsOf 0 (World.run exLoadDisk 20 ⟨o, []⟩ [.iter, .set o', .next 0 exChoice, .next 0 exChoice]).2 = [.batch [("b", 0), ("c", 0)], .batch [("c", 1)]] :=
  ⟨exObj, _, rfl, by decide +kernel, by decide +kernel⟩

/-- C228 is false: an assignment to `collate_fn` reaches an iterator that has begun; without one the next call raises TypeError, and the batches left are lost. -/
theorem C228_collate_false : ∃ o : Obj Nat (List (String × Nat)),
    resultsOf 0 (World.run exLoadDisk 20 ⟨o, []⟩ [.iter, .next 0 exChoice, .set { o with collate := none }, .next 0 exChoice, .set o, .next 0 exChoice]).2 =
      [.batch [("b", 0), ("c", 0)], .raised .typeError, .stop] :=
  ⟨exObj, by decide +kernel⟩

-- the dataset and all options are assigned, and another iterator is used, while the first one runs; a batch size of 3 cannot be split over 2 workers
def exBusy : List (Act Nat (List (String × Nat))) :=
  [.set { exObj with ds := { exLoad with files := ["a"] }, cfg := ⟨3, 2, true, false, false⟩ }, .iter, .next 0 exChoice, .next 1 exChoice, .next 0 exChoice, .next 1 exChoice, .next 0 exChoice, .next 0 exChoice]

example : resultsOf 0 (World.run exLoadDisk 20 ⟨exObj, []⟩ (.iter :: [] ++ .next 0 exChoice :: exBusy)).2 =
      [.batch [("b", 0), ("c", 0)], .batch [("a", 0), ("c", 1)], .batch [("a", 1)], .batch [("a", 2)], .stop] ∧
    resultsOf 1 (World.run exLoadDisk 20 ⟨exObj, []⟩ (.iter :: [] ++ .next 0 exChoice :: exBusy)).2 = [.raised .valueError, .stop] := by decide +kernel
example : (batches exLoadDisk 20 exObj exChoice).isOk = true := by decide +kernel
-- hypotheses of C228_undisturbed_partial: the other program only calls `next`
example : (objsAt 0 exObj exBusy).map Obj.collate = (objsAt 0 exObj (List.replicate 4 (.next 0 exChoice))).map Obj.collate := rfl

end DS.LLive
