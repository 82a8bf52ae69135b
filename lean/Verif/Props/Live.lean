import Verif.Spec.Live
import Verif.Props.Reads
import Verif.Props.Batches
/-! C227: several iterators of one dataset, and changes of the dataset while it is iterated. -/

namespace DS.Live

open DS.Data

section
variable {α : Type}

/-- What is left in a stream as a generator, if nothing changes. -/
def laneG (f : String → Py (List (Sample α))) (l : Lane α) : Gen (Sample α) := ⟨l.cur ++ (chainG f l.rest).items, (chainG f l.rest).fail⟩

theorem open_gen (f : String → Py (List (Sample α))) (xs : List String) :
    (chainG f xs = ⟨[], none⟩ ∧ (openNext f xs).1 = .done ∧ laneG f (openNext f xs).2 = ⟨[], none⟩) ∨ (∃ e, chainG f xs = ⟨[], some e⟩ ∧ (openNext f xs).1 = .fail e) ∨
      ∃ s r e, chainG f xs = ⟨s :: r, e⟩ ∧ (openNext f xs).1 = .item s ∧ laneG f (openNext f xs).2 = ⟨r, e⟩ := by
  induction xs with
  | nil => exact .inl ⟨rfl, rfl, rfl⟩
  | cons x xs ih =>
    unfold chainG openNext
    cases h : f x with
    | error e => exact .inr (.inl ⟨e, rfl, rfl⟩)
    | ok ss =>
      cases ss with
      | nil => exact ih
      | cons s ss => exact .inr (.inr ⟨s, _, _, rfl, rfl, rfl⟩)

theorem lane_gen (f : String → Py (List (Sample α))) (l : Lane α) :
    (laneG f l = ⟨[], none⟩ ∧ (l.next f).1 = .done ∧ laneG f (l.next f).2 = ⟨[], none⟩) ∨ (∃ e, laneG f l = ⟨[], some e⟩ ∧ (l.next f).1 = .fail e) ∨
      ∃ s r e, laneG f l = ⟨s :: r, e⟩ ∧ (l.next f).1 = .item s ∧ laneG f (l.next f).2 = ⟨r, e⟩ := by
  obtain ⟨cur, rest⟩ := l
  cases cur with
  | nil => exact open_gen f rest
  | cons s ss => exact .inr (.inr ⟨s, _, _, rfl, rfl, rfl⟩)

theorem long_live (f : String → Py (List (Sample α))) (k : Nat) (gs : List (Gen (Sample α))) (ls : List (Lane α)) (h : ls.map (laneG f) = gs.map (dropG k)) :
    (∃ e, (nextLong f ls).1 = .fail e ∧ longLoop k gs = .raise e) ∨
      ∃ b, (nextLong f ls).1 = .batch b ∧ longLoop k gs = .item b ∧ (nextLong f ls).2.map (laneG f) = gs.map (dropG (k + 1)) := by
  induction ls generalizing gs with
  | nil =>
    cases gs with
    | nil => exact .inr ⟨[], rfl, rfl, rfl⟩
    | cons g gs => simp at h
  | cons l ls ih =>
    cases gs with
    | nil => simp at h
    | cons g gs =>
      rw [List.map_cons, List.map_cons, List.cons.injEq] at h
      obtain ⟨hg, h⟩ := h
      have i := ih gs h
      have hp := lane_gen f l
      simp only [nextLong, longLoop]
      rcases hq : l.next f with ⟨p, l'⟩
      rw [hq, hg] at hp
      dsimp only at hp
      rcases hp with ⟨e1, e2, e3⟩ | ⟨e, e1, e2⟩ | ⟨s, r, e, e1, e2, e3⟩
      · subst e2
        obtain ⟨d1, d2, d3⟩ := dropG_none e1.symm
        rw [d1, d2]
        dsimp only
        rcases i with ⟨e, i1, i2⟩ | ⟨b, i1, i2, i3⟩
        · exact .inl ⟨e, i1, i2⟩
        · exact .inr ⟨b, i1, i2, by rw [List.map_cons, List.map_cons, i3, e3, d3]⟩
      · subst e2
        obtain ⟨d1, d2, -⟩ := dropG_none e1.symm
        rw [d1, d2]
        exact .inl ⟨e, rfl, rfl⟩
      · subst e2
        obtain ⟨d1, d2⟩ := dropG_item e1.symm
        rw [d1]
        dsimp only
        rcases i with ⟨e', i1, i2⟩ | ⟨b, i1, i2, i3⟩
        · exact .inl ⟨e', by rw [i1], by rw [i2]⟩
        · exact .inr ⟨s :: b, by rw [i1], by rw [i2], by rw [List.map_cons, List.map_cons, i3, e3, d2]⟩

theorem short_live (f : String → Py (List (Sample α))) (k : Nat) (gs : List (Gen (Sample α))) (ls : List (Lane α)) (h : ls.map (laneG f) = gs.map (dropG k)) :
    (∃ e, (nextShort f ls).1 = .fail e ∧ zipNext k gs = .raise e) ∨ ((nextShort f ls).1 = .stop ∧ zipNext k gs = .stop) ∨
      ∃ b, (nextShort f ls).1 = .batch b ∧ zipNext k gs = .item b ∧ (b = [] → gs = []) ∧ (nextShort f ls).2.map (laneG f) = gs.map (dropG (k + 1)) := by
  induction ls generalizing gs with
  | nil =>
    cases gs with
    | nil => exact .inr (.inr ⟨[], rfl, rfl, fun _ => rfl, rfl⟩)
    | cons g gs => simp at h
  | cons l ls ih =>
    cases gs with
    | nil => simp at h
    | cons g gs =>
      rw [List.map_cons, List.map_cons, List.cons.injEq] at h
      obtain ⟨hg, h⟩ := h
      have i := ih gs h
      have hp := lane_gen f l
      simp only [nextShort, zipNext]
      rcases hq : l.next f with ⟨p, l'⟩
      rw [hq, hg] at hp
      dsimp only at hp
      rcases hp with ⟨e1, e2, e3⟩ | ⟨e, e1, e2⟩ | ⟨s, r, e, e1, e2, e3⟩
      · subst e2
        obtain ⟨d1, d2, d3⟩ := dropG_none e1.symm
        rw [d1, d2]
        exact .inr (.inl ⟨rfl, rfl⟩)
      · subst e2
        obtain ⟨d1, d2, -⟩ := dropG_none e1.symm
        rw [d1, d2]
        exact .inl ⟨e, rfl, rfl⟩
      · subst e2
        obtain ⟨d1, d2⟩ := dropG_item e1.symm
        rw [d1]
        dsimp only
        rcases i with ⟨e', i1, i2⟩ | ⟨i1, i2⟩ | ⟨b, i1, i2, -, i3⟩
        · exact .inl ⟨e', by rw [i1], by rw [i2]⟩
        · exact .inr (.inl ⟨by rw [i1], by rw [i2]⟩)
        · exact .inr (.inr ⟨s :: b, by rw [i1], by rw [i2], by simp, by rw [List.map_cons, List.map_cons, i3, e3, d2]⟩)

/-- How a generator ends, as a call of `next`. -/
def endNext : Option PyErr → Next (Sample α)
  | some e => .raise e
  | none => .stop

theorem drive_nth (next : Nat → Next (Sample α)) (N : Nat) (hN : ∀ k b, next k = .item b → k < N) (fuel k : Nat) (hf : N < fuel + k) (hk : k ≤ N) :
    (∀ j b, (drive next fuel k).items[j]? = some b → next (k + j) = .item b) ∧ next (k + (drive next fuel k).items.length) = endNext (drive next fuel k).fail := by
  induction fuel generalizing k with
  | zero => omega
  | succ fuel ih =>
    unfold drive
    rcases h : next k with b | _ | e
    · obtain ⟨i1, i2⟩ := ih (k + 1) (by omega) (hN k b h)
      dsimp only
      refine ⟨?_, ?_⟩
      · intro j c hj
        cases j with
        | zero =>
          simp only [List.getElem?_cons_zero, Option.some.injEq] at hj
          rw [← hj]
          exact h
        | succ j =>
          rw [List.getElem?_cons_succ] at hj
          rw [show k + (j + 1) = k + 1 + j by omega]
          exact i1 j c hj
      · rw [List.length_cons, show k + ((drive next fuel (k + 1)).items.length + 1) = k + 1 + (drive next fuel (k + 1)).items.length by omega, i2]
    · exact ⟨fun j c hj => by simp at hj, h⟩
    · exact ⟨fun j c hj => by simp at hj, h⟩

theorem longG_nth (gs : List (Gen (Sample α))) :
    (∀ j b, (longG gs).items[j]? = some b → longNext j gs = .item b) ∧ longNext (longG gs).items.length gs = endNext (longG gs).fail := by
  have := drive_nth (fun k => longNext k gs) (maxLen (gs.map Gen.items)) (by
    intro k b h
    apply layer_lt
    intro h0
    unfold longNext at h
    rw [longLoop_eq, h0] at h
    cases he : errAt k gs with
    | some e => rw [he] at h; cases h
    | none => rw [he] at h; cases h) (callsOf gs) 0 (by unfold callsOf; omega) (Nat.zero_le _)
  simpa [longG] using this

theorem zipG_nth (gs : List (Gen (Sample α))) (hne : gs ≠ []) :
    (∀ j b, (zipG gs).items[j]? = some b → zipNext j gs = .item b) ∧ zipNext (zipG gs).items.length gs = endNext (zipG gs).fail := by
  have := drive_nth (fun k => zipNext k gs) (maxLen (gs.map Gen.items)) (fun k b h => zipNext_lt k gs b h hne) (callsOf gs) 0 (by unfold callsOf; omega) (Nat.zero_le _)
  have e : zipG gs = drive (fun k => zipNext k gs) (callsOf gs) 0 := by
    unfold zipG
    rw [if_neg (by simpa using hne)]
  rw [e]
  simpa using this

theorem snoc_of_length {β : Type} {xs : List β} {n : Nat} {b : β} (h : xs[n]? = some b) (hl : xs.length = n + 1) : ∃ ys, xs = ys ++ [b] ∧ ys.length = n := by
  obtain ⟨h1, h2⟩ := List.getElem?_eq_some_iff.1 h
  refine ⟨xs.take n, ?_, by simp [hl]⟩
  rw [← h2, List.take_append_getElem, List.take_of_length_le (by omega)]

theorem force_more (z : Gen (List (Sample α))) (n : Nat) (b b' : List (Sample α)) (h : z.items[n]? = some b) (h' : z.items[n + 1]? = some b') : (forceLastG z).items[n]? = some b := by
  have hlt : n + 1 < z.items.length := (List.getElem?_eq_some_iff.1 h').1
  have hx : z.items ≠ [] := by intro hh; rw [hh] at hlt; simp at hlt
  have hd : z.items.dropLast[n]? = some b := by rw [List.getElem?_dropLast, if_pos (by omega)]; exact h
  unfold forceLastG
  split
  · exact hd
  · rw [← List.dropLast_append_getLast hx, forceLast_snoc]
    show (z.items.dropLast ++ _)[n]? = _
    rw [List.getElem?_append_left (by simp; omega)]
    exact hd

theorem force_end (z : Gen (List (Sample α))) (n : Nat) (b : List (Sample α)) (h : z.items[n]? = some b) (hl : z.items.length = n + 1) (hf : z.fail = none) :
    (forceLastG z).items[n]? = some (b.map Sample.end) ∧ (forceLastG z).items.length = n + 1 ∧ (forceLastG z).fail = none := by
  obtain ⟨ys, h1, h2⟩ := snoc_of_length h hl
  unfold forceLastG
  rw [hf]
  dsimp only
  rw [h1, forceLast_snoc]
  refine ⟨?_, ?_, rfl⟩
  · show (ys ++ _)[n]? = _
    rw [← h2]
    simp
  · show (ys ++ _).length = _
    simp [h2]

/-- A call of `next` within a generator: an item, or its end. -/
theorem at_cases {next : Nat → Next (Sample α)} {g : Gen (List (Sample α))} (h1 : ∀ j b, g.items[j]? = some b → next j = .item b) (h2 : next g.items.length = endNext g.fail) (m : Nat)
    (hm : m ≤ g.items.length) : (∃ b, g.items[m]? = some b ∧ next m = .item b) ∨ (m = g.items.length ∧ next m = endNext g.fail) := by
  rcases Nat.lt_or_eq_of_le hm with hlt | heq
  · have := List.getElem?_eq_getElem hlt
    exact .inl ⟨_, this, h1 m _ this⟩
  · exact .inr ⟨heq, by rw [heq]; exact h2⟩

/-- An iterator on which `next` has been called `n` times and that began as the generator `g`. -/
def Inv (f : String → Py (List (Sample α))) (g : Gen (List (Sample α))) (n : Nat) : Iter α → Prop
  | .long ls => ∃ gs, g = longG gs ∧ n ≤ g.items.length ∧ ls.map (laneG f) = gs.map (dropG n)
  | .fresh ls => ∃ gs, gs ≠ [] ∧ g = forceLastG (zipG gs) ∧ n = 0 ∧ ls.map (laneG f) = gs.map (dropG 0)
  | .holds b ls => ∃ gs, gs ≠ [] ∧ g = forceLastG (zipG gs) ∧ (zipG gs).items[n]? = some b ∧ ls.map (laneG f) = gs.map (dropG (n + 1))
  | .done => g.items.length < n ∨ (g.items.length = n ∧ g.fail = none)

theorem nth_end (g : Gen (List (Sample α))) (n : Nat) (h : n = g.items.length) : nth g n = match g.fail with | some e => .raised e | none => .stop := by
  unfold nth
  rw [List.getElem?_eq_none (by omega), if_pos h]
  rfl

theorem nth_item (g : Gen (List (Sample α))) (n : Nat) (b : List (Sample α)) (h : g.items[n]? = some b) : nth g n = .batch b := by
  unfold nth
  rw [h]

theorem held_step (f : String → Py (List (Sample α))) (gs : List (Gen (Sample α))) (hne : gs ≠ []) (n : Nat) (b : List (Sample α)) (ls : List (Lane α)) (hb : (zipG gs).items[n]? = some b)
    (hl : ls.map (laneG f) = gs.map (dropG (n + 1))) :
    (stepHeld f b ls).1 = nth (forceLastG (zipG gs)) n ∧ Inv f (forceLastG (zipG gs)) (n + 1) (stepHeld f b ls).2 := by
  obtain ⟨z1, z2⟩ := zipG_nth gs hne
  have hlt := (List.getElem?_eq_some_iff.1 hb).1
  have hc := at_cases (next := fun k => zipNext k gs) z1 z2 (n + 1) hlt
  have hs := short_live f (n + 1) gs ls hl
  unfold stepHeld
  rcases hq : nextShort f ls with ⟨z, ls'⟩
  rw [hq] at hs
  dsimp only at hs hc
  rcases hs with ⟨e, s1, s2⟩ | ⟨s1, s2⟩ | ⟨b', s1, s2, s3, s4⟩
  · subst s1
    rw [s2] at hc
    rcases hc with ⟨c, -, c2⟩ | ⟨c1, c2⟩
    · cases c2
    · cases hf : (zipG gs).fail with
      | none => rw [hf] at c2; cases c2
      | some e' =>
        rw [hf] at c2
        cases c2
        have hlen : (forceLastG (zipG gs)).items.length = n ∧ (forceLastG (zipG gs)).fail = some e := by
          unfold forceLastG
          rw [hf]
          exact ⟨by simp [← c1], rfl⟩
        exact ⟨by rw [nth_end _ _ hlen.1.symm, hlen.2], .inl (by omega)⟩
  · subst s1
    rw [s2] at hc
    rcases hc with ⟨c, -, c2⟩ | ⟨c1, c2⟩
    · cases c2
    · cases hf : (zipG gs).fail with
      | some e' => rw [hf] at c2; cases c2
      | none =>
        obtain ⟨k1, k2, k3⟩ := force_end (zipG gs) n b hb c1.symm hf
        exact ⟨by rw [nth_item _ _ _ k1], .inr ⟨k2, k3⟩⟩
  · subst s1
    rw [s2] at hc
    rcases hc with ⟨c, c1, c2⟩ | ⟨c1, c2⟩
    · cases c2
      cases b' with
      | nil => exact absurd (s3 rfl) hne
      | cons s ss => exact ⟨by rw [nth_item _ _ _ (force_more _ n b _ hb c1)], gs, hne, rfl, c1, s4⟩
    · cases hf : (zipG gs).fail <;> rw [hf] at c2 <;> cases c2

theorem inv_step (f : String → Py (List (Sample α))) (g : Gen (List (Sample α))) (n : Nat) (it : Iter α) (h : Inv f g n it) :
    (it.next f).1 = nth g n ∧ Inv f g (n + 1) (it.next f).2 := by
  cases it with
  | done =>
    refine ⟨?_, ?_⟩
    · rcases h with h | ⟨h1, h2⟩
      · show Res.stop = _
        unfold nth
        rw [List.getElem?_eq_none (by omega), if_neg (by omega)]
      · rw [nth_end g n h1.symm, h2]
        rfl
    · rcases h with h | ⟨h1, h2⟩
      · exact .inl (by omega)
      · exact .inl (by omega)
  | holds b ls =>
    obtain ⟨gs, hne, rfl, hb, hl⟩ := h
    exact held_step f gs hne n b ls hb hl
  | fresh ls =>
    obtain ⟨gs, hne, rfl, rfl, hl⟩ := h
    obtain ⟨z1, z2⟩ := zipG_nth gs hne
    have hc := at_cases (next := fun k => zipNext k gs) z1 z2 0 (Nat.zero_le _)
    have hs := short_live f 0 gs ls hl
    unfold Iter.next
    dsimp only
    rcases hq : nextShort f ls with ⟨z, ls'⟩
    rw [hq] at hs
    dsimp only at hs hc
    rcases hs with ⟨e, s1, s2⟩ | ⟨s1, s2⟩ | ⟨b', s1, s2, s3, s4⟩
    · subst s1
      rw [s2] at hc
      rcases hc with ⟨c, -, c2⟩ | ⟨c1, c2⟩
      · cases c2
      · cases hf : (zipG gs).fail with
        | none => rw [hf] at c2; cases c2
        | some e' =>
          rw [hf] at c2
          cases c2
          have hlen : (forceLastG (zipG gs)).items.length = 0 ∧ (forceLastG (zipG gs)).fail = some e := by
            unfold forceLastG
            rw [hf]
            exact ⟨by simp [← c1], rfl⟩
          exact ⟨by rw [nth_end _ _ hlen.1.symm, hlen.2], .inl (by omega)⟩
    · subst s1
      rw [s2] at hc
      rcases hc with ⟨c, -, c2⟩ | ⟨c1, c2⟩
      · cases c2
      · cases hf : (zipG gs).fail with
        | some e' => rw [hf] at c2; cases c2
        | none =>
          have hlen : forceLastG (zipG gs) = ⟨[], some .runtimeError⟩ := by
            unfold forceLastG
            rw [hf, List.eq_nil_of_length_eq_zero c1.symm]
            rfl
          rw [hlen]
          exact ⟨rfl, .inl (by simp)⟩
    · subst s1
      rw [s2] at hc
      rcases hc with ⟨c, c1, c2⟩ | ⟨c1, c2⟩
      · cases c2
        cases b' with
        | nil => exact absurd (s3 rfl) hne
        | cons s ss => exact held_step f gs hne 0 _ ls' c1 s4
      · cases hf : (zipG gs).fail <;> rw [hf] at c2 <;> cases c2
  | long ls =>
    obtain ⟨gs, rfl, hn, hl⟩ := h
    obtain ⟨z1, z2⟩ := longG_nth gs
    have hc := at_cases (next := fun k => longNext k gs) z1 z2 n hn
    have hs := long_live f n gs ls hl
    unfold Iter.next
    dsimp only
    rcases hq : nextLong f ls with ⟨z, ls'⟩
    rw [hq] at hs
    dsimp only at hs hc
    unfold longNext at hc
    rcases hs with ⟨e, s1, s2⟩ | ⟨b', s1, s2, s4⟩
    · subst s1
      rw [s2] at hc
      rcases hc with ⟨c, -, c2⟩ | ⟨c1, c2⟩
      · cases c2
      · cases hf : (longG gs).fail with
        | none => rw [hf] at c2; cases c2
        | some e' =>
          rw [hf] at c2
          cases c2
          exact ⟨by rw [nth_end _ _ c1, hf], .inl (by omega)⟩
    · subst s1
      rw [s2] at hc
      cases b' with
      | nil =>
        rcases hc with ⟨c, -, c2⟩ | ⟨c1, c2⟩
        · cases c2
        · cases hf : (longG gs).fail with
          | some e' => rw [hf] at c2; cases c2
          | none => exact ⟨by rw [nth_end _ _ c1, hf], .inl (by omega)⟩
      | cons s ss =>
        rcases hc with ⟨c, c1, c2⟩ | ⟨c1, c2⟩
        · cases c2
          have := (List.getElem?_eq_some_iff.1 c1).1
          exact ⟨by rw [nth_item _ _ _ c1], gs, rfl, this, s4⟩
        · cases hf : (longG gs).fail <;> rw [hf] at c2 <;> cases c2

/-- The files that an iterator has not opened. -/
def pending : Iter α → List String
  | .long ls => ls.flatMap Lane.rest
  | .fresh ls => ls.flatMap Lane.rest
  | .holds _ ls => ls.flatMap Lane.rest
  | .done => []

theorem open_congr (f f' : String → Py (List (Sample α))) (xs : List String) (h : ∀ x ∈ xs, f' x = f x) : openNext f' xs = openNext f xs ∧ (openNext f xs).2.rest ⊆ xs := by
  induction xs with
  | nil => exact ⟨rfl, List.Subset.refl _⟩
  | cons x xs ih =>
    obtain ⟨i1, i2⟩ := ih fun y hy => h y (List.mem_cons_of_mem _ hy)
    unfold openNext
    rw [h x List.mem_cons_self]
    cases f x with
    | error e => exact ⟨rfl, fun y hy => List.mem_cons_of_mem _ hy⟩
    | ok ss =>
      cases ss with
      | nil => exact ⟨i1, fun y hy => List.mem_cons_of_mem _ (i2 hy)⟩
      | cons s ss => exact ⟨rfl, fun y hy => List.mem_cons_of_mem _ hy⟩

theorem lane_congr (f f' : String → Py (List (Sample α))) (l : Lane α) (h : ∀ x ∈ l.rest, f' x = f x) : l.next f' = l.next f ∧ (l.next f).2.rest ⊆ l.rest := by
  obtain ⟨cur, rest⟩ := l
  cases cur with
  | nil => exact open_congr f f' rest h
  | cons s ss => exact ⟨rfl, List.Subset.refl _⟩

theorem long_congr (f f' : String → Py (List (Sample α))) (ls : List (Lane α)) (h : ∀ x ∈ ls.flatMap Lane.rest, f' x = f x) :
    nextLong f' ls = nextLong f ls ∧ (nextLong f ls).2.flatMap Lane.rest ⊆ ls.flatMap Lane.rest := by
  induction ls with
  | nil => exact ⟨rfl, List.Subset.refl _⟩
  | cons l ls ih =>
    rw [List.flatMap_cons] at h ⊢
    obtain ⟨i1, i2⟩ := ih fun x hx => h x (List.mem_append_right _ hx)
    obtain ⟨j1, j2⟩ := lane_congr f f' l fun x hx => h x (List.mem_append_left _ hx)
    simp only [nextLong]
    rw [j1, i1]
    refine ⟨rfl, ?_⟩
    rcases hq : l.next f with ⟨p, l'⟩
    rw [hq] at j2
    intro y hy
    rw [List.mem_append]
    cases p with
    | fail e =>
      dsimp only at hy
      rw [List.flatMap_cons, List.mem_append] at hy
      exact hy.imp (fun z => j2 z) id
    | done =>
      dsimp only at hy
      rw [List.flatMap_cons, List.mem_append] at hy
      exact hy.imp (fun z => j2 z) (fun z => i2 z)
    | item s =>
      dsimp only at hy
      rw [List.flatMap_cons, List.mem_append] at hy
      exact hy.imp (fun z => j2 z) (fun z => i2 z)

theorem short_congr (f f' : String → Py (List (Sample α))) (ls : List (Lane α)) (h : ∀ x ∈ ls.flatMap Lane.rest, f' x = f x) :
    nextShort f' ls = nextShort f ls ∧ (nextShort f ls).2.flatMap Lane.rest ⊆ ls.flatMap Lane.rest := by
  induction ls with
  | nil => exact ⟨rfl, List.Subset.refl _⟩
  | cons l ls ih =>
    rw [List.flatMap_cons] at h ⊢
    obtain ⟨i1, i2⟩ := ih fun x hx => h x (List.mem_append_right _ hx)
    obtain ⟨j1, j2⟩ := lane_congr f f' l fun x hx => h x (List.mem_append_left _ hx)
    simp only [nextShort]
    rw [j1, i1]
    refine ⟨rfl, ?_⟩
    rcases hq : l.next f with ⟨p, l'⟩
    rw [hq] at j2
    intro y hy
    rw [List.mem_append]
    cases p with
    | fail e =>
      dsimp only at hy
      rw [List.flatMap_cons, List.mem_append] at hy
      exact hy.imp (fun z => j2 z) id
    | done =>
      dsimp only at hy
      rw [List.flatMap_cons, List.mem_append] at hy
      exact hy.imp (fun z => j2 z) id
    | item s =>
      dsimp only at hy
      rw [List.flatMap_cons, List.mem_append] at hy
      exact hy.imp (fun z => j2 z) (fun z => i2 z)

theorem held_congr (f f' : String → Py (List (Sample α))) (b : List (Sample α)) (ls : List (Lane α)) (h : ∀ x ∈ ls.flatMap Lane.rest, f' x = f x) :
    stepHeld f' b ls = stepHeld f b ls ∧ pending (stepHeld f b ls).2 ⊆ ls.flatMap Lane.rest := by
  obtain ⟨i1, i2⟩ := short_congr f f' ls h
  unfold stepHeld
  rw [i1]
  refine ⟨rfl, ?_⟩
  split
  · rename_i hq
    rw [hq] at i2
    exact i2
  · exact List.nil_subset _
  · exact List.nil_subset _

theorem next_congr (f f' : String → Py (List (Sample α))) (it : Iter α) (h : ∀ x ∈ pending it, f' x = f x) : it.next f' = it.next f ∧ pending (it.next f).2 ⊆ pending it := by
  cases it with
  | done => exact ⟨rfl, List.Subset.refl _⟩
  | holds b ls => exact held_congr f f' b ls h
  | long ls =>
    obtain ⟨i1, i2⟩ := long_congr f f' ls h
    unfold Iter.next
    dsimp only
    rw [i1]
    refine ⟨rfl, ?_⟩
    split
    · rename_i hq
      rw [hq] at i2
      exact i2
    · exact List.nil_subset _
    · exact List.nil_subset _
  | fresh ls =>
    obtain ⟨i1, i2⟩ := short_congr f f' ls h
    unfold Iter.next
    dsimp only
    rw [i1]
    split
    · rename_i hq
      rw [hq] at i2
      obtain ⟨k1, k2⟩ := held_congr f f' _ _ fun x hx => h x (i2 hx)
      exact ⟨k1, fun y hy => i2 (k2 hy)⟩
    · exact ⟨rfl, List.nil_subset _⟩
    · exact ⟨rfl, List.nil_subset _⟩

theorem process_congr (disk disk' : Disk α) (d d' : Dataset α) (x : String) (h1 : d'.chunkSeconds = d.chunkSeconds) (h2 : d'.transform = d.transform) (h3 : disk' x = disk x) :
    processData disk' d' x = processData disk d x := by
  unfold processData
  rw [h1, h2, h3]

theorem resultsOf_append (k : Nat) (a b : List (Nat × Res α)) : resultsOf k (a ++ b) = resultsOf k a ++ resultsOf k b := by
  unfold resultsOf
  rw [List.filter_append, List.map_append]

theorem run_inv (w₀ : World α) (files : List String) (g : Gen (List (Sample α))) (k : Nat) (acts : List (Act α)) (ha : ∀ a ∈ acts, Keeps w₀ files a) (w : World α) (n : Nat) (it : Iter α)
    (hk : w.its[k]? = some it) (hi : Inv (processData w₀.disk w₀.ds) g n it) (hp : pending it ⊆ files)
    (h1 : w.ds.chunkSeconds = w₀.ds.chunkSeconds) (h2 : w.ds.transform = w₀.ds.transform) (h3 : ∀ x ∈ files, w.disk x = w₀.disk x) :
    resultsOf k (w.run acts) = (List.range (calls k acts)).map fun j => nth g (n + j) := by
  induction acts generalizing w n it with
  | nil => rfl
  | cons a as ih =>
    have iha := ih fun a h => ha a (List.mem_cons_of_mem _ h)
    have hka := ha a List.mem_cons_self
    unfold World.run
    rw [resultsOf_append]
    cases a with
    | set d => exact iha _ n it hk hi hp hka.1 hka.2 h3
    | write disk => exact iha _ n it hk hi hp h1 h2 hka
    | iter sh =>
      refine iha _ n it ?_ hi hp h1 h2 h3
      show (w.its ++ _)[k]? = _
      rw [List.getElem?_append_left (List.getElem?_eq_some_iff.1 hk).1]
      exact hk
    | next j =>
      have hklt := (List.getElem?_eq_some_iff.1 hk).1
      by_cases hj : j = k
      · subst hj
        obtain ⟨c1, c2⟩ := next_congr (processData w₀.disk w₀.ds) (processData w.disk w.ds) it fun x hx => process_congr _ _ _ _ x h1 h2 (h3 x (hp hx))
        obtain ⟨s1, s2⟩ := inv_step _ g n it hi
        have e : w.act (.next j) = ({ w with its := w.its.set j (it.next (processData w₀.disk w₀.ds)).2 }, [(j, nth g n)]) := by
          unfold World.act
          dsimp only
          rw [hk]
          dsimp only
          rw [c1, s1]
        rw [e]
        dsimp only
        have i := iha { w with its := w.its.set j (it.next (processData w₀.disk w₀.ds)).2 } (n + 1) _ (by
          show (w.its.set j _)[j]? = _
          rw [List.getElem?_set_self hklt]) s2 (fun y hy => hp (c2 hy)) h1 h2 h3
        rw [i]
        have hc : calls j (Act.next j :: as) = calls j as + 1 := by
          show (if j = j then 1 else 0) + calls j as = _
          rw [if_pos rfl]
          omega
        rw [hc, List.range_succ_eq_map, List.map_cons, List.map_map]
        have hr : resultsOf j [(j, nth g n)] = [nth g n] := by simp [resultsOf]
        rw [hr]
        show nth g n :: _ = nth g (n + 0) :: _
        congr 1
        apply List.map_congr_left
        intro m _
        show nth g (n + 1 + m) = nth g (n + (m + 1))
        congr 1
        omega
      · have hc : calls k (Act.next j :: as) = calls k as := by
          show (if j = k then 1 else 0) + calls k as = _
          rw [if_neg hj]
          omega
        rw [hc]
        unfold World.act
        dsimp only
        cases hw : w.its[j]? with
        | none => exact iha w n it hk hi hp h1 h2 h3
        | some it' =>
          dsimp only
          have hr : resultsOf k [(j, (it'.next (processData w.disk w.ds)).1)] = [] := by simp [resultsOf, hj]
          rw [hr]
          refine iha _ n it ?_ hi hp h1 h2 h3
          show (w.its.set j _)[k]? = _
          rw [List.getElem?_set_ne hj]
          exact hk

theorem newIter_inv (f : String → Py (List (Sample α))) (d : Dataset α) (hb : 0 < d.batchSize) (sh : List String) :
    Inv f (streamsG f d.batchSize.toNat d.dropLast (if d.shuffle then sh else d.files)) 0 (newIter d sh) ∧ pending (newIter d sh) ⊆ (if d.shuffle then sh else d.files) := by
  unfold newIter
  dsimp only
  generalize (if d.shuffle then sh else d.files) = order
  have hm : ((List.range d.batchSize.toNat).map fun i => (⟨[], everyFrom i d.batchSize.toNat order⟩ : Lane α)).map (laneG f) =
      ((List.range d.batchSize.toNat).map fun i => chainG f (everyFrom i d.batchSize.toNat order)).map (dropG 0) := by
    rw [List.map_map, List.map_map]
    rfl
  have hne : ((List.range d.batchSize.toNat).map fun i => chainG f (everyFrom i d.batchSize.toNat order)) ≠ [] := by
    intro hh
    rw [List.map_eq_nil_iff, List.range_eq_nil] at hh
    omega
  have hsub : ((List.range d.batchSize.toNat).map fun i => (⟨[], everyFrom i d.batchSize.toNat order⟩ : Lane α)).flatMap Lane.rest ⊆ order := by
    intro y hy
    rw [List.mem_flatMap] at hy
    obtain ⟨l, hl, hy⟩ := hy
    rw [List.mem_map] at hl
    obtain ⟨i, -, rfl⟩ := hl
    exact (everyFrom_sublist i _ order).subset hy
  unfold streamsG
  dsimp only
  cases d.dropLast with
  | true => exact ⟨⟨_, hne, rfl, rfl, hm⟩, hsub⟩
  | false => exact ⟨⟨_, rfl, Nat.zero_le _, hm⟩, hsub⟩

/-- **C227 (iterators).** A program makes an iterator of a dataset and then does anything: calls `next` on it, makes further iterators and calls `next` on these and earlier ones, assigns to the dataset's file list, batch size, `shuffle`,
`drop_last` and the other attributes, and changes other files. Then the calls of `next` on the iterator give, one after the other, the batches of the dataset as it was when the iterator was made, then its end; afterwards always StopIteration.
Missing: `chunk_seconds`, `transform` and the contents of the iterated files must stay as they are (see `C227_fixed_false`). -/
theorem C227_iterators_partial (w : World α) (hb : 0 < w.ds.batchSize) (shuffled order : List String) (ho : order = if w.ds.shuffle then shuffled else w.ds.files) (acts : List (Act α))
    (ha : ∀ a ∈ acts, Keeps w order a) :
    resultsOf w.its.length (w.run (.iter shuffled :: acts)) =
      (List.range (calls w.its.length acts)).map (nth (streamsG (processData w.disk w.ds) w.ds.batchSize.toNat w.ds.dropLast order)) := by
  subst ho
  obtain ⟨i1, i2⟩ := newIter_inv (processData w.disk w.ds) w.ds hb shuffled
  have := run_inv w _ _ w.its.length acts ha { w with its := w.its ++ [newIter w.ds shuffled] } 0 _ (by
    show (w.its ++ _)[w.its.length]? = _
    simp) i1 i2 rfl rfl (fun _ _ => rfl)
  simp only [Nat.zero_add] at this
  exact this

/-! ### Changes that reach running iterators -/

theorem chunk_ids (c : Int) (x : String) (audio : List α) (ss : List (Sample α)) (h : chunkSamples c x audio = .ok ss) : ∀ s ∈ ss, s.id = x := by
  unfold chunkSamples at h
  split at h
  · cases h
  · dsimp only at h
    cases h
    intro s hs
    rw [List.mem_mapIdx] at hs
    obtain ⟨i, hi, rfl⟩ := hs
    rfl

theorem process_ids (disk : Disk α) (d : Dataset α) (x : String) (ss : List (Sample α)) (h : processData disk d x = .ok ss) : ∀ s ∈ ss, s.id = x := by
  unfold processData at h
  dsimp only at h
  split at h
  · cases h
  · split at h
    · cases h
    · exact chunk_ids _ x _ ss h

/-- The samples of `x`. -/
def only (x : String) (ss : List (Sample α)) : List (Sample α) := ss.filter fun s => s.id == x

theorem only_append (x : String) (a b : List (Sample α)) : only x (a ++ b) = only x a ++ only x b := List.filter_append ..

theorem only_all {x : String} {ss : List (Sample α)} (h : ∀ s ∈ ss, s.id = x) : only x ss = ss := List.filter_eq_self.2 fun s hs => by simp [h s hs]

theorem only_none {x y : String} (hne : y ≠ x) {ss : List (Sample α)} (h : ∀ s ∈ ss, s.id = y) : only x ss = [] := List.filter_eq_nil_iff.2 fun s hs => by simp [h s hs, hne]

/-- The sample that `next` on a stream gave. -/
def got : Pull α → List (Sample α)
  | .item s => [s]
  | _ => []

/-- A stream without `x`. -/
def Without (x : String) (l : Lane α) : Prop := x ∉ l.rest ∧ only x l.cur = []

/-- A stream that has given the samples `Y` of `x`: `x` has not been opened; or it was, with the samples `ss` for which `R ss`, and `Y` and what is left are these; or it raised or is not there. -/
def Given (R : List (Sample α) → Prop) (x : String) (Y : List (Sample α)) (l : Lane α) : Prop :=
  (Y = [] ∧ only x l.cur = [] ∧ l.rest.count x ≤ 1) ∨ (x ∉ l.rest ∧ ∃ ss, R ss ∧ Y ++ only x l.cur = ss)

/-- Every file has its own samples. -/
def Named (f : String → Py (List (Sample α))) : Prop := ∀ x ss, f x = .ok ss → ∀ s ∈ ss, s.id = x

theorem open_without (f : String → Py (List (Sample α))) (hf : Named f) (x : String) (xs : List String) (h : x ∉ xs) : only x (got (openNext f xs).1) = [] ∧ Without x (openNext f xs).2 := by
  induction xs with
  | nil => exact ⟨rfl, h, rfl⟩
  | cons y ys ih =>
    have hy : y ≠ x := fun e => h (e ▸ List.mem_cons_self)
    have hys : x ∉ ys := fun e => h (List.mem_cons_of_mem _ e)
    unfold openNext
    cases hq : f y with
    | error e => exact ⟨rfl, hys, rfl⟩
    | ok ss =>
      cases ss with
      | nil => exact ih hys
      | cons s ss =>
        have := hf y _ hq
        exact ⟨only_none hy fun t ht => this t (by simp only [got, List.mem_singleton] at ht; rw [ht]; exact List.mem_cons_self),
          hys, only_none hy fun t ht => this t (List.mem_cons_of_mem _ ht)⟩

theorem lane_without (f : String → Py (List (Sample α))) (hf : Named f) (x : String) (l : Lane α) (h : Without x l) : only x (got (l.next f).1) = [] ∧ Without x (l.next f).2 := by
  obtain ⟨cur, rest⟩ := l
  cases cur with
  | nil => exact open_without f hf x rest h.1
  | cons s ss =>
    have h2 : only x ([s] ++ ss) = [] := h.2
    rw [only_append, List.append_eq_nil_iff] at h2
    exact ⟨h2.1, h.1, h2.2⟩

theorem open_given (f : String → Py (List (Sample α))) (hf : Named f) (R : List (Sample α) → Prop) (x : String) (hR : ∀ ss, f x = .ok ss → R ss) (xs : List String) (h : xs.count x ≤ 1) :
    Given R x (only x (got (openNext f xs).1)) (openNext f xs).2 := by
  induction xs with
  | nil => exact .inl ⟨rfl, rfl, h⟩
  | cons y ys ih =>
    by_cases hy : y = x
    · subst hy
      rw [List.count_cons_self] at h
      have hys : y ∉ ys := List.count_eq_zero.1 (by omega)
      unfold openNext
      cases hq : f y with
      | error e => exact .inl ⟨rfl, rfl, by show ys.count y ≤ 1; omega⟩
      | ok ss =>
        cases ss with
        | nil =>
          obtain ⟨k1, k2⟩ := open_without f hf y ys hys
          exact .inl ⟨k1, k2.2, by rw [List.count_eq_zero.2 k2.1]; omega⟩
        | cons s ss =>
          have hs := hf y _ hq
          refine .inr ⟨hys, s :: ss, hR _ hq, ?_⟩
          show only y [s] ++ only y ss = _
          rw [← only_append]
          exact only_all hs
    · rw [List.count_cons_of_ne hy] at h
      unfold openNext
      cases hq : f y with
      | error e => exact .inl ⟨rfl, rfl, h⟩
      | ok ss =>
        cases ss with
        | nil => exact ih h
        | cons s ss =>
          have hs := hf y _ hq
          exact .inl ⟨only_none hy fun t ht => hs t (by simp only [got, List.mem_singleton] at ht; rw [ht]; exact List.mem_cons_self),
            only_none hy fun t ht => hs t (List.mem_cons_of_mem _ ht), h⟩

theorem lane_given (f : String → Py (List (Sample α))) (hf : Named f) (R : List (Sample α) → Prop) (x : String) (hR : ∀ ss, f x = .ok ss → R ss) (Y : List (Sample α)) (l : Lane α)
    (h : Given R x Y l) : Given R x (Y ++ only x (got (l.next f).1)) (l.next f).2 := by
  obtain ⟨cur, rest⟩ := l
  cases cur with
  | cons s ss =>
    show Given R x (Y ++ only x [s]) ⟨ss, rest⟩
    rcases h with ⟨h1, h2, h3⟩ | ⟨h1, ts, h2, h3⟩
    · have h2' : only x ([s] ++ ss) = [] := h2
      rw [only_append, List.append_eq_nil_iff] at h2'
      exact .inl ⟨by rw [h1, h2'.1]; rfl, h2'.2, h3⟩
    · refine .inr ⟨h1, ts, h2, ?_⟩
      have h3' : Y ++ only x ([s] ++ ss) = ts := h3
      rw [only_append] at h3'
      rw [List.append_assoc]
      exact h3'
  | nil =>
    show Given R x (Y ++ only x (got (openNext f rest).1)) (openNext f rest).2
    rcases h with ⟨h1, h2, h3⟩ | ⟨h1, ts, h2, h3⟩
    · rw [h1]
      exact open_given f hf R x hR rest h3
    · obtain ⟨k1, k2⟩ := open_without f hf x rest h1
      exact .inr ⟨k2.1, ts, h2, by rw [k1, k2.2, List.append_nil]; exact h3⟩

theorem long_without (f : String → Py (List (Sample α))) (hf : Named f) (x : String) (ls : List (Lane α)) (h : ∀ l ∈ ls, Without x l) (b : List (Sample α)) (hb : (nextLong f ls).1 = .batch b) :
    only x b = [] ∧ ∀ l ∈ (nextLong f ls).2, Without x l := by
  induction ls generalizing b with
  | nil =>
    cases hb
    exact ⟨rfl, h⟩
  | cons l ls ih =>
    have hl := lane_without f hf x l (h l List.mem_cons_self)
    have i := ih fun m hm => h m (List.mem_cons_of_mem _ hm)
    simp only [nextLong] at hb ⊢
    rcases hq : l.next f with ⟨p, l'⟩
    rw [hq] at hl hb
    cases p with
    | fail e => cases hb
    | done =>
      obtain ⟨i1, i2⟩ := i b hb
      exact ⟨i1, List.forall_mem_cons.2 ⟨hl.2, i2⟩⟩
    | item s =>
      dsimp only at hb ⊢
      cases hr : (nextLong f ls).1 with
      | batch c =>
        rw [hr] at hb
        cases hb
        obtain ⟨i1, i2⟩ := i c hr
        refine ⟨?_, List.forall_mem_cons.2 ⟨hl.2, i2⟩⟩
        show only x ([s] ++ c) = []
        rw [only_append, i1]
        exact (List.append_nil _).trans hl.1
      | stop => rw [hr] at hb; cases hb
      | fail e => rw [hr] at hb; cases hb

/-- The streams of which at most one has `x`, and what they have given of it. -/
def AllGiven (R : List (Sample α) → Prop) (x : String) (Y : List (Sample α)) : List (Lane α) → Prop
  | [] => Y = [] ∨ ∃ ss, R ss ∧ Y = ss
  | l :: ls => (Given R x Y l ∧ ∀ m ∈ ls, Without x m) ∨ (Without x l ∧ AllGiven R x Y ls)

theorem long_given (f : String → Py (List (Sample α))) (hf : Named f) (R : List (Sample α) → Prop) (x : String) (hR : ∀ ss, f x = .ok ss → R ss) (Y : List (Sample α)) (ls : List (Lane α))
    (h : AllGiven R x Y ls) (b : List (Sample α)) (hb : (nextLong f ls).1 = .batch b) : AllGiven R x (Y ++ only x b) (nextLong f ls).2 := by
  induction ls generalizing b with
  | nil =>
    cases hb
    show AllGiven R x (Y ++ []) []
    rw [List.append_nil]
    exact h
  | cons l ls ih =>
    rcases h with ⟨h1, h2⟩ | ⟨h1, h2⟩
    · have hl := lane_given f hf R x hR Y l h1
      simp only [nextLong] at hb ⊢
      rcases hq : l.next f with ⟨p, l'⟩
      rw [hq] at hl hb
      cases p with
      | fail e => cases hb
      | done =>
        obtain ⟨i1, i2⟩ := long_without f hf x ls h2 b hb
        rw [i1]
        exact .inl ⟨hl, i2⟩
      | item s =>
        dsimp only at hb ⊢
        cases hr : (nextLong f ls).1 with
        | batch c =>
          rw [hr] at hb
          cases hb
          obtain ⟨i1, i2⟩ := long_without f hf x ls h2 c hr
          have e : only x (s :: c) = only x [s] := by
            show only x ([s] ++ c) = _
            rw [only_append, i1, List.append_nil]
          rw [e]
          exact .inl ⟨hl, i2⟩
        | stop => rw [hr] at hb; cases hb
        | fail e => rw [hr] at hb; cases hb
    · have hl := lane_without f hf x l h1
      simp only [nextLong] at hb ⊢
      rcases hq : l.next f with ⟨p, l'⟩
      rw [hq] at hl hb
      cases p with
      | fail e => cases hb
      | done => exact .inr ⟨hl.2, ih h2 b hb⟩
      | item s =>
        dsimp only at hb ⊢
        cases hr : (nextLong f ls).1 with
        | batch c =>
          rw [hr] at hb
          cases hb
          have e : only x (s :: c) = only x c := by
            show only x ([s] ++ c) = _
            rw [only_append]
            have : only x [s] = [] := hl.1
            rw [this, List.nil_append]
          rw [e]
          exact .inr ⟨hl.2, ih h2 c hr⟩
        | stop => rw [hr] at hb; cases hb
        | fail e => rw [hr] at hb; cases hb

theorem given_prefix {R : List (Sample α) → Prop} {x : String} {Y : List (Sample α)} {ls : List (Lane α)} (h : AllGiven R x Y ls) : Y = [] ∨ ∃ ss, R ss ∧ Y <+: ss := by
  induction ls with
  | nil => exact h.imp id fun ⟨ss, h1, h2⟩ => ⟨ss, h1, h2 ▸ List.prefix_rfl⟩
  | cons l ls ih =>
    rcases h with ⟨h1, -⟩ | ⟨-, h2⟩
    · rcases h1 with ⟨h1, -, -⟩ | ⟨-, ss, h1, h2⟩
      · exact .inl h1
      · exact .inr ⟨ss, h1, _, h2⟩
    · exact ih h2

theorem given_start (R : List (Sample α) → Prop) (x : String) (ls : List (Lane α)) (hc : ∀ l ∈ ls, l.cur = []) (h : (ls.flatMap Lane.rest).count x ≤ 1) : AllGiven R x [] ls := by
  induction ls with
  | nil => exact .inl rfl
  | cons l ls ih =>
    rw [List.flatMap_cons, List.count_append] at h
    have hl : only x l.cur = [] := by rw [hc l List.mem_cons_self]; rfl
    by_cases hx : x ∈ l.rest
    · have h1 := List.count_pos_iff.2 hx
      refine .inl ⟨.inl ⟨rfl, hl, by omega⟩, ?_⟩
      intro m hm
      refine ⟨?_, by rw [hc m (List.mem_cons_of_mem _ hm)]; rfl⟩
      intro hxm
      have := List.count_pos_iff.2 (List.mem_flatMap.2 ⟨m, hm, hxm⟩)
      omega
    · exact .inr ⟨⟨hx, hl⟩, ih (fun m hm => hc m (List.mem_cons_of_mem _ hm)) (by omega)⟩

/-- An iterator without `drop_last` that has given the samples `Y` of `x`. -/
def IterGiven (R : List (Sample α) → Prop) (x : String) (Y : List (Sample α)) : Iter α → Prop
  | .long ls => AllGiven R x Y ls
  | .done => Y = [] ∨ ∃ ss, R ss ∧ Y <+: ss
  | _ => False

theorem samplesOf_append (x : String) (a b : List (Res α)) : samplesOf x (a ++ b) = samplesOf x a ++ samplesOf x b := by
  unfold samplesOf
  rw [List.flatMap_append, List.filter_append]

theorem iter_given (f : String → Py (List (Sample α))) (hf : Named f) (R : List (Sample α) → Prop) (x : String) (hR : ∀ ss, f x = .ok ss → R ss) (Y : List (Sample α)) (it : Iter α)
    (h : IterGiven R x Y it) : IterGiven R x (Y ++ samplesOf x [(it.next f).1]) (it.next f).2 := by
  cases it with
  | fresh ls => exact h.elim
  | holds b ls => exact h.elim
  | done =>
    show IterGiven R x (Y ++ []) .done
    rw [List.append_nil]
    exact h
  | long ls =>
    have hg := long_given f hf R x hR Y ls h
    have hp : Y ++ [] = [] ∨ ∃ ss, R ss ∧ Y ++ [] <+: ss := by rw [List.append_nil]; exact given_prefix h
    unfold Iter.next
    dsimp only
    rcases hq : nextLong f ls with ⟨z, ls'⟩
    rw [hq] at hg
    cases z with
    | stop => exact hp
    | fail e => exact hp
    | batch b =>
      cases b with
      | nil => exact hp
      | cons s ss =>
        have e : samplesOf x [Res.batch (s :: ss)] = only x (s :: ss) := by simp [samplesOf, only]
        dsimp only
        rw [e]
        exact hg _ rfl

theorem run_given (R : List (Sample α) → Prop) (x : String) (k : Nat) (acts : List (Act α)) (w : World α) (hR : ∀ m ∈ moments w acts, ∀ ss, processData m.1 m.2 x = .ok ss → R ss) (Y : List (Sample α))
    (it : Iter α) (hk : w.its[k]? = some it) (h : IterGiven R x Y it) : Y ++ samplesOf x (resultsOf k (w.run acts)) = [] ∨ ∃ ss, R ss ∧ Y ++ samplesOf x (resultsOf k (w.run acts)) <+: ss := by
  induction acts generalizing w Y it with
  | nil =>
    show Y ++ [] = [] ∨ ∃ ss, R ss ∧ Y ++ [] <+: ss
    rw [List.append_nil]
    cases it with
    | fresh ls => exact h.elim
    | holds b ls => exact h.elim
    | done => exact h
    | long ls => exact given_prefix h
  | cons a as ih =>
    have iha := ih (w.act a).1 fun m hm => hR m (List.mem_cons_of_mem _ hm)
    have hklt := (List.getElem?_eq_some_iff.1 hk).1
    unfold World.run
    rw [resultsOf_append, samplesOf_append, ← List.append_assoc]
    cases a with
    | set d => exact iha _ it hk (by show IterGiven R x (Y ++ []) it; rw [List.append_nil]; exact h)
    | write disk => exact iha _ it hk (by show IterGiven R x (Y ++ []) it; rw [List.append_nil]; exact h)
    | iter sh =>
      refine iha _ it ?_ (by show IterGiven R x (Y ++ []) it; rw [List.append_nil]; exact h)
      show (w.its ++ _)[k]? = _
      rw [List.getElem?_append_left hklt]
      exact hk
    | next j =>
      by_cases hj : j = k
      · subst hj
        have e : w.act (.next j) = ({ w with its := w.its.set j (it.next (processData w.disk w.ds)).2 }, [(j, (it.next (processData w.disk w.ds)).1)]) := by
          unfold World.act
          dsimp only
          rw [hk]
        rw [e] at iha ⊢
        have hr : resultsOf j [(j, (it.next (processData w.disk w.ds)).1)] = [(it.next (processData w.disk w.ds)).1] := by simp [resultsOf]
        dsimp only at iha ⊢
        rw [hr]
        exact iha _ _ (List.getElem?_set_self hklt) (iter_given _ (process_ids w.disk w.ds) R x (hR (w.disk, w.ds) List.mem_cons_self) Y it h)
      · have hr : resultsOf k (w.act (.next j)).2 = [] := by
          unfold World.act
          dsimp only
          cases w.its[j]? with
          | none => rfl
          | some it' => simp [resultsOf, hj]
        have hi : (w.act (.next j)).1.its[k]? = some it := by
          unfold World.act
          dsimp only
          cases w.its[j]? with
          | none => exact hk
          | some it' =>
            show (w.its.set j _)[k]? = _
            rw [List.getElem?_set_ne hj]
            exact hk
        rw [hr]
        exact iha _ it hi (by show IterGiven R x (Y ++ []) it; rw [List.append_nil]; exact h)

/-- **C227 (no mixtures).** Whatever a program does after it has made an iterator without `drop_last` of distinct files, also if it assigns to `chunk_seconds` and `transform` or changes files: the samples of a file that the iterator
yields are the first ones of the samples that the file gives with the attributes and files of one moment. Missing: with `drop_last` the samples of the last batch are marked as ending (`C227_whole_drop`). -/
theorem C227_whole_partial (w : World α) (hb : 0 < w.ds.batchSize) (hd : w.ds.dropLast = false) (shuffled order : List String) (ho : order = if w.ds.shuffle then shuffled else w.ds.files) (hn : order.Nodup)
    (acts : List (Act α)) (x : String) :
    samplesOf x (resultsOf w.its.length (w.run (.iter shuffled :: acts))) = [] ∨
      ∃ m ∈ moments w (.iter shuffled :: acts), ∃ ss, processData m.1 m.2 x = .ok ss ∧ samplesOf x (resultsOf w.its.length (w.run (.iter shuffled :: acts))) <+: ss := by
  subst ho
  have h := run_given (fun ss => ∃ m ∈ moments w (.iter shuffled :: acts), processData m.1 m.2 x = .ok ss) x w.its.length acts (w.act (.iter shuffled)).1
    (fun m hm ss hs => ⟨m, List.mem_cons_of_mem _ hm, hs⟩) [] (newIter w.ds shuffled) (by
      show (w.its ++ _)[w.its.length]? = _
      simp) (by
      unfold newIter
      dsimp only
      rw [hd]
      refine given_start _ x _ ?_ ?_
      · intro l hl
        obtain ⟨i, -, rfl⟩ := List.mem_map.1 hl
        rfl
      · rw [List.flatMap_map]
        rw [(lanes_perm w.ds.batchSize.toNat (by omega) _).count_eq x]
        exact List.nodup_iff_count_le_one.1 hn x)
  rcases h with h | ⟨ss, ⟨m, h1, h2⟩, h3⟩
  · exact .inl h
  · exact .inr ⟨m, h1, ss, h2, h3⟩

/-! ### The same with `drop_last` -/

theorem short_without (f : String → Py (List (Sample α))) (hf : Named f) (x : String) (ls : List (Lane α)) (h : ∀ l ∈ ls, Without x l) (b : List (Sample α)) (hb : (nextShort f ls).1 = .batch b) :
    only x b = [] ∧ ∀ l ∈ (nextShort f ls).2, Without x l := by
  induction ls generalizing b with
  | nil =>
    cases hb
    exact ⟨rfl, h⟩
  | cons l ls ih =>
    have hl := lane_without f hf x l (h l List.mem_cons_self)
    have i := ih fun m hm => h m (List.mem_cons_of_mem _ hm)
    simp only [nextShort] at hb ⊢
    rcases hq : l.next f with ⟨p, l'⟩
    rw [hq] at hl hb
    cases p with
    | fail e => cases hb
    | done => cases hb
    | item s =>
      dsimp only at hb ⊢
      cases hr : (nextShort f ls).1 with
      | batch c =>
        rw [hr] at hb
        cases hb
        obtain ⟨i1, i2⟩ := i c hr
        refine ⟨?_, List.forall_mem_cons.2 ⟨hl.2, i2⟩⟩
        show only x ([s] ++ c) = []
        rw [only_append, i1]
        exact (List.append_nil _).trans hl.1
      | stop => rw [hr] at hb; cases hb
      | fail e => rw [hr] at hb; cases hb

theorem short_given (f : String → Py (List (Sample α))) (hf : Named f) (R : List (Sample α) → Prop) (x : String) (hR : ∀ ss, f x = .ok ss → R ss) (Y : List (Sample α)) (ls : List (Lane α))
    (h : AllGiven R x Y ls) (b : List (Sample α)) (hb : (nextShort f ls).1 = .batch b) : AllGiven R x (Y ++ only x b) (nextShort f ls).2 := by
  induction ls generalizing b with
  | nil =>
    cases hb
    show AllGiven R x (Y ++ []) []
    rw [List.append_nil]
    exact h
  | cons l ls ih =>
    rcases h with ⟨h1, h2⟩ | ⟨h1, h2⟩
    · have hl := lane_given f hf R x hR Y l h1
      simp only [nextShort] at hb ⊢
      rcases hq : l.next f with ⟨p, l'⟩
      rw [hq] at hl hb
      cases p with
      | fail e => cases hb
      | done => cases hb
      | item s =>
        dsimp only at hb ⊢
        cases hr : (nextShort f ls).1 with
        | batch c =>
          rw [hr] at hb
          cases hb
          obtain ⟨i1, i2⟩ := short_without f hf x ls h2 c hr
          have e : only x (s :: c) = only x [s] := by
            show only x ([s] ++ c) = _
            rw [only_append, i1, List.append_nil]
          rw [e]
          exact .inl ⟨hl, i2⟩
        | stop => rw [hr] at hb; cases hb
        | fail e => rw [hr] at hb; cases hb
    · have hl := lane_without f hf x l h1
      simp only [nextShort] at hb ⊢
      rcases hq : l.next f with ⟨p, l'⟩
      rw [hq] at hl hb
      cases p with
      | fail e => cases hb
      | done => cases hb
      | item s =>
        dsimp only at hb ⊢
        cases hr : (nextShort f ls).1 with
        | batch c =>
          rw [hr] at hb
          cases hb
          have e : only x (s :: c) = only x c := by
            show only x ([s] ++ c) = _
            rw [only_append]
            have : only x [s] = [] := hl.1
            rw [this, List.nil_append]
          rw [e]
          exact .inr ⟨hl.2, ih h2 c hr⟩
        | stop => rw [hr] at hb; cases hb
        | fail e => rw [hr] at hb; cases hb

/-- With marks of the end left out of account. -/
def ended (ss : List (Sample α)) : List (Sample α) := ss.map Sample.end

theorem ended_append (a b : List (Sample α)) : ended (a ++ b) = ended a ++ ended b := List.map_append ..

theorem only_ended (x : String) (b : List (Sample α)) : ended (only x (b.map Sample.end)) = ended (only x b) := by
  induction b with
  | nil => rfl
  | cons s b ih =>
    have e : only x ((s :: b).map Sample.end) = only x [s.end] ++ only x (b.map Sample.end) := only_append x [s.end] _
    have e' : only x (s :: b) = only x [s] ++ only x b := only_append x [s] b
    rw [e, e', ended_append, ended_append, ih]
    congr 1
    by_cases h : s.id = x
    · simp [only, ended, Sample.end, h]
    · simp [only, Sample.end, h]

/-- The samples `Y` are the first of some samples for which `R` holds, up to marks of the end. -/
def Begins (R : List (Sample α) → Prop) (Y : List (Sample α)) : Prop := Y = [] ∨ ∃ ss, R ss ∧ ended Y <+: ended ss

theorem begins_of {R : List (Sample α) → Prop} {x : String} {Y Z : List (Sample α)} {ls : List (Lane α)} (h : AllGiven R x (Y ++ Z) ls) : Begins R Y := by
  rcases given_prefix h with h | ⟨ss, h1, h2⟩
  · exact .inl (List.append_eq_nil_iff.1 h).1
  · exact .inr ⟨ss, h1, ((List.prefix_append Y Z).trans h2).map _⟩

theorem begins_ended {R : List (Sample α) → Prop} {x : String} {Y b : List (Sample α)} {ls : List (Lane α)} (h : AllGiven R x (Y ++ only x b) ls) : Begins R (Y ++ only x (b.map Sample.end)) := by
  have e : ended (Y ++ only x (b.map Sample.end)) = ended (Y ++ only x b) := by rw [ended_append, ended_append, only_ended]
  rcases given_prefix h with h | ⟨ss, h1, h2⟩
  · rw [h] at e
    exact .inl (List.map_eq_nil_iff.1 e)
  · exact .inr ⟨ss, h1, by rw [e]; exact h2.map _⟩

/-- An iterator with `drop_last` that has given the samples `Y` of `x`. -/
def DropGiven (R : List (Sample α) → Prop) (x : String) (Y : List (Sample α)) : Iter α → Prop
  | .fresh ls => AllGiven R x Y ls
  | .holds b ls => AllGiven R x (Y ++ only x b) ls
  | .done => Begins R Y
  | .long _ => False

theorem samples_batch (x : String) (b : List (Sample α)) : samplesOf x [Res.batch b] = only x b := by simp [samplesOf, only]

theorem held_given (f : String → Py (List (Sample α))) (hf : Named f) (R : List (Sample α) → Prop) (x : String) (hR : ∀ ss, f x = .ok ss → R ss) (Y b : List (Sample α)) (ls : List (Lane α))
    (h : AllGiven R x (Y ++ only x b) ls) : DropGiven R x (Y ++ samplesOf x [(stepHeld f b ls).1]) (stepHeld f b ls).2 := by
  have hg := short_given f hf R x hR _ ls h
  have hp : Begins R (Y ++ []) := by rw [List.append_nil]; exact begins_of h
  unfold stepHeld
  rcases hq : nextShort f ls with ⟨z, ls'⟩
  rw [hq] at hg
  cases z with
  | stop => dsimp only; rw [samples_batch]; exact begins_ended h
  | fail e => exact hp
  | batch c =>
    cases c with
    | nil => dsimp only; rw [samples_batch]; exact begins_ended h
    | cons s ss => dsimp only; rw [samples_batch]; exact hg _ rfl

theorem drop_given (f : String → Py (List (Sample α))) (hf : Named f) (R : List (Sample α) → Prop) (x : String) (hR : ∀ ss, f x = .ok ss → R ss) (Y : List (Sample α)) (it : Iter α)
    (h : DropGiven R x Y it) : DropGiven R x (Y ++ samplesOf x [(it.next f).1]) (it.next f).2 := by
  cases it with
  | long ls => exact h.elim
  | holds b ls => exact held_given f hf R x hR Y b ls h
  | done =>
    show Begins R (Y ++ [])
    rw [List.append_nil]
    exact h
  | fresh ls =>
    have hg := short_given f hf R x hR Y ls h
    have hp : Begins R (Y ++ []) := by
      rw [List.append_nil]
      exact begins_of (Z := []) (by rw [List.append_nil]; exact h)
    unfold Iter.next
    dsimp only
    rcases hq : nextShort f ls with ⟨z, ls'⟩
    rw [hq] at hg
    cases z with
    | stop => exact hp
    | fail e => exact hp
    | batch c =>
      cases c with
      | nil => exact hp
      | cons s ss => exact held_given f hf R x hR Y _ ls' (hg _ rfl)

theorem drop_begins {R : List (Sample α) → Prop} {x : String} {Y : List (Sample α)} {it : Iter α} (h : DropGiven R x Y it) : Begins R Y := by
  cases it with
  | long ls => exact h.elim
  | fresh ls => exact begins_of (Z := []) (by rw [List.append_nil]; exact h)
  | holds b ls => exact begins_of h
  | done => exact h

theorem run_drop (R : List (Sample α) → Prop) (x : String) (k : Nat) (acts : List (Act α)) (w : World α) (hR : ∀ m ∈ moments w acts, ∀ ss, processData m.1 m.2 x = .ok ss → R ss) (Y : List (Sample α))
    (it : Iter α) (hk : w.its[k]? = some it) (h : DropGiven R x Y it) : Begins R (Y ++ samplesOf x (resultsOf k (w.run acts))) := by
  induction acts generalizing w Y it with
  | nil =>
    show Begins R (Y ++ [])
    rw [List.append_nil]
    exact drop_begins h
  | cons a as ih =>
    have iha := ih (w.act a).1 fun m hm => hR m (List.mem_cons_of_mem _ hm)
    have hklt := (List.getElem?_eq_some_iff.1 hk).1
    unfold World.run
    rw [resultsOf_append, samplesOf_append, ← List.append_assoc]
    cases a with
    | set d => exact iha _ it hk (by show DropGiven R x (Y ++ []) it; rw [List.append_nil]; exact h)
    | write disk => exact iha _ it hk (by show DropGiven R x (Y ++ []) it; rw [List.append_nil]; exact h)
    | iter sh =>
      refine iha _ it ?_ (by show DropGiven R x (Y ++ []) it; rw [List.append_nil]; exact h)
      show (w.its ++ _)[k]? = _
      rw [List.getElem?_append_left hklt]
      exact hk
    | next j =>
      by_cases hj : j = k
      · subst hj
        have e : w.act (.next j) = ({ w with its := w.its.set j (it.next (processData w.disk w.ds)).2 }, [(j, (it.next (processData w.disk w.ds)).1)]) := by
          unfold World.act
          dsimp only
          rw [hk]
        rw [e] at iha ⊢
        have hr : resultsOf j [(j, (it.next (processData w.disk w.ds)).1)] = [(it.next (processData w.disk w.ds)).1] := by simp [resultsOf]
        dsimp only at iha ⊢
        rw [hr]
        exact iha _ _ (List.getElem?_set_self hklt) (drop_given _ (process_ids w.disk w.ds) R x (hR (w.disk, w.ds) List.mem_cons_self) Y it h)
      · have hr : resultsOf k (w.act (.next j)).2 = [] := by
          unfold World.act
          dsimp only
          cases w.its[j]? with
          | none => rfl
          | some it' => simp [resultsOf, hj]
        have hi : (w.act (.next j)).1.its[k]? = some it := by
          unfold World.act
          dsimp only
          cases w.its[j]? with
          | none => exact hk
          | some it' =>
            show (w.its.set j _)[k]? = _
            rw [List.getElem?_set_ne hj]
            exact hk
        rw [hr]
        exact iha _ it hi (by show DropGiven R x (Y ++ []) it; rw [List.append_nil]; exact h)

/-- **C227 (no mixtures, `drop_last`).** The same for iterators with `drop_last`, up to the marks of the end, which `drop_last` sets in the last batch. -/
theorem C227_whole_drop (w : World α) (hb : 0 < w.ds.batchSize) (hd : w.ds.dropLast = true) (shuffled order : List String) (ho : order = if w.ds.shuffle then shuffled else w.ds.files) (hn : order.Nodup)
    (acts : List (Act α)) (x : String) :
    samplesOf x (resultsOf w.its.length (w.run (.iter shuffled :: acts))) = [] ∨
      ∃ m ∈ moments w (.iter shuffled :: acts), ∃ ss, processData m.1 m.2 x = .ok ss ∧ (samplesOf x (resultsOf w.its.length (w.run (.iter shuffled :: acts)))).map Sample.end <+: ss.map Sample.end := by
  subst ho
  have h := run_drop (fun ss => ∃ m ∈ moments w (.iter shuffled :: acts), processData m.1 m.2 x = .ok ss) x w.its.length acts (w.act (.iter shuffled)).1
    (fun m hm ss hs => ⟨m, List.mem_cons_of_mem _ hm, hs⟩) [] (newIter w.ds shuffled) (by
      show (w.its ++ _)[w.its.length]? = _
      simp) (by
      unfold newIter
      dsimp only
      rw [hd]
      refine given_start _ x _ ?_ ?_
      · intro l hl
        obtain ⟨i, -, rfl⟩ := List.mem_map.1 hl
        rfl
      · rw [List.flatMap_map]
        rw [(lanes_perm w.ds.batchSize.toNat (by omega) _).count_eq x]
        exact List.nodup_iff_count_le_one.1 hn x)
  rcases h with h | ⟨ss, ⟨m, h1, h2⟩, h3⟩
  · exact .inl h
  · exact .inr ⟨m, h1, ss, h2, h3⟩

end

/-! ### A witness, and examples -/

/-- Every file has four frames, one per second. -/
def exDisk : Disk Nat := fun _ => ([1, 2, 3, 4], 1)

/-- Two files, chunks of four seconds. -/
def exDs : Dataset Nat := ⟨["a", "b"], 4, none, none, 1, false, false, [], []⟩

/-- The id and the length of the samples in a result. -/
def shown : Res Nat → List (String × Nat)
  | .batch b => b.map fun s => (s.id, s.length)
  | _ => []

/-- C227 as stated is false: `chunk_seconds` is assigned while the dataset is iterated, and the file that is opened next is cut into chunks of the new size. -/
theorem C227_fixed_false : ∃ (w : World Nat) (d : Dataset Nat), 0 < w.ds.batchSize ∧ d = { w.ds with chunkSeconds := 2 } ∧
    (resultsOf 0 (w.run [.iter [], .next 0, .set d, .next 0, .next 0])).map shown = [[("a", 4)], [("b", 2)], [("b", 2)]] ∧
    ((List.range 3).map (nth (streamsG (processData w.disk w.ds) w.ds.batchSize.toNat w.ds.dropLast w.ds.files))).map shown = [[("a", 4)], [("b", 4)], []] :=
  ⟨⟨exDisk, exDs, []⟩, _, by decide, rfl, by decide +kernel, by decide +kernel⟩

/-- Files of two chunks each; a second iterator, another file list, another batch size and `drop_last` while the first iterator runs. -/
def exDs2 : Dataset Nat := { exDs with chunkSeconds := 2 }
def exActs : List (Act Nat) :=
  [.next 0, .set { exDs2 with files := ["c"], batchSize := 2, dropLast := true }, .iter [], .next 1, .next 0, .write fun x => if x = "c" then ([], 0) else exDisk x, .next 0, .next 0, .next 0]

example : (∀ a ∈ exActs, Keeps ⟨exDisk, exDs2, []⟩ exDs2.files a) := by
  intro a ha
  simp only [exActs, List.mem_cons, List.not_mem_nil, or_false] at ha
  rcases ha with rfl | rfl | rfl | rfl | rfl | rfl | rfl | rfl | rfl
  · trivial
  · exact ⟨rfl, rfl⟩
  · trivial
  · trivial
  · trivial
  · intro x hx
    simp only [exDs2, exDs, List.mem_cons, List.not_mem_nil, or_false] at hx
    rcases hx with rfl | rfl <;> rfl
  · trivial
  · trivial
  · trivial
example : (resultsOf 0 ((⟨exDisk, exDs2, []⟩ : World Nat).run (.iter [] :: exActs))).map shown = [[("a", 2)], [("a", 2)], [("b", 2)], [("b", 2)], []] := by decide +kernel
/-- The same with a mixture of settings over the files, but not within one: the rest of `a` keeps its size. -/
example : (resultsOf 0 ((⟨exDisk, exDs2, []⟩ : World Nat).run [.iter [], .next 0, .set { exDs2 with chunkSeconds := 1 }, .next 0, .next 0])).map shown = [[("a", 2)], [("a", 2)], [("b", 1)]] ∧
    exDs2.files.Nodup ∧ exDs2.dropLast = false := by decide +kernel
/-- With `drop_last` and an assignment after both files have been opened: the last batch is marked, then StopIteration. -/
example : (resultsOf 0 ((⟨exDisk, { exDs2 with batchSize := 2, dropLast := true }, []⟩ : World Nat).run [.iter [], .next 0, .set exDs, .next 0, .next 0])).map shown = [[("a", 2), ("b", 2)], [("a", 2), ("b", 2)], []] := by decide +kernel

end DS.Live
