import Verif.Model.Collate
import Verif.Props.Ragged
import Verif.Props.Construct
/-!
# C223: collated batches carry metadata that describe them
-/

namespace DS.Tn

section
variable {α : Type}

theorem sorted_stable (batch : List (SampleT α)) :
    (batch.mergeSort fun x y => decide (y.length ≤ x.length)).Perm batch ∧
    (batch.mergeSort fun x y => decide (y.length ≤ x.length)).Pairwise (fun x y => y.length ≤ x.length) ∧
    ∀ L : Nat, (batch.mergeSort fun x y => decide (y.length ≤ x.length)).filter (fun s => decide (s.length = L)) =
      batch.filter fun s => decide (s.length = L) := by
  have htot : ∀ a b : SampleT α, (decide (b.length ≤ a.length) || decide (a.length ≤ b.length)) = true := by
    intro a b
    simp only [Bool.or_eq_true, decide_eq_true_eq]
    omega
  have htrans : ∀ a b c : SampleT α, decide (b.length ≤ a.length) = true → decide (c.length ≤ b.length) = true → decide (c.length ≤ a.length) = true := by
    intro a b c h1 h2
    simp only [decide_eq_true_eq] at *
    omega
  have hperm := List.mergeSort_perm batch (fun x y : SampleT α => decide (y.length ≤ x.length))
  refine ⟨hperm, ?_, ?_⟩
  · have := List.pairwise_mergeSort (le := fun x y : SampleT α => decide (y.length ≤ x.length)) htrans htot batch
    exact this.imp fun h => by simpa using h
  · intro L
    have hp : (batch.filter fun s => decide (s.length = L)).Pairwise fun x y => decide (y.length ≤ x.length) = true := by
      rw [List.pairwise_iff_forall_sublist]
      intro a c hac
      have ha := (List.mem_filter.1 (hac.subset (by simp : a ∈ [a, c]))).2
      have hc := (List.mem_filter.1 (hac.subset (by simp : c ∈ [a, c]))).2
      simp only [decide_eq_true_eq] at *
      omega
    have hsub := List.sublist_mergeSort htrans htot hp List.filter_sublist
    have hsub2 := hsub.filter fun s => decide (s.length = L)
    rw [List.filter_filter, show (fun a : SampleT α => decide (a.length = L) && decide (a.length = L)) = fun a => decide (a.length = L) by funext a; simp] at hsub2
    exact (hsub2.eq_of_length ((hperm.filter _).length_eq.symm)).symm

/-- What `custom_collate` does once the data have been put together. -/
theorem collateTen_eq (pad : α) (names : Option (List (Option String))) (batch : List (SampleT α)) (t : Ten α)
    (h : concatenateRagged ((batch.mergeSort fun x y => decide (y.length ≤ x.length)).map SampleT.data) pad (-1) = .ok t) :
    ∃ m : Meta, m.WF ∧ m.ids.length = batch.length ∧
      (∀ (i : Nat) (s : SampleT α), (batch.mergeSort fun x y => decide (y.length ≤ x.length))[i]? = some s →
        m.row i = some ⟨s.id, s.sos, s.eos, s.length, some (s.chunkIndex : Int)⟩) ∧
      (∀ n ∈ m.lengths, ∃ s ∈ batch, n = (s.length : Int)) ∧
      collateTen pad names batch = asStream (.plain t) (some m) names := by
  have hperm := (sorted_stable batch).1
  unfold collateTen
  dsimp only
  rw [h, Except.bind_ok']
  unfold Meta.init
  rw [if_pos (by simp), Except.bind_ok']
  refine ⟨_, ?_, ?_, ?_, ?_, rfl⟩
  · refine ⟨by simp, by simp, by simp, ?_⟩
    intro c hc
    cases hc
    simp
  · simp
  · intro i s hs
    unfold Meta.row
    simp [hs]
  · intro n hn
    obtain ⟨s, hs, rfl⟩ := List.mem_map.1 hn
    exact ⟨s, hperm.mem_iff.1 hs, rfl⟩

/-- **C223, what holds.** If the dataset has names for all axes with the batch in front and the length last, and the samples have the same sizes but for the last axis: collating gives a StreamTensor with metadata that
describe it. Its rows are the samples by decreasing length, those of equal length in the order in which they came; each row holds the data and the metadata of its sample, and padding behind. Missing: other names, and no names
(`C223_default_false`, `C223_names_false`); samples that differ on other axes (C222). -/
theorem C223_collated_partial (pad : α) (n : Nat) (hn : 0 < n) (ns : List (Option String)) (batch : List (SampleT α)) (hne : batch ≠ [])
    (hlen : ns.length = n + 1) (hnd : (ns.filterMap id).Nodup) (hemp : some "" ∉ ns) (hb : ns[0]? = some BATCH) (hl : ns[n]? = some LENGTH)
    (hax : ∀ s ∈ batch, s.data.shape.length = n) (hsame : ∀ s ∈ batch, ∀ s' ∈ batch, SameElsewhere (n - 1) s.data s'.data)
    (hfit : ∀ s ∈ batch, s.length ≤ s.data.shape.getD (n - 1) 0) :
    ∃ (x : STen α) (b : List (SampleT α)), collateTen pad (some ns) batch = .ok x ∧ x.Describes 0 n ∧ x.t.names = ns ∧
      b.Perm batch ∧ b.Pairwise (fun s s' => s'.length ≤ s.length) ∧
      (∀ L : Nat, b.filter (fun s => decide (s.length = L)) = batch.filter fun s => decide (s.length = L)) ∧
      ∀ (i : Nat) (s : SampleT α), b[i]? = some s → x.md.row i = some ⟨s.id, s.sos, s.eos, s.length, some (s.chunkIndex : Int)⟩ ∧
        ∀ ix, Inside (i :: ix) x.t.shape →
          (Inside ix s.data.shape → x.t.val (i :: ix) = s.data.val ix) ∧ (¬ Inside ix s.data.shape → x.t.val (i :: ix) = pad) := by
  obtain ⟨hperm, hsort, hstab⟩ := sorted_stable batch
  generalize hB : (batch.mergeSort fun x y => decide (y.length ≤ x.length)) = b at *
  have hbne : b ≠ [] := fun h => hne (List.Perm.nil_eq (h ▸ hperm.symm).symm).symm
  obtain ⟨s0, rest, hcons⟩ := List.exists_cons_of_ne_nil hbne
  have hmem : ∀ s ∈ b, s ∈ batch := fun s hs => hperm.mem_iff.1 hs
  have hs0 : s0 ∈ b := by rw [hcons]; exact List.mem_cons_self
  obtain ⟨out, w, h1, h2, -, h4, h5, h6⟩ := C222_ragged s0.data (rest.map SampleT.data) pad n (n - 1) (-1) (by omega) (.inr (by omega)) (by
      intro t ht
      rw [← List.map_cons, ← hcons] at ht
      obtain ⟨s, hs, rfl⟩ := List.mem_map.1 ht
      exact hax s (hmem s hs)) (by
      intro t ht
      obtain ⟨s, hs, rfl⟩ := List.mem_map.1 ht
      exact hsame s (hmem s (by rw [hcons]; exact List.mem_cons_of_mem _ hs)) s0 (hmem _ hs0))
  rw [← List.map_cons, ← hcons] at h1 h2 h6
  have hcat := h1
  rw [← hB] at hcat
  obtain ⟨m, hm1, hm2, hm3, hm4, hm5⟩ := collateTen_eq pad (some ns) batch out hcat
  rw [hB] at hm3
  have hsl : out.shape.length = n + 1 := by rw [h4]; simp [hax s0 (hmem _ hs0)]
  have hok : namesOK ns = true := by
    unfold namesOK
    rw [decide_eq_true hnd, Bool.true_and, Bool.not_eq_true', ← Bool.not_eq_true, List.contains_iff_mem]
    exact hemp
  have hrun : collateTen pad (some ns) batch = .ok ⟨{ out with names := ns }, m⟩ := by
    rw [hm5]
    unfold asStream
    simp only [Opd.ten]
    unfold Ten.refineNamed
    have hnone : out.names = out.shape.map fun _ => none := by
      rw [h5, List.map_const', hsl]
    rw [hnone, refineAll_unnamed _ _ (by omega), Except.bind_ok', if_pos hok]
    rfl
  refine ⟨_, b, hrun, ?_, rfl, hperm, hsort, hstab, ?_⟩
  · refine ⟨⟨by show ns.length = out.shape.length; omega, hnd, hemp⟩, hb, hl, hm1, ?_, w, ?_, ?_⟩
    · show out.shape[0]? = some m.ids.length
      rw [h4, hm2, ← hperm.length_eq, hcons]
      simp
    · show out.shape[n]? = some w
      have hs0n := hax s0 (hmem _ hs0)
      rw [h4]
      obtain ⟨k, rfl⟩ : ∃ k, n = k + 1 := ⟨n - 1, by omega⟩
      rw [List.getElem?_cons_succ, Nat.add_sub_cancel, List.getElem?_set_self (by omega)]
    · intro k hk
      obtain ⟨s, hs, rfl⟩ := hm4 k hk
      have h7 := hfit s hs
      have h8 := h2 s.data (List.mem_map.2 ⟨s, hperm.mem_iff.2 hs, rfl⟩)
      constructor <;> omega
  · intro i s hi
    refine ⟨hm3 i s hi, ?_⟩
    intro ix hix
    change Inside (i :: ix) out.shape at hix
    rw [h4] at hix
    cases hix with
    | cons _ hix => exact h6 i s.data ix (by rw [List.getElem?_map, hi]; rfl) hix

/-- Two samples, the second of which is longer. -/
def exSs : List (SampleT (List Nat)) := [⟨exR 1 [2, 3], "a", true, false, 3, 0⟩, ⟨exR 2 [2, 5], "b", false, true, 4, 1⟩]

example : exSs ≠ [] ∧ [BATCH, some "F", LENGTH].length = 2 + 1 ∧ ([BATCH, some "F", LENGTH].filterMap id).Nodup ∧ some "" ∉ [BATCH, some "F", LENGTH] ∧
    (∀ s ∈ exSs, s.data.shape.length = 2) ∧ (∀ s ∈ exSs, s.length ≤ s.data.shape.getD (2 - 1) 0) := by decide

example : ∀ s ∈ exSs, ∀ s' ∈ exSs, SameElsewhere (2 - 1) s.data s'.data := by
  intro s hs s' hs' a ha
  rcases a with _ | _ | a
  · simp only [exSs, List.mem_cons, List.not_mem_nil, or_false] at hs hs'
    rcases hs with rfl | rfl <;> rcases hs' with rfl | rfl <;> rfl
  · exact absurd rfl ha
  · simp only [exSs, List.mem_cons, List.not_mem_nil, or_false] at hs hs'
    rcases hs with rfl | rfl <;> rcases hs' with rfl | rfl <;> rfl

/-- **C223 is false of the code.** With the default `names=None` no batch of a dataset has metadata that describe it: no axis has a name. -/
theorem C223_default_false (pad : α) (batch : List (SampleT α)) (n : Nat) (hn : 0 < n) (hax : ∀ s ∈ batch, s.data.shape.length = n) (x : STen α)
    (h : collateTen pad none batch = .ok x) : (∀ a ∈ x.t.names, a = none) ∧ ∀ b l : Nat, ¬ x.Describes b l := by
  have hkey : ∀ a ∈ x.t.names, a = none := by
    obtain ⟨hperm, -, -⟩ := sorted_stable batch
    cases hc : concatenateRagged ((batch.mergeSort fun x y => decide (y.length ≤ x.length)).map SampleT.data) pad (-1) with
    | error e =>
      unfold collateTen at h
      dsimp only at h
      rw [hc, Except.bind_error'] at h
      cases h
    | ok t =>
      obtain ⟨m, -, -, -, -, hm⟩ := collateTen_eq pad none batch t hc
      rw [hm] at h
      cases h
      show ∀ a ∈ t.names, a = none
      generalize (batch.mergeSort fun x y => decide (y.length ≤ x.length)) = b at *
      cases b with
      | nil =>
        rw [List.map_nil, C222_none] at hc
        cases hc
      | cons s0 rest =>
        have h2 := C222_exact_partial s0.data (rest.map SampleT.data) pad n (n - 1) (-1) (by omega) (.inr (by omega)) (by
          intro u hu
          rw [← List.map_cons] at hu
          obtain ⟨s, hs, rfl⟩ := List.mem_map.1 hu
          exact hax s (hperm.mem_iff.1 hs))
        by_cases hone : ∀ u ∈ rest.map SampleT.data, OneElsewhere (n - 1) u s0.data
        · obtain ⟨out, w, h3, -, -, -, h4, -⟩ := h2.1 hone
          rw [List.map_cons, h3] at hc
          cases hc
          rw [h4]
          intro a ha
          exact List.eq_of_mem_replicate ha
        · have h3 := h2.2 (by
            by_contra hcon
            exact hone fun u hu => by
              by_contra hbad
              exact hcon ⟨u, hu, hbad⟩)
          rw [List.map_cons, h3] at hc
          cases hc
  refine ⟨hkey, ?_⟩
  intro b l hd
  have := hkey _ (List.mem_of_getElem? hd.batch)
  cases this

theorem exSs_sorted : (exSs.mergeSort fun x y => decide (y.length ≤ x.length)) =
    [⟨exR 2 [2, 5], "b", false, true, 4, 1⟩, ⟨exR 1 [2, 3], "a", true, false, 3, 0⟩] := by
  simp [exSs, List.mergeSort, List.MergeSort.Internal.splitInTwo, List.merge]

example : (collateTen [] none exSs).toOption.map (fun x => (x.t.shape, x.md.ids)) = some ([2, 2, 5], ["b", "a"]) := by
  unfold collateTen
  rw [exSs_sorted]
  decide +kernel

/-- **C223 is false of the code.** Names in another order are accepted and put on the wrong axes: with `names=["L", "F", "B"]` a batch of two samples of five frames is said to have five sequences. -/
theorem C223_names_false : ∃ x, collateTen [] (some [LENGTH, some "F", BATCH]) exSs = .ok x ∧ x.t.shape = [2, 2, 5] ∧
    x.t.names = [LENGTH, some "F", BATCH] ∧ x.md.ids.length = 2 ∧ ∀ b l : Nat, ¬ x.Describes b l := by
  have hrun : (collateTen [] (some [LENGTH, some "F", BATCH]) exSs).toOption.map (fun x => (x.t.shape, x.t.names, x.md.ids.length)) =
      some ([2, 2, 5], [LENGTH, some "F", BATCH], 2) := by
    unfold collateTen
    rw [exSs_sorted]
    decide +kernel
  cases hx : collateTen [] (some [LENGTH, some "F", BATCH]) exSs with
  | error e => rw [hx] at hrun; cases hrun
  | ok x =>
  rw [hx] at hrun
  have hp := Option.some.inj hrun
  have e1 : x.t.shape = [2, 2, 5] := (Prod.mk.inj hp).1
  have e2 : x.t.names = [LENGTH, some "F", BATCH] := (Prod.mk.inj (Prod.mk.inj hp).2).1
  have e3 : x.md.ids.length = 2 := (Prod.mk.inj (Prod.mk.inj hp).2).2
  refine ⟨x, rfl, e1, e2, e3, ?_⟩
  intro b l hd
  have h1 := hd.batch
  have h2 := hd.rows
  rw [e2] at h1
  rw [e1, e3] at h2
  have hb : b = 2 := by
    rcases b with _ | _ | _ | b
    · exact absurd h1 (by decide +kernel)
    · exact absurd h1 (by decide +kernel)
    · rfl
    · exact absurd h1 (by
        show (none : Option (Option String)) ≠ _
        simp)
  subst hb
  exact absurd h2 (by decide +kernel)

end
end DS.Tn

namespace DS.Tn

section
variable {α : Type}

/-- **C223 (names, exact).** Samples with the same sizes but for the last axis are collated if and only if the dataset has as many names as the batch has axes, all different and none of them empty; otherwise a RuntimeError is
raised. Where the names for the batch and the length stand is not checked (`C223_names_false`). -/
theorem C223_refused (pad : α) (n : Nat) (hn : 0 < n) (ns : List (Option String)) (batch : List (SampleT α)) (hne : batch ≠ [])
    (hax : ∀ s ∈ batch, s.data.shape.length = n) (hsame : ∀ s ∈ batch, ∀ s' ∈ batch, SameElsewhere (n - 1) s.data s'.data) :
    ((∃ x, collateTen pad (some ns) batch = .ok x ∧ x.t.names = ns) ↔ ns.length = n + 1 ∧ (ns.filterMap id).Nodup ∧ some "" ∉ ns) ∧
    (¬ (ns.length = n + 1 ∧ (ns.filterMap id).Nodup ∧ some "" ∉ ns) → collateTen pad (some ns) batch = .error .runtimeError) := by
  obtain ⟨hperm, -, -⟩ := sorted_stable batch
  generalize hB : (batch.mergeSort fun x y => decide (y.length ≤ x.length)) = b at *
  have hbne : b ≠ [] := fun h => hne (List.Perm.nil_eq (h ▸ hperm.symm).symm).symm
  obtain ⟨s0, rest, hcons⟩ := List.exists_cons_of_ne_nil hbne
  have hmem : ∀ s ∈ b, s ∈ batch := fun s hs => hperm.mem_iff.1 hs
  have hs0 : s0 ∈ b := by rw [hcons]; exact List.mem_cons_self
  obtain ⟨out, w, h1, -, -, h4, h5, -⟩ := C222_ragged s0.data (rest.map SampleT.data) pad n (n - 1) (-1) (by omega) (.inr (by omega)) (by
      intro t ht
      rw [← List.map_cons, ← hcons] at ht
      obtain ⟨s, hs, rfl⟩ := List.mem_map.1 ht
      exact hax s (hmem s hs)) (by
      intro t ht
      obtain ⟨s, hs, rfl⟩ := List.mem_map.1 ht
      exact hsame s (hmem s (by rw [hcons]; exact List.mem_cons_of_mem _ hs)) s0 (hmem _ hs0))
  rw [← List.map_cons, ← hcons] at h1
  have hcat := h1
  rw [← hB] at hcat
  obtain ⟨m, -, -, -, -, hm5⟩ := collateTen_eq pad (some ns) batch out hcat
  have hsl : out.shape.length = n + 1 := by rw [h4]; simp [hax s0 (hmem _ hs0)]
  have hnone : out.names = out.shape.map fun _ => none := by
    rw [h5, List.map_const', hsl]
  have hok : namesOK ns = true ↔ (ns.filterMap id).Nodup ∧ some "" ∉ ns := by
    unfold namesOK
    rw [Bool.and_eq_true, decide_eq_true_eq, Bool.not_eq_true', ← Bool.not_eq_true, List.contains_iff_mem]
  have hbad : ¬ (ns.length = n + 1 ∧ (ns.filterMap id).Nodup ∧ some "" ∉ ns) → collateTen pad (some ns) batch = .error .runtimeError := by
    intro hno
    rw [hm5]
    unfold asStream
    simp only [Opd.ten]
    unfold Ten.refineNamed
    by_cases hl : ns.length = n + 1
    · have : ¬ namesOK ns = true := fun hh => hno ⟨hl, hok.1 hh⟩
      rw [hnone, refineAll_unnamed _ _ (by omega), Except.bind_ok', if_neg this]
      rfl
    · rw [refineAll_refuses _ _ (.inl (by rw [hnone, List.length_map]; omega))]
      rfl
  refine ⟨⟨?_, ?_⟩, hbad⟩
  · rintro ⟨x, hx, -⟩
    by_cases hc : ns.length = n + 1 ∧ (ns.filterMap id).Nodup ∧ some "" ∉ ns
    · exact hc
    · rw [hbad hc] at hx
      cases hx
  · rintro ⟨hl, hrest⟩
    refine ⟨⟨{ out with names := ns }, m⟩, ?_, rfl⟩
    rw [hm5]
    unfold asStream
    simp only [Opd.ten]
    unfold Ten.refineNamed
    rw [hnone, refineAll_unnamed _ _ (by omega), Except.bind_ok', if_pos (hok.2 hrest)]
    rfl

end

/-- Samples with two axes, and two names. -/
example : collateTen [] (some [BATCH, LENGTH]) exSs = .error .runtimeError := by
  refine (C223_refused [] 2 (by omega) _ exSs (by decide) ?_ ?_).2 (by decide)
  · intro s hs
    simp only [exSs, List.mem_cons, List.not_mem_nil, or_false] at hs
    rcases hs with rfl | rfl <;> rfl
  · intro s hs s' hs' a ha
    rcases a with _ | _ | a
    · simp only [exSs, List.mem_cons, List.not_mem_nil, or_false] at hs hs'
      rcases hs with rfl | rfl <;> rcases hs' with rfl | rfl <;> rfl
    · exact absurd rfl ha
    · simp only [exSs, List.mem_cons, List.not_mem_nil, or_false] at hs hs'
      rcases hs with rfl | rfl <;> rcases hs' with rfl | rfl <;> rfl

end DS.Tn
