import Verif.Model.Take
import Verif.Props.MaskIndex
import Verif.Props.Gather
import Verif.Props.Elementwise
import Verif.Props.TensorSplit
import Verif.Props.JointIndex
/-! # C125–C129: `take`, `masked_select`, StreamTensors as indices, `frexp`, in-place scatters -/

namespace DS.Tn
open Meta

variable {α β : Type}

/-! ## take -/

theorem firstOcc_eq (xs : List Nat) : firstOcc xs = xs.eraseDups := by
  have key : ∀ (xs keys : List Nat), xs.foldl (fun keys x => if x ∈ keys then keys else keys ++ [x]) keys = keys ++ (xs.filter fun x => decide (x ∉ keys)).eraseDups := by
    intro xs
    induction xs with
    | nil => intro keys; simp
    | cons x xs ih =>
      intro keys
      rw [List.foldl_cons]
      by_cases h : x ∈ keys
      · rw [if_pos h, ih, List.filter_cons_of_neg (by simpa using h)]
      · rw [if_neg h, ih, List.filter_cons_of_pos (by simpa using h), List.eraseDups_cons, List.filter_filter, List.append_assoc, List.singleton_append]
        congr 3
        apply List.filter_congr
        intro y _
        simp only [List.mem_append, List.mem_singleton, not_or, Bool.decide_and, beq_eq_decide, decide_not]
        exact Bool.and_comm _ _
  unfold firstOcc
  rw [key]
  simp

theorem torchPoss_nat (n : Nat) (ps : List Nat) (h : ∀ p ∈ ps, p < n) : torchPoss n (ps.map fun (p : Nat) => (p : Int)) = .ok ps := by
  induction ps with
  | nil => rfl
  | cons p ps ih =>
    have hp := h p (by simp)
    rw [List.map_cons, torchPoss, ih fun q hq => h q (by simp [hq])]
    unfold torchPos
    simp only [show ¬((p : Int) < 0) by omega, if_false]
    rw [if_pos (by omega), Int.toNat_natCast]
    rfl

theorem toList_eq {i : Ten β} {vs : List β} (h1 : i.shape = [vs.length]) (h2 : ∀ (j : Nat) v, vs[j]? = some v → i.val [j] = v) : i.toList = vs := by
  apply List.ext_getElem?
  intro j
  unfold Ten.toList
  rw [h1, List.getElem?_map, List.headD_cons]
  by_cases h : j < vs.length
  · rw [List.getElem?_range h, List.getElem?_eq_getElem h, Option.map_some, h2 j _ (List.getElem?_eq_getElem h)]
  · rw [List.getElem?_eq_none (by simpa using h), List.getElem?_eq_none (by omega)]
    rfl

/-- The names left by `take`: without batch if only one row occurs, without length if only one frame occurs. -/
def keptBy (oneRow oneFrame : Bool) (names : List String) : List String :=
  names.filter fun n => !(decide (n = "B") && oneRow) && !(decide (n = "L") && oneFrame)

theorem eraseIdx_filter {ns : List String} (hnd : ns.Nodup) {a : Nat} {s : String} (ha : ns[a]? = some s) : ns.eraseIdx a = ns.filter fun n => decide (n ≠ s) := by
  obtain ⟨hlt, rfl⟩ := List.getElem?_eq_some_iff.1 ha
  rw [← hnd.erase_getElem a hlt, hnd.erase_eq_filter]
  apply List.filter_congr
  intro n _
  simp [bne, beq_eq_decide]

theorem unravelIndex_ok {shape : List Nat} {ps : List (List Nat)} (h : ∀ p ∈ ps, Inside p shape) :
    unravelIndex shape (ps.map fun p => (ravel shape p : Int)) = .ok ((List.range shape.length).map fun a => ps.map fun p => p.getD a 0) := by
  unfold unravelIndex
  rw [if_neg (by simp)]
  congr 1
  apply List.map_congr_left
  intro a _
  rw [List.map_map]
  apply List.map_congr_left
  intro p hp
  rw [Function.comp_apply, Int.toNat_natCast, unravel_ravel (h p hp)]

theorem takeTen_ok (t : Ten α) {ps : List (List Nat)} (h : ∀ p ∈ ps, Inside p t.shape) :
    ∃ u, takeTen t (ps.map fun p => (ravel t.shape p : Int)) = .ok u ∧ u.shape = [ps.length] ∧ u.names = [none] ∧ ∀ (j : Nat) p, ps[j]? = some p → u.val [j] = t.val p := by
  unfold takeTen
  have := torchPoss_nat (prod t.shape) (ps.map fun p => ravel t.shape p) (by
    intro q hq
    obtain ⟨p, hp, rfl⟩ := List.mem_map.1 hq
    rw [prod_eq]
    exact ravel_lt (h p hp))
  rw [List.map_map] at this
  rw [show (ps.map fun p => (ravel t.shape p : Int)) = ps.map ((fun (p : Nat) => (p : Int)) ∘ fun p => ravel t.shape p) from rfl, this, Except.bind_ok']
  refine ⟨_, rfl, by simp, rfl, ?_⟩
  intro j p hj
  simp only [List.headD_cons, List.getD_eq_getElem?_getD, List.getElem?_map, hj, Option.map_some, Option.getD_some]
  rw [unravel_ravel (h p (List.mem_of_getElem? hj))]

theorem frames_spec (junk : Int) (m : Meta) (hm : m.WF) (h0 : m.ids ≠ []) (w : Nat) (hf : ∀ n ∈ m.lengths, 0 ≤ n ∧ n ≤ (w : Int)) (fs : List Nat) (hne : fs ≠ []) :
    (fs.Pairwise (· ≤ ·) → ∃ m', m.indexLength junk (.list (fs.map fun (p : Nat) => (p : Int))) = .ok m' ∧ m.MapsRows (fun r =>
      { r with
        len := keptData fs r.len
        sos := r.sos && keepsFirst fs
        eos := r.eos && (fs.any fun j => decide ((j : Int) < r.len)) && (fs.any fun j => decide (r.len ≤ (j : Int))) }) m') ∧
    (¬ fs.Pairwise (· ≤ ·) → m.indexLength junk (.list (fs.map fun (p : Nat) => (p : Int))) = .error .indexError) := by
  obtain ⟨n, hn, -⟩ := longest_of_rows hm h0 w hf
  have hpos : Numba.makeIndicesPositive (fs.map fun (j : Nat) => (j : Int)) n = fs.map fun (j : Nat) => (j : Int) := by
    unfold Numba.makeIndicesPositive
    rw [List.map_map]
    apply List.map_congr_left
    intro j _
    simp
  constructor
  · intro hs
    exact list_core junk m hm n hn.max _ _ hpos hs hne
  · intro hs
    show m.indexLengthList junk _ = _
    unfold indexLengthList
    rw [hn.max, Except.bind_ok', hpos]
    have : Numba.isSortedAscending (fs.map (fun (j : Nat) => (j : Int))) = false := by
      rw [Bool.eq_false_iff, ne_eq, sorted_iff, List.pairwise_map]
      intro h
      exact hs (h.imp (fun h => by omega))
    simp [this]

theorem join_ne' {ns : List String} (h : ns ≠ []) (h2 : "" ∉ ns) : "_".intercalate ns ≠ "" := by
  match ns, h with
  | [a], _ => simpa [String.intercalate_singleton, eq_comm] using h2
  | a :: b :: r, _ => exact join_ne (by simp)

theorem idxOf_map_some {names : List (Option String)} (hnd : (names.filterMap id).Nodup) {s : String} {b : Nat} (h : names[b]? = some (some s)) : names.idxOf (some s) = b := by
  have := nameIndex_of hnd h
  unfold nameIndex at this
  rw [if_pos (List.mem_of_getElem? h)] at this
  exact Except.ok.inj this

theorem takeAxis_ok {x : STen α} (hnd : (x.t.names.filterMap id).Nodup) (hw : x.t.names.length = x.t.shape.length) {ps : List (List Nat)} {s : String} {a : Nat} (h : x.t.names[a]? = some (some s)) (nn : List (Option String)) :
    takeAxis x.t.shape x.t.names nn ((List.range x.t.shape.length).map fun a => ps.map fun p => p.getD a 0) (some s) =
      (if (ps.map fun p => p.getD a 0).eraseDups.length = 1 then pyDel nn a else .ok nn).map fun nn =>
        (nn, some (if (ps.map fun p => p.getD a 0).eraseDups.length = x.t.shape.getD a 0 then none else some (ps.map fun p => p.getD a 0).eraseDups)) := by
  have ha : a < x.t.shape.length := by rw [← hw]; exact (List.getElem?_eq_some_iff.1 h).1
  unfold takeAxis
  rw [if_pos (List.mem_of_getElem? h)]
  simp only [idxOf_map_some hnd h]
  rw [List.getD_eq_getElem?_getD, List.getElem?_map, List.getElem?_range ha, Option.map_some, Option.getD_some, firstOcc_eq]
  split
  · cases pyDel nn a <;> rfl
  · rfl

theorem pyDel_nat {γ : Type} {xs : List γ} {a : Nat} (h : a < xs.length) : pyDel xs a = .ok (xs.eraseIdx a) := by
  unfold pyDel
  simp only [show ¬((a : Int) < 0) by omega, if_false]
  rw [if_pos (by omega), Int.toNat_natCast]

theorem eraseIdx_map' {γ δ : Type} (f : γ → δ) : ∀ (xs : List γ) (i : Nat), (xs.map f).eraseIdx i = (xs.eraseIdx i).map f
  | [], _ => rfl
  | _ :: _, 0 => rfl
  | x :: xs, i + 1 => by simp only [List.map_cons, List.eraseIdx_cons_succ, eraseIdx_map' f xs i]

theorem keptBy_cases (ns : List String) (hnd : ns.Nodup) (b l : Nat) (hb : ns[b]? = some "B") (hl : ns[l]? = some "L") (r f : Bool) (h : r = true → f = true → l < b) :
    ∃ nn, (if r = true then pyDel (ns.map some) b else .ok (ns.map some)) = .ok nn ∧
      (if f = true then pyDel nn l else .ok nn) = .ok ((keptBy r f ns).map some) := by
  have hbl : b < ns.length := (List.getElem?_eq_some_iff.1 hb).1
  have hll : l < ns.length := (List.getElem?_eq_some_iff.1 hl).1
  cases r with
  | false =>
    refine ⟨ns.map some, rfl, ?_⟩
    cases f with
    | false => simp [keptBy]
    | true =>
      simp only [if_true]
      rw [pyDel_nat (by simpa using hll), eraseIdx_map', eraseIdx_filter hnd hl]
      congr 2
      apply List.filter_congr
      intro n _
      simp
  | true =>
    refine ⟨(ns.filter fun n => decide (n ≠ "B")).map some, ?_, ?_⟩
    · simp only [if_true]
      rw [pyDel_nat (by simpa using hbl), eraseIdx_map', eraseIdx_filter hnd hb]
    · cases f with
      | false => simp [keptBy]
      | true =>
        have hlb := h rfl rfl
        have hl' : (ns.filter fun n => decide (n ≠ "B"))[l]? = some "L" := by
          rw [← eraseIdx_filter hnd hb, List.getElem?_eraseIdx, if_pos hlb, hl]
        simp only [if_true]
        rw [pyDel_nat (by simpa using (List.getElem?_eq_some_iff.1 hl').1), eraseIdx_map', eraseIdx_filter (hnd.filter _) hl', List.filter_filter]
        congr 2
        apply List.filter_congr
        intro n _
        simp [Bool.and_comm]

theorem positions_nat (n : Nat) (ps : List Nat) (h : ∀ p ∈ ps, p < n) : positions n (ps.map fun (p : Nat) => (p : Int)) = some ps := by
  induction ps with
  | nil => rfl
  | cons p ps ih => simp only [List.map_cons, positions, posOf_nat n p (h p (by simp)), ih fun q hq => h q (by simp [hq])]

/-- **C125, the part that holds.** `x.take(i)` where `i` lists the row-major positions of the points `ps`, on a stream whose axes all have names: the entries are those at the points, the one axis carries the joined names, without batch if
all points lie in one sequence and without length if all lie in one frame. The metadata are those of the sequences that occur, in order of first occurrence, then indexed with the frames that occur in that order, so frames that do not first occur in ascending order raise IndexError.
Where all sequences (all frames) occur, that step is skipped. Missing: negative positions; a single sequence and a single frame, unless length comes before batch and there is a third axis; when all sequences occur, the metadata keep their order whatever the
order of first occurrence. -/
theorem C125_take_partial (junk : Int) (x : STen α) (b l : Nat) (hx : x.Describes b l) (ns : List String) (hns : x.t.names = ns.map some) (ps : List (List Nat)) (hne : ps ≠ [])
    (hps : ∀ p ∈ ps, Inside p x.t.shape) (i : Ten Int) (hi : i.shape = [ps.length]) (hv : ∀ (j : Nat) p, ps[j]? = some p → i.val [j] = ravel x.t.shape p)
    (rows frames : List Nat) (hr : rows = (ps.map fun p => p.getD b 0).eraseDups) (hf : frames = (ps.map fun p => p.getD l 0).eraseDups)
    (h1 : rows.length = 1 → frames.length = 1 → l < b ∧ 3 ≤ ns.length) (w : Nat) (hw : x.t.shape[l]? = some w) :
    ∃ (u : Ten α) (md : Meta), u.shape = [ps.length] ∧ u.names = [some ("_".intercalate (keptBy (decide (rows.length = 1)) (decide (frames.length = 1)) ns))] ∧
      (∀ (j : Nat) p, ps[j]? = some p → u.val [j] = x.t.val p) ∧
      x.md.Selects (if rows.length = x.md.ids.length then List.range x.md.ids.length else rows) md ∧
      (frames.length = w → take junk x (.plain i) = .ok ⟨u, md⟩) ∧
      (frames.length ≠ w → ¬ frames.Pairwise (· ≤ ·) → take junk x (.plain i) = .error .indexError) ∧
      (frames.length ≠ w → frames.Pairwise (· ≤ ·) → ∃ md', take junk x (.plain i) = .ok ⟨u, md'⟩ ∧ md.MapsRows (fun r =>
        { r with
          len := keptData frames r.len
          sos := r.sos && keepsFirst frames
          eos := r.eos && (frames.any fun j => decide ((j : Int) < r.len)) && (frames.any fun j => decide (r.len ≤ (j : Int))) }) md') := by
  have hnn : (x.t.names.filterMap id).Nodup := hx.wf.2.1
  have hnd : ns.Nodup := by
    rw [hns, List.filterMap_map] at hnn
    simpa using hnn
  have hb : ns[b]? = some "B" := by
    have := hx.batch
    rw [hns, List.getElem?_map] at this
    obtain ⟨a, h2, h3⟩ := Option.map_eq_some_iff.1 this
    rw [h2]; exact h3
  have hl : ns[l]? = some "L" := by
    have := hx.length
    rw [hns, List.getElem?_map] at this
    obtain ⟨a, h2, h3⟩ := Option.map_eq_some_iff.1 this
    rw [h2]; exact h3
  have hlen : x.t.names.length = x.t.shape.length := hx.wf.1
  have hlist : i.toList = ps.map fun p => (ravel x.t.shape p : Int) := by
    apply toList_eq
    · simpa using hi
    · intro j v hj
      rw [List.getElem?_map] at hj
      obtain ⟨p, hp, rfl⟩ := Option.map_eq_some_iff.1 hj
      exact hv j p hp
  obtain ⟨u, hu, hsh, hnm, hval⟩ := takeTen_ok x.t.unnamed hps
  change takeTen _ (ps.map fun p => (ravel x.t.shape p : Int)) = _ at hu
  obtain ⟨nn, hd1, hd2⟩ := keptBy_cases ns hnd b l hb hl (decide (rows.length = 1)) (decide (frames.length = 1)) (by
    intro h2 h3; exact (h1 (by simpa using h2) (by simpa using h3)).1)
  have hkept : keptBy (decide (rows.length = 1)) (decide (frames.length = 1)) ns ≠ [] := by
    by_cases h2 : rows.length = 1
    · by_cases h3 : frames.length = 1
      · obtain ⟨hlb, h4⟩ := h1 h2 h3
        intro h5
        have hlt : ns.length ≤ ["B", "L"].length := by
          apply List.Nodup.length_le_of_subset hnd
          intro n hn
          have := List.filter_eq_nil_iff.1 h5 n hn
          simp only [h2, h3, decide_true, Bool.and_true, Bool.and_eq_true, Bool.not_eq_true', decide_eq_false_iff_not, not_and, not_not] at this
          by_cases h6 : n = "B"
          · simp [h6]
          · simp [this h6]
        simp at hlt
        omega
      · refine List.ne_nil_of_mem (a := "L") (List.mem_filter.2 ⟨List.mem_of_getElem? hl, ?_⟩)
        simp [h3]
    · refine List.ne_nil_of_mem (a := "B") (List.mem_filter.2 ⟨List.mem_of_getElem? hb, ?_⟩)
      simp [h2]
  have hempty : "" ∉ keptBy (decide (rows.length = 1)) (decide (frames.length = 1)) ns := by
    intro h2
    have h3 := List.mem_of_mem_filter h2
    refine hx.wf.2.2 ?_
    rw [hns]
    exact List.mem_map.2 ⟨_, h3, rfl⟩
  have hjoin := join_ne' hkept hempty
  have hren : u.rename [some ("_".intercalate (keptBy (decide (rows.length = 1)) (decide (frames.length = 1)) ns))] = .ok { u with names := [some ("_".intercalate (keptBy (decide (rows.length = 1)) (decide (frames.length = 1)) ns))] } := by
    apply rename_ok
    · show 1 = u.shape.length
      rw [hsh]; rfl
    · refine ⟨by simp, fun h2 => hjoin ?_⟩
      exact (Option.some.inj (List.mem_singleton.1 h2)).symm
  have hrl : x.t.shape.getD b 0 = x.md.ids.length := by rw [List.getD_eq_getElem?_getD, hx.rows]; rfl
  have hwl : x.t.shape.getD l 0 = w := by rw [List.getD_eq_getElem?_getD, hw]; rfl
  have hgo : take junk x (.plain i) = (x.md.index2 junk (bList (if rows.length = x.md.ids.length then none else some rows)) (lList (if frames.length = w then none else some frames))).map
      fun md => ⟨{ u with names := [some ("_".intercalate (keptBy (decide (rows.length = 1)) (decide (frames.length = 1)) ns))] }, md⟩ := by
    unfold take inner
    dsimp only [Opd.ten]
    rw [hlist, hu, Except.bind_ok', unravelIndex_ok hps, Except.bind_ok',
      show BATCH = some "B" from rfl, show LENGTH = some "L" from rfl, takeAxis_ok hnn hlen hx.batch, ← hr, hrl]
    simp only [decide_eq_true_eq] at hd1 hd2
    rw [hns, hd1, map_ok', Except.bind_ok', ← hns, takeAxis_ok hnn hlen hx.length, ← hf, hwl, hd2, map_ok', Except.bind_ok']
    dsimp only
    rw [joinNames, mapM_some]
    dsimp only
    rw [Except.bind_ok', hren, Except.bind_ok']
    generalize x.md.index2 junk (bList (if rows.length = x.md.ids.length then none else some rows)) (lList (if frames.length = w then none else some frames)) = r
    cases r <;> rfl
  have hbn : b < x.t.shape.length := by rw [← hlen, hns, List.length_map]; exact (List.getElem?_eq_some_iff.1 hb).1
  have hln : l < x.t.shape.length := by rw [← hlen, hns, List.length_map]; exact (List.getElem?_eq_some_iff.1 hl).1
  obtain ⟨p0, hp0⟩ := List.exists_mem_of_ne_nil ps hne
  have hrin : ∀ r ∈ rows, r < x.md.ids.length := by
    intro r h2
    rw [hr, List.mem_eraseDups] at h2
    obtain ⟨p, hp, rfl⟩ := List.mem_map.1 h2
    rw [← hrl]
    exact C122_mask.inside_lt (hps p hp) hbn
  have hrne : rows ≠ [] := by
    refine List.ne_nil_of_mem (a := p0.getD b 0) ?_
    rw [hr, List.mem_eraseDups]
    exact List.mem_map.2 ⟨p0, hp0, rfl⟩
  have hfne : frames ≠ [] := by
    refine List.ne_nil_of_mem (a := p0.getD l 0) ?_
    rw [hf, List.mem_eraseDups]
    exact List.mem_map.2 ⟨p0, hp0, rfl⟩
  have hidpos : 0 < x.md.ids.length := by
    obtain ⟨r, h2⟩ := List.exists_mem_of_ne_nil rows hrne
    have := hrin r h2
    omega
  have hposs : positions x.md.ids.length (rows.map fun (p : Nat) => (p : Int)) = some rows := positions_nat _ _ hrin
  obtain ⟨md, hmd, hsel⟩ : ∃ md, x.md.indexBatch (bList (if rows.length = x.md.ids.length then none else some rows)) = .ok md ∧
      x.md.Selects (if rows.length = x.md.ids.length then List.range x.md.ids.length else rows) md := by
    by_cases h2 : rows.length = x.md.ids.length
    · rw [if_pos h2, if_pos h2]
      exact C01_index_batch x.md hx.mdwf .none _ rfl
    · rw [if_neg h2, if_neg h2]
      have := C01_index_batch x.md hx.mdwf (.list (rows.map fun (p : Nat) => (p : Int))) (.ok rows) (by rw [batchSel, hposs]; rfl)
      exact this
  have hmlen : md.ids ≠ [] := by
    have := hsel.2.1
    intro h2
    rw [h2] at this
    split at this
    · simp at this; omega
    · exact hrne (List.length_eq_zero_iff.1 this.symm)
  obtain ⟨w', hw', hfit⟩ := hx.fits
  obtain rfl : w' = w := by rw [hw] at hw'; exact (Option.some.inj hw').symm
  have hfit' : ∀ n ∈ md.lengths, 0 ≤ n ∧ n ≤ (w' : Int) := by
    intro n hn
    obtain ⟨k, r, h2, rfl⟩ := row_of_len_mem hsel.1 hn
    rw [hsel.2.2.2 k] at h2
    obtain ⟨j, -, h3⟩ := Option.bind_eq_some_iff.1 h2
    exact hfit _ (row_len_mem h3)
  obtain ⟨hs1, hs2⟩ := frames_spec junk md hsel.1 hmlen w' hfit' frames hfne
  have hgo' : take junk x (.plain i) = (md.indexLength junk (lList (if frames.length = w' then none else some frames))).map
      fun md => ⟨{ u with names := [some ("_".intercalate (keptBy (decide (rows.length = 1)) (decide (frames.length = 1)) ns))] }, md⟩ := by
    rw [hgo]
    unfold index2
    rw [hmd, Except.bind_ok']
  refine ⟨{ u with names := [some ("_".intercalate (keptBy (decide (rows.length = 1)) (decide (frames.length = 1)) ns))] }, md, hsh, rfl, hval, hsel, ?_, ?_, ?_⟩
  · intro h2
    rw [hgo', if_pos h2]
    rfl
  · intro h2 h3
    rw [hgo', if_neg h2]
    show Except.map _ (md.indexLength junk (.list (frames.map fun (p : Nat) => (p : Int)))) = _
    rw [hs2 h3]
    rfl
  · intro h2 h3
    obtain ⟨md', h4, h5⟩ := hs1 h3
    refine ⟨md', ?_, h5⟩
    rw [hgo', if_neg h2]
    show Except.map _ (md.indexLength junk (.list (frames.map fun (p : Nat) => (p : Int)))) = _
    rw [h4]
    rfl

/-- Points of a `(B, F, L)` stream of shape (2, 4, 3): two features of the second sequence at its frames 0 and 2. -/
def exPoints : List (List Nat) := [[1, 0, 0], [1, 2, 2], [1, 0, 2]]
def exTakeIx : Ten Int := ⟨[3], [none], fun ix => [12, 20, 14].getD (ix.headD 0) 0⟩

example : (exPoints.map fun p => p.getD 0 0).eraseDups = [1] ∧ (exPoints.map fun p => p.getD 2 0).eraseDups = [0, 2] ∧ (∀ p ∈ exPoints, Inside p [2, 4, 3]) ∧
    (∀ (j : Nat) p, exPoints[j]? = some p → exTakeIx.val [j] = ravel [2, 4, 3] p) ∧
    ∀ junk, (take junk ⟨exT [2, 4, 3] [some "B", some "F", some "L"], exM2⟩ (.plain exTakeIx)).map (fun y => (y.t.names, y.t.shape, y.t.val [1], y.md.ids, y.md.lengths)) =
      .ok ([some "F_L"], [3], [1, 2, 2], ["b"], [1]) := by
  refine ⟨by decide, by decide, ?_, ?_, fun _ => rfl⟩
  · intro p hp
    simp only [exPoints, List.mem_cons, List.not_mem_nil, or_false] at hp
    rcases hp with rfl | rfl | rfl <;> simp [Inside]
  · intro j p hj
    match j, hj with
    | 0, hj => cases hj; rfl
    | 1, hj => cases hj; rfl
    | 2, hj => cases hj; rfl

/-- **C125 is false of the code**, points in a single sequence and a single frame: on `(B, F, L)` the call is refused, since the batch name is deleted first and the length name then by its old position; on `(B, L, F)` the same mistake deletes the wrong
name: the entries are features, the axis is called length. -/
theorem C125_single_false :
    (∃ (x : STen (List Nat)) (i : Ten Int), x.Describes 0 2 ∧ (∃ t, takeTen x.t.unnamed i.toList = .ok t) ∧ ∀ junk, take junk x (.plain i) = .error .indexError) ∧
    (∃ (x : STen (List Nat)) (i : Ten Int) (u : Ten (List Nat)) (md : Meta), x.Describes 0 1 ∧ x.t.names = [some "B", some "L", some "F"] ∧ (∀ junk, take junk x (.plain i) = .ok ⟨u, md⟩) ∧
      u.val [0] = [1, 0, 1] ∧ u.val [1] = [1, 0, 3] ∧ u.shape = [2] ∧ u.names = [some "L"]) :=
  ⟨⟨_, ⟨[1], [none], fun _ => 12⟩, exBFL_describes, ⟨_, rfl⟩, fun _ => rfl⟩,
    ⟨_, ⟨[2], [none], fun ix => [13, 15].getD (ix.headD 0) 0⟩, _, _, exBLF_describes, rfl, fun _ => rfl, rfl, rfl, rfl, rfl⟩⟩

/-- **C125 is false of the code**, missing axes: on a tensor whose batch or length axis was selected away no call of `take` succeeds, whatever the positions. (The index of the missing axis is never assigned; what
is raised for good positions is UnboundLocalError.) -/
theorem C125_missing_axis_false (junk : Int) (x : STen α) (index : Opd Int) (h : BATCH ∉ x.t.names ∨ LENGTH ∉ x.t.names) (y : STen α) : take junk x index ≠ .ok y := by
  intro he
  unfold take at he
  obtain ⟨out, -, he⟩ := ok_of_bind he
  obtain ⟨subs, -, he⟩ := ok_of_bind he
  obtain ⟨⟨nn, b⟩, h1, he⟩ := ok_of_bind he
  obtain ⟨⟨nn', l⟩, h2, he⟩ := ok_of_bind he
  obtain ⟨joined, -, he⟩ := ok_of_bind he
  obtain ⟨out', -, he⟩ := ok_of_bind he
  have hb : BATCH ∉ x.t.names → b = none := by
    intro hn
    unfold takeAxis at h1
    rw [if_neg hn] at h1
    simp at h1; exact h1.2.symm
  have hl : LENGTH ∉ x.t.names → l = none := by
    intro hn
    unfold takeAxis at h2
    rw [if_neg hn] at h2
    simp at h2; exact h2.2.symm
  rcases h with h | h
  · rw [hb h] at he
    simp at he
  · rw [hl h] at he
    cases b <;> simp at he

example : BATCH ∉ (exT [4, 3] [some "F", some "L"]).names ∧
    take 0 ⟨exT [4, 3] [some "F", some "L"], ⟨["a"], [true], [true], [3], none⟩⟩ (.plain { shape := [2], names := [none], val := fun ix => ([0, 4] : List Int).getD (ix.headD 0) 0 }) =
      .error .unboundLocalError := ⟨by decide, rfl⟩

/-- **C125 is false of the code**, negative positions: torch takes the last entry, the override raises ValueError. -/
theorem C125_negative_false : ∃ (x : STen (List Nat)) (i : Ten Int), x.Describes 0 2 ∧ (∃ t, takeTen x.t.unnamed i.toList = .ok t ∧ t.val [0] = [1, 3, 2] ∧ t.shape = [2]) ∧
    ∀ junk, take junk x (.plain i) = .error .valueError :=
  ⟨_, ⟨[2], [none], fun ix => [-1, 0].getD (ix.headD 0) 0⟩, exBFL_describes, ⟨_, rfl, rfl, rfl⟩, fun _ => rfl⟩

/-- **C125 is false of the code**, order: the order of the sequences in the metadata is that of first occurrence, unless all of them occur. With three sequences, points in the third and the first give `c, a`, points in
the third, the first and the second give `a, b, c`. -/
theorem C125_order_false : ∃ (x : STen (List Nat)) (i j : Ten Int) (u v : Ten (List Nat)) (md md' : Meta), x.Describes 0 1 ∧
    (∀ junk, take junk x (.plain i) = .ok ⟨u, md⟩) ∧ [u.val [0], u.val [1]] = [[2, 0], [0, 0]] ∧ md.ids = ["c", "a"] ∧
    (∀ junk, take junk x (.plain j) = .ok ⟨v, md'⟩) ∧ [v.val [0], v.val [1], v.val [2]] = [[2, 0], [0, 0], [1, 0]] ∧ md'.ids = ["a", "b", "c"] :=
  ⟨⟨exT [3, 2] [some "B", some "L"], ⟨["a", "b", "c"], [true, true, true], [false, false, false], [2, 2, 2], none⟩⟩, ⟨[2], [none], fun ix => [4, 0].getD (ix.headD 0) 0⟩,
    ⟨[3], [none], fun ix => [4, 0, 2].getD (ix.headD 0) 0⟩, _, _, _, _, ⟨by decide, rfl, rfl, by decide, rfl, 2, rfl, by decide⟩, fun _ => rfl, rfl, rfl, fun _ => rfl, rfl, rfl⟩

/-! ## masked_select -/

theorem bix_inside {p s : List Nat} (h : Inside p s) : bix s p = p := by
  unfold bix
  induction h with
  | nil => rfl
  | @cons i n is ns hi h ih =>
    simp only [List.zipWith_cons_cons] at ih ⊢
    rw [ih]
    unfold bcoord
    split
    · congr 1; omega
    · rfl

theorem inside_len {p s : List Nat} (h : Inside p s) : p.length = s.length := h.length_eq

theorem inside_drop {p s : List Nat} (h : Inside p s) (k : Nat) : Inside (p.drop k) (s.drop k) := List.forall₂_drop k h

theorem bsize_self (n : Nat) : bsize n n = some n := by unfold bsize; simp

theorem bshapeR_prefix : ∀ (xs ys : List Nat), bshapeR (ys ++ xs) ys = some (ys ++ xs)
  | [], [] => rfl
  | _ :: _, [] => rfl
  | xs, y :: ys => by simp only [List.cons_append, bshapeR, bsize_self, bshapeR_prefix xs ys]

/-- **C126.** `torch.masked_select(x, mask)` with a mask over the last axes (all of them if `k = 0`): a plain tensor of the entries where the mask is `True`, in row-major order. -/
theorem C126_masked_select (x : STen α) (m : Ten Bool) (k : Nat) (hk : k ≤ x.t.ndim) (hm : m.shape = x.t.shape.drop k) :
    ∃ (t : Ten α) (ps : List (List Nat)), maskedSelect x (.plain m) = .ok t ∧ ps.Pairwise (· < ·) ∧ (∀ p, p ∈ ps ↔ Inside p x.t.shape ∧ m.val (p.drop k) = true) ∧
      t.shape = [ps.length] ∧ t.names = [none] ∧ ∀ (j : Nat) p, ps[j]? = some p → t.val [j] = x.t.val p := by
  have hs : bshapeR x.t.shape.reverse m.shape.reverse = some x.t.shape.reverse := by
    have := bshapeR_prefix (x.t.shape.take k).reverse (x.t.shape.drop k).reverse
    rw [← List.reverse_append, List.take_append_drop] at this
    rw [hm]; exact this
  have hlen : m.shape.length = x.t.shape.length - k := by rw [hm, List.length_drop]
  have hop : ∀ p, Inside p x.t.shape → operandIx m.shape p = p.drop k ∧ operandIx x.t.shape p = p := by
    intro p hp
    have h1 := inside_len hp
    have h2 : k ≤ x.t.shape.length := hk
    unfold operandIx
    constructor
    · rw [hlen, h1, show x.t.shape.length - (x.t.shape.length - k) = k by omega, hm]
      exact bix_inside (inside_drop hp k)
    · rw [h1, Nat.sub_self, List.drop_zero]
      exact bix_inside hp
  unfold maskedSelect inner maskedSelectTen
  simp only [Ten.unnamed, hs, List.reverse_reverse]
  refine ⟨_, (allIx x.t.shape).filter fun p => m.val (operandIx m.shape p), rfl, (allIx_sorted _).filter _, ?_, rfl, rfl, ?_⟩
  · intro p
    rw [List.mem_filter, mem_allIx]
    constructor
    · rintro ⟨h1, h2⟩
      exact ⟨h1, by rw [← (hop p h1).1]; exact h2⟩
    · rintro ⟨h1, h2⟩
      exact ⟨h1, by rw [(hop p h1).1]; exact h2⟩
  · intro j p hj
    have h1 : Inside p x.t.shape := (mem_allIx _ _).1 (List.mem_of_mem_filter (List.mem_of_getElem? hj))
    simp only [List.headD_cons, List.getD_eq_getElem?_getD, hj, Option.getD_some]
    rw [(hop p h1).2]

example : (exMask 4 3).shape = ([2, 4, 3] : List Nat).drop 1 ∧
    (maskedSelect (⟨exT [2, 4, 3] [some "B", some "F", some "L"], exM2⟩ : STen (List Nat)) (.plain (exMask 4 3))).map (fun t => (t.shape, t.val [1], t.val [3])) = .ok ([4], [0, 1, 2], [1, 1, 2]) := by
  refine ⟨rfl, ?_⟩
  decide +kernel

/-- **C126, what is refused.** A mask that has, counted from the last axis, an axis whose size is neither 1 nor that of `x`, which is not 1 either, is a RuntimeError. -/
theorem C126_refused (x : STen α) (m : Ten Bool) (k n n' : Nat) (hx : x.t.shape.reverse[k]? = some n) (hm : m.shape.reverse[k]? = some n') (h : n ≠ n' ∧ n ≠ 1 ∧ n' ≠ 1) :
    maskedSelect x (.plain m) = .error .runtimeError := by
  have key : ∀ (k : Nat) (xs ys : List Nat), xs[k]? = some n → ys[k]? = some n' → bshapeR xs ys = none := by
    intro k
    induction k with
    | zero =>
      intro xs ys h1 h2
      match xs, ys, h1, h2 with
      | a :: xs, c :: ys, h1, h2 =>
        simp only [List.getElem?_cons_zero, Option.some.injEq] at h1 h2
        subst h1 h2
        have : bsize a c = none := by unfold bsize; simp [h.1, h.2.1, h.2.2]
        simp only [bshapeR, this]
    | succ k ih =>
      intro xs ys h1 h2
      match xs, ys, h1, h2 with
      | a :: xs, c :: ys, h1, h2 =>
        simp only [List.getElem?_cons_succ] at h1 h2
        simp only [bshapeR, ih xs ys h1 h2]
        split <;> simp_all
  unfold maskedSelect inner maskedSelectTen
  simp only [Ten.unnamed, key k _ _ hx hm]

example : maskedSelect (⟨exT [2, 4, 3] [some "B", some "F", some "L"], exM2⟩ : STen (List Nat)) (.plain (exMask 5 3)) = .error .runtimeError :=
  C126_refused _ _ 1 4 5 rfl rfl (by decide)

/-! ## StreamTensors as indices -/

/-- **C127 is false of the code.** An index or a mask that is itself a StreamTensor is refused with AttributeError, whatever its metadata, by `gather`, `take_along_dim`, `take`, `index_select` and `masked_select`: it is handed to torch without being decoupled, which
calls the override again with the plain data. -/
theorem C127_stream_index_false (junk : Int) (x : STen α) (dim : Int) (i : STen Nat) (j : STen Int) (m : STen Bool) :
    gatherO junk x dim (.stream i) = .error .attributeError ∧ takeAlongDimO junk x dim (.stream i) = .error .attributeError ∧ take junk x (.stream j) = .error .attributeError ∧
    indexSelectO junk x dim (.stream j) = .error .attributeError ∧ maskedSelect x (.stream m) = .error .attributeError :=
  ⟨rfl, rfl, rfl, rfl, rfl⟩

/-- A concrete case: a mask computed from the stream itself. The same mask as a plain tensor is accepted. -/
example : ∃ (x : STen (List Nat)) (m : STen Bool), x.Describes 0 2 ∧ m.Describes 0 2 ∧ m.md = x.md ∧ maskedSelect x (.stream m) = .error .attributeError ∧
    ∃ t, maskedSelect x (.plain m.t) = .ok t ∧ t.shape = [24] :=
  ⟨⟨exT [2, 4, 3] [some "B", some "F", some "L"], exM2⟩, ⟨⟨[2, 4, 3], [some "B", some "F", some "L"], fun _ => true⟩, exM2⟩, exBFL_describes,
    ⟨by decide, rfl, rfl, by decide, rfl, 3, rfl, by decide⟩, rfl, rfl, _, rfl, rfl⟩

/-- **C127, the part that holds.** `scatter_add` and `scatter_reduce`, which decouple all their arguments, accept an index that is a StreamTensor with the same metadata (without chunk indices): the result is the one for a plain index. Missing: the other functions, chunk indices. -/
theorem C127_scatter_partial (x i : STen α) (b l : Nat) (hx : x.Describes b l) (hc : x.md.chunk = none) (hi : i.md = x.md) (a : Nat) (out : Ten α) (hout : out.ndim = x.t.ndim) :
    scatter [x, i] a (.ok out) = scatter [x] a (.ok out) := by
  obtain ⟨h1, h2⟩ := C93_scatter_partial x [i] b l hx hc (by simpa using hi) a out hout
  obtain ⟨h3, h4⟩ := C93_scatter_partial x [] b l hx hc (by simp) a out hout
  by_cases h : a = b ∨ a = l
  · rw [h1 h, h3 h]
  · rw [not_or] at h
    rw [h2 h.1 h.2, h4 h.1 h.2]

example : ∃ x : STen (List Nat), x.Describes 0 2 ∧ x.md.chunk = none ∧ ∃ y, scatter [x, x] 1 (.ok x.t.unnamed) = .ok (.stream y) := ⟨_, exBFL_describes, rfl, _, rfl⟩

/-! ## frexp -/

/-- **C128.** `torch.frexp(x)`: mantissa and exponent are streams with the names and the metadata of `x`, entry by entry. -/
theorem C128_frexp (f g : α → β) (x : STen α) (b l : Nat) (hx : x.Describes b l) :
    ∃ m e, frexp f g x = .ok (m, e) ∧ m.Describes b l ∧ e.Describes b l ∧ m.md = x.md ∧ e.md = x.md ∧ m.t.names = x.t.names ∧ e.t.names = x.t.names ∧
      m.t.shape = x.t.shape ∧ e.t.shape = x.t.shape ∧ ∀ ix, m.t.val ix = f (x.t.val ix) ∧ e.t.val ix = g (x.t.val ix) := by
  unfold frexp
  have hr : ∀ h : α → β, Ten.rename { x.t.unnamed with val := fun ix => h (x.t.val ix) } x.t.names = .ok ⟨x.t.shape, x.t.names, fun ix => h (x.t.val ix)⟩ := fun h => rename_ok _ _ hx.wf.1 hx.wf.2
  dsimp only
  rw [hr f, Except.bind_ok', hr g, Except.bind_ok']
  refine ⟨_, _, rfl, ?_, ?_, rfl, rfl, rfl, rfl, rfl, rfl, fun _ => ⟨rfl, rfl⟩⟩
  · exact ⟨hx.wf, hx.batch, hx.length, hx.mdwf, hx.rows, hx.fits⟩
  · exact ⟨hx.wf, hx.batch, hx.length, hx.mdwf, hx.rows, hx.fits⟩

example : ∃ m e : STen Nat, frexp List.length (fun p => p.getD 1 7) (⟨exT [2, 4, 3] [some "B", some "F", some "L"], exM2⟩ : STen (List Nat)) = .ok (m, e) ∧
    e.t.val [0, 3, 1] = 3 ∧ m.t.val [0, 3, 1] = 3 ∧ e.md.ids = ["a", "b"] := ⟨_, _, rfl, rfl, rfl, rfl⟩

/-! ## In-place scatters -/

/-- **C129, the part that holds.** `x.scatter_add_(dim, index, src)` along an axis other than batch and length, for metadata without chunk indices and other StreamTensors with the same metadata: the result is a stream with the new data and the names and
metadata of `x`, and `x` has the new data afterwards. Along batch or length `x` has the new data too, the result is plain. Missing: the result is a stream along batch and length; chunk indices; negative `dim`. -/
theorem C129_scatter_inplace_partial (x : STen α) (others : List (STen α)) (b l : Nat) (hx : x.Describes b l) (hc : x.md.chunk = none) (hsame : ∀ y ∈ others, y.md = x.md)
    (a : Nat) (t : Ten α) (ht : t.shape = x.t.shape) :
    (scatterInto x others a (.ok t)).2 = ⟨{ x.t with val := t.val }, x.md⟩ ∧
    (a ≠ b → a ≠ l → (scatterInto x others a (.ok t)).1 = .ok (.stream (scatterInto x others a (.ok t)).2)) ∧
    (a = b ∨ a = l → (scatterInto x others a (.ok t)).1 = .ok (.plain t)) := by
  have hy : ∀ y ∈ others ++ [x], y.md = x.md := by
    intro y h
    rcases List.mem_append.1 h with h | h
    · exact hsame y h
    · rw [List.mem_singleton.1 h]
  obtain ⟨h1, h2⟩ := C93_scatter_partial x (others ++ [x]) b l hx hc hy a t (congrArg List.length ht)
  refine ⟨rfl, fun h3 h4 => ?_, h1⟩
  refine (h2 h3 h4).trans ?_
  show Except.ok (Opd.stream ⟨{ t with names := x.t.names }, x.md⟩) = Except.ok (Opd.stream ⟨{ x.t with val := t.val }, x.md⟩)
  dsimp only
  rw [ht]

/-- **C129 is false of the code.** `x.scatter_add_(2, …)` along the length of a `(B, F, L)` stream writes the new data into `x` and returns a plain tensor instead of `x`; with chunk indices it does so along every axis. -/
theorem C129_scatter_inplace_false :
    (∃ (x : STen (List Nat)) (t u : Ten (List Nat)), x.Describes 0 2 ∧ t.shape = x.t.shape ∧ scatterInto x [] 2 (.ok t) = (.ok (.plain u), ⟨{ x.t with val := t.val }, x.md⟩)) ∧
    (∃ (x : STen (List Nat)) (t u : Ten (List Nat)), x.Describes 0 2 ∧ t.shape = x.t.shape ∧ scatterInto x [] 1 (.ok t) = (.ok (.plain u), ⟨{ x.t with val := t.val }, x.md⟩)) :=
  ⟨⟨⟨exT [2, 4, 3] [some "B", some "F", some "L"], exM2⟩, exT [2, 4, 3] [none, none, none], _, exBFL_describes, rfl, rfl⟩,
    ⟨⟨exT [2, 4, 3] [some "B", some "F", some "L"], exM2c⟩, exT [2, 4, 3] [none, none, none], _, ⟨by decide, rfl, rfl, by decide, rfl, 3, rfl, by decide⟩, rfl, rfl⟩⟩

example : ∃ x : STen (List Nat), x.Describes 0 2 ∧ x.md.chunk = none ∧ (∀ y ∈ [x], y.md = x.md) ∧ (1 : Nat) ≠ 0 ∧ (1 : Nat) ≠ 2 := ⟨_, exBFL_describes, rfl, by simp, by decide, by decide⟩

end DS.Tn
