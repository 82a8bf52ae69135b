import Verif.Spec.ListOrder
import Verif.Props.SyncOrder
import Verif.Props.Loader
import Mathlib.Data.List.Sort
/-!
# C214: the order in which the files of a dataset start
-/

namespace DS.Data

theorem zipIdx_at {β : Type} (ys : List β) (r n : Nat) : ((ys.zipIdx n).filter fun p => decide (p.2 = n + r)).map Prod.fst = ys[r]?.toList := by
  induction ys generalizing r n with
  | nil => simp
  | cons y ys ih =>
    rw [List.zipIdx_cons]
    cases r with
    | zero =>
      rw [List.filter_cons_of_pos (by simp)]
      have : ((ys.zipIdx (n + 1)).filter fun p => decide (p.2 = n + 0)) = [] := by
        refine List.filter_eq_nil_iff.2 fun p hp => ?_
        have := List.le_snd_of_mem_zipIdx hp
        simp only [decide_eq_true_eq]
        omega
      rw [this]
      rfl
    | succ r =>
      rw [List.filter_cons_of_neg (by simp)]
      have := ih r (n + 1)
      rw [show n + 1 + r = n + (r + 1) by omega] at this
      rw [this]
      rfl

theorem everyFrom_drop {β : Type} {r b : Nat} (hr : r < b) (xs : List β) : everyFrom r b xs = xs[r]?.toList ++ (if b ≤ xs.length then everyFrom r b (xs.drop b) else []) := by
  have hb : 0 < b := by omega
  have hcut : ∀ ys : List β, ys.length ≤ b → everyFrom r b ys = ys[r]?.toList := by
    intro ys hy
    have := zipIdx_at ys r 0
    rw [← this]
    unfold everyFrom
    congr 1
    refine List.filter_congr fun p hp => ?_
    have hlt := List.snd_lt_of_mem_zipIdx hp
    simp only [Nat.zero_add] at hlt ⊢
    by_cases h : p.2 = r
    · simp [h]
    · simp only [h, decide_false, Bool.and_eq_false_iff, decide_eq_false_iff_not]
      by_cases hle : r ≤ p.2
      · right
        rw [Nat.mod_eq_of_lt (by omega)]
        omega
      · left; exact hle
  by_cases hlen : b ≤ xs.length
  · rw [if_pos hlen]
    have hsplit : xs = xs.take b ++ xs.drop b := (List.take_append_drop b xs).symm
    have htl : (xs.take b).length = b := by simp [hlen]
    have h1 := hcut (xs.take b) (by omega)
    have hr' : (xs.take b)[r]? = xs[r]? := by rw [List.getElem?_take, if_pos hr]
    rw [hr'] at h1
    rw [← h1]
    conv => lhs; rw [hsplit]
    unfold everyFrom
    rw [List.zipIdx_append, List.filter_append, List.map_append, htl]
    congr 1
    rw [Nat.add_comm 0 b, ← List.map_snd_add_zipIdx_eq_zipIdx (k := 0) (n := b), List.filter_map, List.map_map]
    congr 1
    refine List.filter_congr fun p _ => ?_
    simp only [Function.comp, Prod.map_snd]
    by_cases h : r ≤ p.2
    · have e : (p.2 + b - r) % b = (p.2 - r) % b := by rw [show p.2 + b - r = p.2 - r + b by omega, Nat.add_mod_right]
      simp [h, e, show r ≤ p.2 + b by omega]
    · have : (p.2 + b - r) % b ≠ 0 := by rw [Nat.mod_eq_of_lt (by omega)]; omega
      simp [h, this]
  · rw [if_neg hlen, List.append_nil]
    exact hcut xs (by omega)

theorem everyFrom_get {β : Type} {r b : Nat} (hr : r < b) (xs : List β) (q : Nat) : (everyFrom r b xs)[q]? = xs[r + q * b]? := by
  induction q generalizing xs with
  | zero =>
    rw [everyFrom_drop hr]
    cases h : xs[r]? with
    | none =>
      rw [if_neg (by rw [List.getElem?_eq_none_iff] at h; omega)]
      simp [h]
    | some x => simp [h]
  | succ q ih =>
    rw [everyFrom_drop hr]
    cases h : xs[r]? with
    | none =>
      rw [List.getElem?_eq_none_iff] at h
      rw [if_neg (by omega)]
      simp only [Option.toList_none, List.nil_append, List.getElem?_nil]
      rw [eq_comm, List.getElem?_eq_none_iff]
      omega
    | some x =>
      by_cases hlen : b ≤ xs.length
      · rw [if_pos hlen]
        simp only [Option.toList_some, List.singleton_append, List.getElem?_cons_succ]
        rw [ih, List.getElem?_drop]
        congr 1
        rw [Nat.succ_mul]
        omega
      · rw [if_neg hlen]
        simp only [Option.toList_some, List.append_nil, List.getElem?_cons_succ, List.getElem?_nil]
        rw [eq_comm, List.getElem?_eq_none_iff, Nat.succ_mul]
        omega

section
variable {α : Type}

theorem layer_pair {β : Type} {ss : List (List β)} {r1 r2 k : Nat} {l1 l2 : List β} {s t : β} (h : r1 < r2) (h1 : ss[r1]? = some l1) (h2 : ss[r2]? = some l2)
    (hs : l1[k]? = some s) (ht : l2[k]? = some t) : [s, t].Sublist (layer ss k) := by
  have hp : [l1, l2].Sublist ss := by
    have e : ss = ss.take r2 ++ ss.drop r2 := (List.take_append_drop r2 ss).symm
    rw [e]
    refine List.Sublist.append (l₁ := [l1]) (r₁ := [l2]) ?_ ?_
    · rw [List.singleton_sublist]
      exact List.mem_of_getElem? (i := r1) (by rw [List.getElem?_take, if_pos h]; exact h1)
    · rw [List.singleton_sublist]
      exact List.mem_of_getElem? (i := 0) (by rw [List.getElem?_drop]; exact h2)
  have := hp.filterMap (fun l : List β => l[k]?)
  simpa [layer, hs, ht] using this

theorem zipLongest_pair {β : Type} {ss : List (List β)} {r1 r2 k1 k2 : Nat} {l1 l2 : List β} {s t : β} (h : k1 < k2 ∨ (k1 = k2 ∧ r1 < r2))
    (h1 : ss[r1]? = some l1) (h2 : ss[r2]? = some l2) (hs : l1[k1]? = some s) (ht : l2[k2]? = some t) : [s, t].Sublist (zipLongest ss).flatten := by
  have hk : ∀ {k : Nat} {l : List β} {u : β}, l ∈ ss → l[k]? = some u → k < maxLen ss := by
    intro k l u hl hu
    have := le_maxLen hl
    obtain ⟨h, _⟩ := List.getElem?_eq_some_iff.1 hu
    omega
  have hk1 := hk (List.mem_of_getElem? h1) hs
  have hk2 := hk (List.mem_of_getElem? h2) ht
  have hmem : ∀ {k : Nat} {l : List β} {u : β}, l ∈ ss → l[k]? = some u → u ∈ layer ss k := fun hl hu => mem_layer.2 ⟨_, hl, hu⟩
  unfold zipLongest
  rcases h with h | ⟨rfl, h⟩
  · have e : List.range (maxLen ss) = List.range k2 ++ (List.range (maxLen ss - k2)).map (k2 + ·) := by
      rw [← List.range_add]
      congr 1
      omega
    rw [e, List.map_append, List.flatten_append]
    refine List.Sublist.append (l₁ := [s]) (r₁ := [t]) ?_ ?_
    · rw [List.singleton_sublist, List.mem_flatten]
      exact ⟨layer ss k1, List.mem_map.2 ⟨k1, List.mem_range.2 h, rfl⟩, hmem (List.mem_of_getElem? h1) hs⟩
    · rw [List.singleton_sublist, List.mem_flatten]
      exact ⟨layer ss k2, List.mem_map.2 ⟨k2, List.mem_map.2 ⟨0, List.mem_range.2 (by omega), rfl⟩, rfl⟩, hmem (List.mem_of_getElem? h2) ht⟩
  · refine (layer_pair h h1 h2 hs ht).trans ?_
    refine List.sublist_flatten_of_mem ?_
    exact List.mem_map.2 ⟨k1, List.mem_range.2 hk1, rfl⟩

/-- The first chunk of the `i`-th listed file, in its lane. -/
theorem lane_at (S : String → List (Sample α)) {b : Nat} (hb : 0 < b) (order : List String) {i : Nat} {x : String} {s : Sample α} (hx : order[i]? = some x) (hs : (S x)[0]? = some s) :
    ∃ l, (streamsOf S b order)[i % b]? = some l ∧ l[readBefore S b order i]? = some s := by
  have hr : i % b < b := Nat.mod_lt _ hb
  refine ⟨(everyFrom (i % b) b order).flatMap S, ?_, ?_⟩
  · unfold streamsOf
    rw [List.getElem?_map, List.getElem?_range hr]
    rfl
  · have hi : i % b + i / b * b = i := by rw [Nat.mul_comm]; exact Nat.mod_add_div i b
    have hq : (everyFrom (i % b) b order)[i / b]? = some x := by rw [everyFrom_get hr, hi, hx]
    obtain ⟨hlt, hget⟩ := List.getElem?_eq_some_iff.1 hq
    have hsplit : everyFrom (i % b) b order = (everyFrom (i % b) b order).take (i / b) ++ x :: (everyFrom (i % b) b order).drop (i / b + 1) := by
      conv => lhs; rw [← List.take_append_drop (i / b) (everyFrom (i % b) b order)]
      rw [List.drop_eq_getElem_cons hlt, hget]
    have hoff : (((everyFrom (i % b) b order).take (i / b)).flatMap S).length = readBefore S b order i := by
      rw [List.length_flatMap]
      unfold readBefore
      congr 1
      apply List.ext_getElem?
      intro q
      rw [List.getElem?_map, List.getElem?_map]
      by_cases hqq : q < i / b
      · rw [List.getElem?_take, if_pos hqq, List.getElem?_range hqq, everyFrom_get hr]
        have hlt' : i % b + q * b < order.length := by
          obtain ⟨h, _⟩ := List.getElem?_eq_some_iff.1 hx
          have : q * b ≤ i / b * b := Nat.mul_le_mul_right _ (by omega)
          omega
        rw [List.getElem?_eq_getElem hlt']
        simp [List.getD, List.getElem?_eq_getElem hlt']
      · rw [List.getElem?_take, if_neg hqq, List.getElem?_eq_none (by simpa using hqq)]
        rfl
    rw [hsplit, List.flatMap_append, List.getElem?_append_right (by rw [hoff]), hoff, Nat.sub_self, List.flatMap_cons, List.getElem?_append_left]
    · exact hs
    · exact (List.getElem?_eq_some_iff.1 hs).1

theorem whole_first {x : String} {xs : List (Sample α)} (h : WholeFile x xs) : ∃ s, xs[0]? = some s ∧ s.id = x ∧ s.sos = true := by
  cases xs with
  | nil => exact absurd rfl h.1
  | cons s xs =>
    have := h.2 0 s rfl
    exact ⟨s, rfl, this.1, this.2.1.2 rfl⟩

theorem starts_pair {l : List (Sample α)} {s t : Sample α} (h : [s, t].Sublist l) (hs : s.sos = true) (ht : t.sos = true) : [s.id, t.id].Sublist (starts l) := by
  have := (h.filter fun s => s.sos).map Sample.id
  simpa [starts, hs, ht] using this

theorem starts_count {x : String} {l : List (Sample α)} (h : WholeFile x (ofFile x l)) : (starts l).count x = 1 := by
  have e : (starts l).count x = ((ofFile x l).filter fun s => s.sos).length := by
    unfold starts ofFile
    rw [List.count_eq_countP, List.countP_map, List.countP_eq_length_filter, List.filter_filter, List.filter_filter]
    congr 1
    refine List.filter_congr fun s _ => ?_
    simp only [Function.comp, Bool.and_comm]
    rfl
  rw [e]
  cases hl : ofFile x l with
  | nil => rw [hl] at h; exact absurd rfl h.1
  | cons s m =>
    rw [hl] at h
    have hs : s.sos = true := (h.2 0 s rfl).2.1.2 rfl
    rw [List.filter_cons_of_pos hs]
    have : m.filter (fun s => s.sos) = [] := by
      refine List.filter_eq_nil_iff.2 fun t ht => ?_
      obtain ⟨k, hk⟩ := List.mem_iff_getElem?.1 ht
      have := (h.2 (k + 1) t (by simpa using hk)).2.1
      simp only [Nat.add_eq_zero_iff] at this
      simp at this
      simp [this]
    rw [this]
    rfl

/-- **C214 is false of the code.** Files `a` to `e` in batches of two, `b` with three chunks and the others with one, not shuffled: `e` starts before `d`, since every second file is read by the same lane. -/
theorem C214_order_false : ((Dataset.iter (fun f => (List.replicate (if f = "b" then 3 else 1) (0 : Int), 1))
      ⟨["a", "b", "c", "d", "e"], 1, none, none, 2, false, false, [], []⟩ ["a", "b", "c", "d", "e"]).map fun bs => starts bs.flatten) = .ok ["a", "b", "c", "e", "d"] := by
  decide +kernel

/-- **C214 is false of the loader even with batches of one file**: `split` (stream_dataset.py:276 and `partition_by_sum`, 45) sorts the files by their number of chunks, so that of `a` with two chunks and `b` with one, `b` starts first. -/
theorem C214_loader_false : ((loader (fun f => (List.replicate (if f = "a" then 2 else 1) (0 : Int), 1)) ⟨1, 1, false, false, false⟩
      ⟨["a", "b"], 1, none, none, 1, false, false, [("a", 2, 1), ("b", 1, 1)], [("a", 2), ("b", 1)]⟩ [1, 0] id 20).map fun r => (starts r.1.flatten, r.2)) =
    .ok (["b", "a"], .returned) := by
  decide +kernel

/-- **C214, where it holds.** Without drop_last every file starts once, and of two files the one whose lane has read fewer chunks before it starts first, or if they are equally many the one whose lane comes first in the
batch; this determines the order. By C212 the synchronised batches start the files in this order too. Missing: the order in which the files are listed (`C214_order_false`). -/
theorem C214_order_partial (f : String → Py (List (Sample α))) (S : String → List (Sample α)) (b : Nat) (hb : 0 < b) (order : List String) (hn : order.Nodup)
    (hf : ∀ x ∈ order, f x = .ok (S x)) (hS : ∀ x ∈ order, WholeFile x (S x)) :
    ∃ bs, getStreams f b false order = .ok bs ∧ (starts bs.flatten).Perm order ∧
      ∀ i j x y, order[i]? = some x → order[j]? = some y → Earlier S b order i j → [x, y].Sublist (starts bs.flatten) := by
  have hS' : ∀ x ∈ order, ∀ s ∈ S x, s.id = x := fun x hx => whole_id (hS x hx)
  refine ⟨zipLongest (streamsOf S b order), by rw [getStreams_ok f S b false order hf]; rfl, ?_, ?_⟩
  · rw [List.perm_iff_count]
    intro x
    by_cases hx : x ∈ order
    · rw [List.count_eq_one_of_mem hn hx]
      refine starts_count ?_
      rw [streams_ofFile S b hb order hn hS' x hx]
      exact hS x hx
    · rw [List.count_eq_zero.2 hx, List.count_eq_zero]
      intro hm
      obtain ⟨s, hs, rfl⟩ := List.mem_map.1 hm
      exact hx (mem_streams_flatten S b order hS' s (List.mem_filter.1 hs).1)
  · intro i j x y hi hj he
    obtain ⟨s, hs, rfl, hs1⟩ := whole_first (hS x (List.mem_of_getElem? hi))
    obtain ⟨t, ht, rfl, ht1⟩ := whole_first (hS y (List.mem_of_getElem? hj))
    obtain ⟨l1, e1, g1⟩ := lane_at S hb order hi hs
    obtain ⟨l2, e2, g2⟩ := lane_at S hb order hj ht
    exact starts_pair (zipLongest_pair he e1 e2 g1 g2) hs1 ht1

theorem readBefore_const (S : String → List (Sample α)) (b : Nat) (order : List String) (N : Nat) (hN : ∀ x ∈ order, (S x).length = N) (i : Nat) (hi : i < order.length) :
    readBefore S b order i = (i / b) * N := by
  unfold readBefore
  have : ((List.range (i / b)).map fun q => (S (order.getD (i % b + q * b) "")).length) = List.replicate (i / b) N := by
    rw [List.eq_replicate_iff]
    refine ⟨by simp, fun n hn => ?_⟩
    obtain ⟨q, hq, rfl⟩ := List.mem_map.1 hn
    rw [List.mem_range] at hq
    have hlt : i % b + q * b < order.length := by
      have h1 : q * b ≤ i / b * b := Nat.mul_le_mul_right _ (by omega)
      have h2 : i % b + i / b * b = i := by rw [Nat.mul_comm]; exact Nat.mod_add_div i b
      omega
    refine hN _ ?_
    rw [List.getD, List.getElem?_eq_getElem hlt, Option.getD_some]
    exact List.getElem_mem hlt
  rw [this, List.sum_replicate]
  simp

theorem pair_antisymm {β : Type} {l : List β} (hn : l.Nodup) {x y : β} (h1 : [x, y].Sublist l) (h2 : [y, x].Sublist l) : False := by
  induction l with
  | nil => cases h1
  | cons z l ih =>
    rw [List.nodup_cons] at hn
    cases h1 with
    | cons _ h1 =>
      cases h2 with
      | cons _ h2 => exact ih hn.2 h1 h2
      | cons_cons _ _ => exact hn.1 (h1.subset (by simp))
    | cons_cons _ h1 =>
      cases h2 with
      | cons _ h2 => exact hn.1 (h2.subset (by simp))
      | cons_cons _ _ => exact hn.1 (h1.subset (by simp))

theorem eq_of_pairs {β : Type} {l m : List β} (hp : l.Perm m) (hn : m.Nodup) (h : ∀ (i j : Nat) x y, i < j → m[i]? = some x → m[j]? = some y → [x, y].Sublist l) : l = m := by
  refine List.Perm.eq_of_pairwise (le := fun x y => [x, y].Sublist l) (fun x y _ _ h1 h2 => (pair_antisymm (hp.nodup_iff.2 hn) h1 h2).elim) ?_ ?_ hp
  · exact List.pairwise_iff_forall_sublist.2 fun {x y} h => h
  · rw [List.pairwise_iff_getElem]
    intro i j hi hj hij
    exact h i j _ _ hij (List.getElem?_eq_getElem hi) (List.getElem?_eq_getElem hj)

/-- The files of `C214_order_false`: no chunk was read before `a` and `b`, one before `c`, three before `d` and two before `e`. -/
example : (List.range 5).map (readBefore (fun x => exFile x (if x = "b" then 3 else 1)) 2 ["a", "b", "c", "d", "e"]) = [0, 0, 1, 3, 2] ∧
    Earlier (fun x => exFile x (if x = "b" then 3 else 1)) 2 ["a", "b", "c", "d", "e"] 4 3 ∧
    ["e", "d"].Sublist (starts (zipLongest (streamsOf (fun x => exFile x (if x = "b" then 3 else 1)) 2 ["a", "b", "c", "d", "e"])).flatten) := by
  refine ⟨by decide +kernel, Or.inl (by decide +kernel), ?_⟩
  rw [show starts (zipLongest (streamsOf (fun x => exFile x (if x = "b" then 3 else 1)) 2 ["a", "b", "c", "d", "e"])).flatten = ["a", "b", "c", "e", "d"] by decide +kernel]
  decide

/-- **C214, where it holds:** the files start in the order in which they are listed if the batch size is 1 or all files have the same number of chunks. Missing: other datasets (`C214_order_false`, `C214_order_partial`). -/
theorem C214_equal_partial (f : String → Py (List (Sample α))) (S : String → List (Sample α)) (b : Nat) (hb : 0 < b) (order : List String) (hn : order.Nodup)
    (hf : ∀ x ∈ order, f x = .ok (S x)) (hS : ∀ x ∈ order, WholeFile x (S x)) (N : Nat) (hN : b = 1 ∨ ∀ x ∈ order, (S x).length = N) :
    ∃ bs, getStreams f b false order = .ok bs ∧ starts bs.flatten = order := by
  obtain ⟨bs, h1, h2, h3⟩ := C214_order_partial f S b hb order hn hf hS
  refine ⟨bs, h1, eq_of_pairs h2 hn fun i j x y hij hi hj => h3 i j x y hi hj ?_⟩
  obtain ⟨hil, _⟩ := List.getElem?_eq_some_iff.1 hi
  obtain ⟨hjl, _⟩ := List.getElem?_eq_some_iff.1 hj
  rcases hN with rfl | hN
  · left
    unfold readBefore
    simp only [Nat.div_one, Nat.mod_one, Nat.mul_one, Nat.zero_add]
    have e : j = i + (j - i - 1 + 1) := by omega
    rw [e, List.range_add, List.map_append, List.sum_append, List.range_succ_eq_map]
    have : 0 < (S (order.getD i "")).length := by
      rw [List.getD, List.getElem?_eq_getElem hil, Option.getD_some]
      exact List.length_pos_iff.2 (hS _ (List.getElem_mem hil)).1
    simp only [List.map_cons, List.sum_cons, Nat.add_zero]
    omega
  · unfold Earlier
    rw [readBefore_const S b order N hN i hil, readBefore_const S b order N hN j hjl]
    have hNp : 0 < N := by
      rw [← hN x (List.mem_of_getElem? hi)]
      exact List.length_pos_iff.2 (hS x (List.mem_of_getElem? hi)).1
    have hle : i / b ≤ j / b := Nat.div_le_div_right (by omega)
    rcases Nat.lt_or_eq_of_le hle with h | h
    · left
      exact Nat.mul_lt_mul_of_pos_right h hNp
    · right
      refine ⟨by rw [h], ?_⟩
      have h4 := Nat.mod_add_div i b
      have h5 := Nat.mod_add_div j b
      rw [h] at h4
      omega

/-- Five files of two chunks in batches of two, and three files of different lengths in batches of one: they start as they are listed. -/
example : starts (zipLongest (streamsOf (fun x => exFile x 2) 2 ["d", "b", "e", "a", "c"])).flatten = ["d", "b", "e", "a", "c"] ∧
    starts (zipLongest (streamsOf (fun x => exFile x (if x = "b" then 3 else 1)) 1 ["c", "b", "a"])).flatten = ["c", "b", "a"] := by decide +kernel

/-- The same for a dataset: not shuffled (`order = d.files`), it starts the files as listed. Missing: see `C214_equal_partial`. -/
theorem C214_dataset_partial (disk : Disk α) (d : Dataset α) (hd : d.dropLast = false) (hb : 0 < d.batchSize) (hn : d.files.Nodup) (S : String → List (Sample α))
    (hf : ∀ x ∈ d.files, processData disk d x = .ok (S x)) (hS : ∀ x ∈ d.files, WholeFile x (S x)) (N : Nat) (hN : d.batchSize = 1 ∨ ∀ x ∈ d.files, (S x).length = N) :
    ∃ bs, d.iter disk d.files = .ok bs ∧ starts bs.flatten = d.files := by
  unfold Dataset.iter
  rw [hd]
  exact C214_equal_partial _ S _ (by omega) _ hn hf hS N (hN.imp (by omega) id)

example : ((Dataset.iter (fun f => (List.replicate (if f = "b" then 4 else 3) (0 : Int), 1)) ⟨["c", "b", "a"], 2, none, none, 2, false, false, [], []⟩ ["c", "b", "a"]).map
    fun bs => (bs.map List.length, starts bs.flatten)) = .ok ([2, 2, 1, 1], ["c", "b", "a"]) := by decide +kernel

end
end DS.Data
