import Verif.Props.Dataset
/-!
# C75, C76: the batches of one dataset
-/

namespace DS.Data

section
variable {α : Type}

theorem chainStreams_ok (f : String → Py (List (Sample α))) (S : String → List (Sample α)) (l : List String) (h : ∀ x ∈ l, f x = .ok (S x)) :
    chainStreams f l = .ok (l.flatMap S) := by
  induction l with
  | nil => rfl
  | cons x xs ih =>
    unfold chainStreams
    rw [h x (by simp), Except.bind_ok', ih (fun y hy => h y (by simp [hy])), Except.bind_ok']
    rfl

theorem allStreams_ok (f : String → Py (List (Sample α))) (S : String → List (Sample α)) (ls : List (List String)) (h : ∀ l ∈ ls, ∀ x ∈ l, f x = .ok (S x)) :
    allStreams f ls = .ok (ls.map fun l => l.flatMap S) := by
  induction ls with
  | nil => rfl
  | cons x xs ih =>
    unfold allStreams
    rw [chainStreams_ok f S x (h x (by simp)), Except.bind_ok', ih (fun y hy => h y (by simp [hy])), Except.bind_ok']
    rfl

/-- The streams of a dataset with `b` batch elements. -/
def streamsOf (S : String → List (Sample α)) (b : Nat) (order : List String) : List (List (Sample α)) :=
  (List.range b).map fun i => (everyFrom i b order).flatMap S

theorem getStreams_ok (f : String → Py (List (Sample α))) (S : String → List (Sample α)) (b : Nat) (drop : Bool) (order : List String)
    (h : ∀ x ∈ order, f x = .ok (S x)) :
    getStreams f b drop order = if drop then forceLast (zipShort (streamsOf S b order)) else .ok (zipLongest (streamsOf S b order)) := by
  unfold getStreams
  rw [allStreams_ok f S, Except.bind_ok', List.map_map]
  · rfl
  · intro l hl x hx
    obtain ⟨i, _, rfl⟩ := List.mem_map.1 hl
    exact h x ((everyFrom_sublist i b order).subset hx)

theorem whole_id {x : String} {xs : List (Sample α)} (h : WholeFile x xs) : ∀ s ∈ xs, s.id = x := by
  intro s hs
  obtain ⟨k, hk, rfl⟩ := List.getElem_of_mem hs
  exact (h.2 k _ (by simp [hk])).1

theorem ofFile_self {x : String} {xs : List (Sample α)} (h : ∀ s ∈ xs, s.id = x) : ofFile x xs = xs :=
  List.filter_eq_self.2 fun s hs => by simp [h s hs]

theorem ofFile_none {x : String} {xs : List (Sample α)} (h : ∀ s ∈ xs, s.id ≠ x) : ofFile x xs = [] :=
  List.filter_eq_nil_iff.2 fun s hs => by simp [h s hs]

theorem ofFile_append (x : String) (xs ys : List (Sample α)) : ofFile x (xs ++ ys) = ofFile x xs ++ ofFile x ys := List.filter_append ..

/-- The samples of file `x` in a concatenation of the samples of distinct files. -/
theorem ofFile_flatMap (S : String → List (Sample α)) (l : List String) (hn : l.Nodup) (hS : ∀ y ∈ l, ∀ s ∈ S y, s.id = y) (x : String) :
    ofFile x (l.flatMap S) = if x ∈ l then S x else [] := by
  induction l with
  | nil => rfl
  | cons y ys ih =>
    rw [List.nodup_cons] at hn
    rw [List.flatMap_cons, ofFile_append, ih hn.2 (fun z hz => hS z (by simp [hz]))]
    by_cases hxy : x = y
    · subst hxy
      rw [ofFile_self (hS x (by simp)), if_neg hn.1, if_pos (by simp), List.append_nil]
    · rw [ofFile_none (fun s hs => by rw [hS y (by simp) s hs]; exact fun h => hxy h.symm), List.nil_append]
      by_cases hx : x ∈ ys <;> simp [hx, hxy]

theorem streamsOf_ids (S : String → List (Sample α)) (b : Nat) (order : List String) (hS : ∀ x ∈ order, ∀ s ∈ S x, s.id = x) (i : Nat)
    (s : Sample α) (h : s ∈ (everyFrom i b order).flatMap S) : s.id ∈ everyFrom i b order := by
  obtain ⟨x, hx, hs⟩ := List.mem_flatMap.1 h
  rw [hS x ((everyFrom_sublist i b order).subset hx) s hs]
  exact hx

theorem range_split {i b : Nat} (h : i < b) : ∃ pre post, List.range b = pre ++ i :: post ∧ ∀ j, (j ∈ pre ∨ j ∈ post) → j ≠ i ∧ j < b := by
  obtain ⟨pre, post, hp⟩ := List.append_of_mem (List.mem_range.2 h)
  refine ⟨pre, post, hp, ?_⟩
  have hn : (pre ++ i :: post).Nodup := hp ▸ List.nodup_range
  have hm : ∀ j, (j ∈ pre ∨ j ∈ post) → j < b := by
    intro j hj
    rw [← List.mem_range, hp]
    rcases hj with h | h <;> simp [h]
  intro j hj
  refine ⟨?_, hm j hj⟩
  rintro rfl
  rw [List.nodup_append, List.nodup_cons] at hn
  rcases hj with h | h
  · exact hn.2.2 j h j (by simp) rfl
  · exact hn.2.1.1 h

theorem streams_ofFile (S : String → List (Sample α)) (b : Nat) (hb : 0 < b) (order : List String) (hn : order.Nodup)
    (hS : ∀ x ∈ order, ∀ s ∈ S x, s.id = x) (x : String) (hx : x ∈ order) :
    ofFile x (zipLongest (streamsOf S b order)).flatten = S x := by
  obtain ⟨i, hi, hxi⟩ := everyFrom_exists hb hx
  obtain ⟨pre, post, hr, hne⟩ := range_split hi
  have hother : ∀ j, (j ∈ pre ∨ j ∈ post) → ∀ s ∈ (everyFrom j b order).flatMap S, s.id ≠ x := by
    rintro j hj s hs rfl
    obtain ⟨h1, h2⟩ := hne j hj
    exact h1 (everyFrom_unique hn h2 hi (streamsOf_ids S b order hS j s hs) hxi)
  unfold ofFile streamsOf
  rw [hr, List.map_append, List.map_cons, filter_eq_flatMap', zipLongest_flatMap, ← filter_eq_flatMap']
  · show ofFile x _ = _
    rw [ofFile_flatMap S _ ((everyFrom_sublist i b order).nodup hn) (fun y hy => hS y ((everyFrom_sublist i b order).subset hy)), if_pos hxi]
  · intro l hl s hs
    obtain ⟨j, hj, rfl⟩ := List.mem_map.1 hl
    simp [hother j (Or.inl hj) s hs]
  · intro l hl s hs
    obtain ⟨j, hj, rfl⟩ := List.mem_map.1 hl
    simp [hother j (Or.inr hj) s hs]

theorem mem_zipLongest {β : Type} {ss : List (List β)} {b : List β} (h : b ∈ zipLongest ss) : ∃ k, k < maxLen ss ∧ b = layer ss k := by
  obtain ⟨k, hk, rfl⟩ := List.mem_map.1 h
  exact ⟨k, List.mem_range.1 hk, rfl⟩

theorem mem_streams_flatten (S : String → List (Sample α)) (b : Nat) (order : List String) (hS : ∀ x ∈ order, ∀ s ∈ S x, s.id = x) (s : Sample α)
    (h : s ∈ (zipLongest (streamsOf S b order)).flatten) : s.id ∈ order := by
  obtain ⟨l, hl, hs⟩ := List.mem_flatten.1 h
  obtain ⟨k, _, rfl⟩ := mem_zipLongest hl
  obtain ⟨t, ht, hs⟩ := mem_layer.1 hs
  obtain ⟨i, _, rfl⟩ := List.mem_map.1 ht
  exact (everyFrom_sublist i b order).subset (streamsOf_ids S b order hS i s (List.mem_of_getElem? hs))

/-- Distinct streams hold distinct files. -/
theorem streamsOf_pairwise (S : String → List (Sample α)) (b : Nat) (order : List String) (hn : order.Nodup) (hS : ∀ x ∈ order, ∀ s ∈ S x, s.id = x) :
    (streamsOf S b order).Pairwise fun s t => ∀ a ∈ s, ∀ c ∈ t, a.id ≠ c.id := by
  unfold streamsOf
  rw [List.pairwise_map]
  have : (List.range b).Pairwise fun i j => i ≠ j ∧ i < b ∧ j < b := by
    rw [List.pairwise_iff_getElem]
    intro i j hi hj hij
    simp at hi hj ⊢
    omega
  refine this.imp ?_
  rintro i j ⟨hij, hi, hj⟩ a ha c hc heq
  have h1 := streamsOf_ids S b order hS i a ha
  have h2 := streamsOf_ids S b order hS j c hc
  rw [← heq] at h2
  exact hij (everyFrom_unique hn hi hj h1 h2)

/-- C75: without `drop_last`, for distinct files in any (shuffled) order and any batch size, the batches together hold every file's samples exactly once
and in order and nothing else; no batch is empty, exceeds the batch size or holds a file twice; batches never grow. -/
theorem C75_exactly_once (f : String → Py (List (Sample α))) (S : String → List (Sample α)) (b : Nat) (hb : 0 < b) (order : List String) (hn : order.Nodup)
    (hf : ∀ x ∈ order, f x = .ok (S x)) (hS : ∀ x ∈ order, WholeFile x (S x)) :
    ∃ bs, getStreams f b false order = .ok bs ∧ (∀ x ∈ order, ofFile x bs.flatten = S x) ∧ (∀ s ∈ bs.flatten, s.id ∈ order) ∧
      (∀ a ∈ bs, a ≠ [] ∧ a.length ≤ b ∧ (a.map Sample.id).Nodup) ∧ bs.Pairwise fun a a' => a'.length ≤ a.length := by
  have hS' : ∀ x ∈ order, ∀ s ∈ S x, s.id = x := fun x hx => whole_id (hS x hx)
  refine ⟨zipLongest (streamsOf S b order), ?_, fun x hx => streams_ofFile S b hb order hn hS' x hx, mem_streams_flatten S b order hS', ?_, ?_⟩
  · rw [getStreams_ok f S b false order hf]; rfl
  · intro a ha
    obtain ⟨k, hk, rfl⟩ := mem_zipLongest ha
    refine ⟨layer_ne_nil _ _ hk, ?_, layer_nodup _ _ (streamsOf_pairwise S b order hn hS') k⟩
    refine Nat.le_trans (layer_length_le _ _) ?_
    simp [streamsOf]
  · unfold zipLongest
    rw [List.pairwise_map]
    refine (List.pairwise_lt_range).imp ?_
    intro i j hij
    exact layer_length_anti _ (Nat.le_of_lt hij)

/-- C75 for datasets: whenever `process_data` succeeds on every file with positive chunk size. -/
theorem C75_dataset (disk : Disk α) (d : Dataset α) (hd : d.dropLast = false) (hb : 0 < d.batchSize) (order : List String) (hp : order.Perm d.files) (hn : d.files.Nodup)
    (S : String → List (Sample α)) (hf : ∀ x ∈ d.files, processData disk d x = .ok (S x)) (hS : ∀ x ∈ d.files, WholeFile x (S x)) :
    ∃ bs, d.iter disk order = .ok bs ∧ (∀ x ∈ d.files, ofFile x bs.flatten = S x) ∧ (∀ s ∈ bs.flatten, s.id ∈ d.files) ∧
      (∀ a ∈ bs, a ≠ [] ∧ a.length ≤ d.batchSize ∧ (a.map Sample.id).Nodup) ∧ bs.Pairwise fun a a' => a'.length ≤ a.length := by
  obtain ⟨bs, h1, h2, h3, h4, h5⟩ := C75_exactly_once (processData disk d) S d.batchSize.toNat (by omega) order (hp.nodup_iff.2 hn)
    (fun x hx => hf x (hp.mem_iff.1 hx)) (fun x hx => hS x (hp.mem_iff.1 hx))
  refine ⟨bs, ?_, fun x hx => h2 x (hp.mem_iff.2 hx), fun s hs => hp.mem_iff.1 (h3 s hs), ?_, h5⟩
  · unfold Dataset.iter
    rw [hd, h1]
  · intro a ha
    obtain ⟨h6, h7, h8⟩ := h4 a ha
    exact ⟨h6, by omega, h8⟩

/-! ## C76: drop_last -/

theorem forceLast_snoc (bs : List (List (Sample α))) (b : List (Sample α)) : forceLast (bs ++ [b]) = .ok (bs ++ [b.map Sample.end]) := by
  induction bs with
  | nil => rfl
  | cons a as ih =>
    cases as with
    | nil => rfl
    | cons a' as =>
      show (forceLast (a' :: as ++ [b]) >>= fun r => Except.ok (a :: r)) = _
      rw [ih, Except.bind_ok']
      rfl

theorem flatMap_locate (S : String → List (Sample α)) (l : List String) (hS : ∀ x ∈ l, WholeFile x (S x)) (k : Nat) (s : Sample α)
    (h : (l.flatMap S)[k]? = some s) :
    ∃ e, k ≤ e ∧ (∀ j, k ≤ j → j ≤ e → ∃ t, (l.flatMap S)[j]? = some t ∧ t.id = s.id) ∧ ∃ t, (l.flatMap S)[e]? = some t ∧ t.eos = true := by
  induction l generalizing k with
  | nil => simp at h
  | cons x xs ih =>
    rw [List.flatMap_cons] at h ⊢
    by_cases hk : k < (S x).length
    · have hw := hS x (by simp)
      rw [List.getElem?_append_left hk] at h
      have hid := (hw.2 k s h).1
      refine ⟨(S x).length - 1, by omega, ?_, ?_⟩
      · intro j _ hj
        have hj' : j < (S x).length := by omega
        refine ⟨(S x)[j], by rw [List.getElem?_append_left hj']; simp [hj'], ?_⟩
        rw [hid, (hw.2 j _ (List.getElem?_eq_getElem hj')).1]
      · have hj' : (S x).length - 1 < (S x).length := by omega
        refine ⟨(S x)[(S x).length - 1], by rw [List.getElem?_append_left hj']; simp [hj'], ?_⟩
        rw [(hw.2 _ _ (List.getElem?_eq_getElem hj')).2.2]
        omega
    · have hk' : (S x).length ≤ k := by omega
      rw [List.getElem?_append_right hk'] at h
      obtain ⟨e, he, h1, t, ht, hte⟩ := ih (fun y hy => hS y (by simp [hy])) _ h
      refine ⟨e + (S x).length, by omega, ?_, t, ?_, hte⟩
      · intro j hj hje
        obtain ⟨t, ht, hti⟩ := h1 (j - (S x).length) (by omega) (by omega)
        exact ⟨t, by rw [List.getElem?_append_right (by omega)]; exact ht, hti⟩
      · rw [List.getElem?_append_right (by omega), Nat.add_sub_cancel]
        exact ht

/-- C76: with `drop_last`, every batch that is delivered has exactly `b` samples, and every file of which a sample is delivered has a sample that
ends it. (Files may repeat.) -/
theorem C76_full_and_ended (f : String → Py (List (Sample α))) (S : String → List (Sample α)) (b : Nat) (order : List String)
    (hf : ∀ x ∈ order, f x = .ok (S x)) (hS : ∀ x ∈ order, WholeFile x (S x)) (bs : List (List (Sample α)))
    (h : getStreams f b true order = .ok bs) :
    bs ≠ [] ∧ (∀ a ∈ bs, a.length = b) ∧ ∀ s ∈ bs.flatten, ∃ t ∈ bs.flatten, t.id = s.id ∧ t.eos = true := by
  rw [getStreams_ok f S b true order hf, if_pos rfl] at h
  have hlen : (streamsOf S b order).length = b := by simp [streamsOf]
  cases hn : minLen (streamsOf S b order) with
  | zero =>
    unfold zipShort at h
    rw [hn] at h
    cases h
  | succ n =>
    have hz : zipShort (streamsOf S b order) = (List.range n).map (layer (streamsOf S b order)) ++ [layer (streamsOf S b order) n] := by
      unfold zipShort
      rw [hn, List.range_succ, List.map_append]
      rfl
    rw [hz, forceLast_snoc] at h
    injection h with h
    subst h
    have hfull : ∀ k, k ≤ n → (layer (streamsOf S b order) k).length = b := by
      intro k hk
      rw [layer_length_full _ _ (by omega), hlen]
    refine ⟨by simp, ?_, ?_⟩
    · intro a ha
      rcases List.mem_append.1 ha with ha | ha
      · obtain ⟨k, hk, rfl⟩ := List.mem_map.1 ha
        exact hfull k (by have := List.mem_range.1 hk; omega)
      · obtain rfl := List.mem_singleton.1 ha
        rw [List.length_map]
        exact hfull n (Nat.le_refl _)
    · intro s hs
      have hpos : ∃ k, k ≤ n ∧ ∃ s', s' ∈ layer (streamsOf S b order) k ∧ s'.id = s.id := by
        rw [List.flatten_append, List.mem_append] at hs
        rcases hs with hs | hs
        · obtain ⟨l, hl, hs⟩ := List.mem_flatten.1 hs
          obtain ⟨k, hk, rfl⟩ := List.mem_map.1 hl
          exact ⟨k, by have := List.mem_range.1 hk; omega, s, hs, rfl⟩
        · rw [List.flatten_singleton] at hs
          obtain ⟨s', hs', rfl⟩ := List.mem_map.1 hs
          exact ⟨n, Nat.le_refl _, s', hs', rfl⟩
      obtain ⟨k, hk, s', hs', hid⟩ := hpos
      obtain ⟨st, hst, hg⟩ := mem_layer.1 hs'
      have hst' := hst
      obtain ⟨i, _, rfl⟩ := List.mem_map.1 hst'
      obtain ⟨e, hke, h1, t, ht, hte⟩ := flatMap_locate S (everyFrom i b order) (fun y hy => hS y ((everyFrom_sublist i b order).subset hy)) k s' hg
      by_cases he : e < n
      · obtain ⟨t', ht', hti⟩ := h1 e hke (Nat.le_refl _)
        rw [ht] at ht'
        injection ht' with ht'
        subst ht'
        refine ⟨t, ?_, hti.trans hid, hte⟩
        rw [List.flatten_append, List.mem_append]
        left
        exact List.mem_flatten.2 ⟨_, List.mem_map.2 ⟨e, List.mem_range.2 he, rfl⟩, mem_layer.2 ⟨_, hst, ht⟩⟩
      · obtain ⟨t', ht', hti⟩ := h1 n hk (by omega)
        refine ⟨t'.end, ?_, hti.trans hid, rfl⟩
        rw [List.flatten_append, List.mem_append]
        right
        rw [List.flatten_singleton]
        exact List.mem_map_of_mem (mem_layer.2 ⟨_, hst, ht'⟩)

/-- With `drop_last`, iterating raises RuntimeError exactly when there is no full batch, i.e. when there are fewer files than batch elements. -/
theorem C76_no_batch (f : String → Py (List (Sample α))) (S : String → List (Sample α)) (b : Nat) (hb : 0 < b) (order : List String)
    (hf : ∀ x ∈ order, f x = .ok (S x)) (hS : ∀ x ∈ order, S x ≠ []) :
    getStreams f b true order = .error .runtimeError ↔ order.length < b := by
  rw [getStreams_ok f S b true order hf, if_pos rfl]
  have key : minLen (streamsOf S b order) = 0 ↔ order.length < b := by
    have hmin : minLen (streamsOf S b order) = 0 ↔ ∃ s ∈ streamsOf S b order, s = [] := by
      constructor
      · intro h0
        have hne : streamsOf S b order ≠ [] := by
          intro hnil
          have := congrArg List.length hnil
          simp [streamsOf] at this
          omega
        revert h0 hne
        cases streamsOf S b order with
        | nil => intro _ h; exact absurd rfl h
        | cons s ss =>
          intro h0 _
          have hgen : ∀ (l : List (List (Sample α))) (x : Nat), (l.map List.length).foldr min x = 0 → x = 0 ∨ ∃ t ∈ l, t = [] := by
            intro l x
            induction l with
            | nil => intro h; exact Or.inl h
            | cons a as ih =>
              intro h
              simp only [List.map_cons, List.foldr_cons] at h
              by_cases ha : a = []
              · exact Or.inr ⟨a, by simp, ha⟩
              · have : 0 < a.length := List.length_pos_iff.2 ha
                rcases ih (by omega) with h' | ⟨t, ht, h'⟩
                · exact Or.inl h'
                · exact Or.inr ⟨t, by simp [ht], h'⟩
          rcases hgen ss s.length h0 with h | ⟨t, ht, h⟩
          · exact ⟨s, by simp, List.length_eq_zero_iff.1 h⟩
          · exact ⟨t, by simp [ht], h⟩
      · rintro ⟨s, hs, rfl⟩
        have := minLen_le hs
        simpa using this
    rw [hmin]
    constructor
    · rintro ⟨s, hs, hnil⟩
      obtain ⟨i, hi, rfl⟩ := List.mem_map.1 hs
      rw [List.mem_range] at hi
      by_contra hcon
      have hil : i < order.length := by omega
      have hmem : order[i] ∈ everyFrom i b order := mem_everyFrom.2 ⟨i, by simp [hil], Nat.le_refl _, by simp⟩
      have hne := hS order[i] (List.getElem_mem hil)
      obtain ⟨s, hs⟩ := List.exists_mem_of_ne_nil _ hne
      have : s ∈ (everyFrom i b order).flatMap S := List.mem_flatMap.2 ⟨_, hmem, hs⟩
      rw [hnil] at this
      cases this
    · intro hlt
      refine ⟨_, List.mem_map.2 ⟨order.length, List.mem_range.2 hlt, rfl⟩, ?_⟩
      have : everyFrom order.length b order = [] := by
        rw [List.eq_nil_iff_forall_not_mem]
        intro y hy
        obtain ⟨j, hj, hle, _⟩ := mem_everyFrom.1 hy
        have := (List.getElem?_eq_some_iff.1 hj).1
        omega
      rw [this]
      rfl
  rw [← key]
  unfold zipShort
  constructor
  · intro h
    by_contra hne
    obtain ⟨n, hn⟩ := Nat.exists_eq_succ_of_ne_zero hne
    rw [hn, List.range_succ, List.map_append] at h
    simp only [List.map_cons, List.map_nil, forceLast_snoc] at h
    cases h
  · intro h
    rw [h]
    rfl

-- Non-trivial case: three files of 1, 3 and 2 chunks, two batch elements.
/-- Samples of a file with `n` chunks. -/
def exFile (x : String) (n : Nat) : List (Sample Nat) := (List.range n).map fun k => ⟨[k], k == 0, k + 1 == n, 1, k, n, x⟩
/-- Three files. -/
def exFiles (x : String) : List (Sample Nat) := if x = "a" then exFile "a" 1 else if x = "b" then exFile "b" 3 else exFile "c" 3
theorem exFile_whole (x : String) (n : Nat) (hn : 0 < n) : WholeFile x (exFile x n) := by
  refine ⟨by simp [exFile]; omega, ?_⟩
  intro k s h
  simp only [exFile, List.getElem?_map] at h
  obtain ⟨j, hj, rfl⟩ := Option.map_eq_some_iff.1 h
  obtain ⟨hj1, hj2⟩ := List.getElem?_eq_some_iff.1 hj
  simp only [List.getElem_range] at hj2
  subst hj2
  simp [exFile]
example : ∀ x ∈ ["c", "a", "b"], WholeFile x (exFiles x) := by
  intro x hx
  simp only [List.mem_cons, List.not_mem_nil, or_false] at hx
  rcases hx with rfl | rfl | rfl <;> exact exFile_whole _ _ (by decide)
example : (getStreams (fun x => .ok (exFiles x)) 2 false ["c", "a", "b"]).map (fun bs => bs.map fun b => b.map fun s => (s.id, s.chunkIndex)) =
    .ok [[("c", 0), ("a", 0)], [("c", 1)], [("c", 2)], [("b", 0)], [("b", 1)], [("b", 2)]] := by decide
example : (getStreams (fun x => .ok (exFiles x)) 2 true ["c", "b", "a"]).map (fun bs => bs.map fun b => b.map fun s => (s.id, s.chunkIndex, s.eos)) =
    .ok [[("c", 0, false), ("b", 0, false)], [("c", 1, false), ("b", 1, false)], [("c", 2, true), ("b", 2, true)]] := by decide
example : (getStreams (fun x => .ok (exFiles x)) 2 true ["a", "b"]).map (fun bs => bs.map fun b => b.map fun s => (s.id, s.chunkIndex, s.eos)) =
    .ok [[("a", 0, true), ("b", 0, true)]] := by decide

end
end DS.Data
