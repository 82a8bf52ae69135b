import Verif.Model.LoaderOpts
import Verif.Props.LoaderOpts
import Verif.Lemmas.Tensor
/-!
# C177: the batches of a loader have the requested size
-/

namespace DS.Data

section
variable {α : Type}

/-- What a successful computation of two steps was. -/
theorem bind_inv {β γ : Type} {x : Py β} {f : β → Py γ} {c : γ} (h : (x >>= f) = .ok c) : ∃ b, x = .ok b ∧ f b = .ok c := by
  cases x with
  | error e => cases h
  | ok b => exact ⟨b, rfl, h⟩

theorem mapPy_inv {β γ : Type} (f : β → Py γ) (l : List β) (r : List γ) (h : mapPy f l = .ok r) : List.Forall₂ (fun x y => f x = .ok y) l r := by
  induction l generalizing r with
  | nil => cases h; exact .nil
  | cons x xs ih =>
    obtain ⟨a, h1, h⟩ := bind_inv h
    obtain ⟨b, h2, h⟩ := bind_inv h
    cases h
    exact .cons h1 (ih b h2)

theorem partLoop_length (values : List Rat) (s s' : Parts) (is : List Nat) (h : partLoop values s is = .ok s') : s'.idxs.length = s.idxs.length := by
  induction is generalizing s with
  | nil => cases h; rfl
  | cons i is ih =>
    obtain ⟨a, h1, h⟩ := bind_inv h
    rw [ih a h]
    obtain ⟨m, _, h1⟩ := bind_inv h1
    obtain ⟨v, _, h1⟩ := bind_inv h1
    cases h1
    simp

/-- What `split` gives has as many datasets as workers, each with its share of the batch. -/
theorem split_inv (disk : Disk α) (d : Dataset α) (n bs : Int) (shuffle dropLast : Bool) (order : List Nat) (ds : List (Dataset α))
    (h : d.split disk n bs shuffle dropLast order = .ok ds) :
    0 < n ∧ n ∣ bs ∧ ds.length = n.toNat ∧ ∀ d' ∈ ds, d'.batchSize = bs / n ∧ 0 < bs / n ∧ d'.dropLast = dropLast := by
  unfold Dataset.split at h
  by_cases hn : n ≤ 0
  · rw [if_pos hn] at h; cases h
  rw [if_neg hn] at h
  by_cases hd : bs % n ≠ 0
  · rw [if_pos hd] at h; cases h
  rw [if_neg hd] at h
  obtain ⟨lens, _, h⟩ := bind_inv h
  obtain ⟨chunks, _, h⟩ := bind_inv h
  obtain ⟨parts, h1, h⟩ := bind_inv h
  obtain ⟨fl, h2, h⟩ := bind_inv h
  obtain ⟨metas, h3, h⟩ := bind_inv h
  have hp : parts.2.length = n.toNat := by
    unfold partitionBySum at h1
    obtain ⟨s, h4, h1⟩ := bind_inv h1
    cases h1
    rw [partLoop_length _ _ _ _ h4, List.length_replicate]
  have h2' := (mapPy_inv _ _ _ h2).length_eq
  have h3' := (mapPy_inv _ _ _ h3).length_eq
  have h4 := mapPy_inv _ _ _ h
  have h4' := h4.length_eq
  rw [List.length_zip] at h4'
  refine ⟨by omega, Int.dvd_of_emod_eq_zero (by simpa using hd), by omega, ?_⟩
  intro d' hd'
  obtain ⟨p, _, hp'⟩ := forall2_mem h4 hd'
  unfold splitOne Dataset.new at hp'
  by_cases hb : bs / n ≤ 0
  · rw [if_pos hb] at hp'; cases hp'
  rw [if_neg hb] at hp'
  cases hp'
  exact ⟨rfl, by omega, rfl⟩

theorem allStreams_length (f : String → Py (List (Sample α))) (l : List (List String)) (ss : List (List (Sample α))) (h : allStreams f l = .ok ss) :
    ss.length = l.length := by
  induction l generalizing ss with
  | nil => cases h; rfl
  | cons x xs ih =>
    obtain ⟨a, _, h⟩ := bind_inv h
    obtain ⟨b, h2, h⟩ := bind_inv h
    cases h
    simp [ih b h2]

theorem forceLast_lengths (bs r : List (List (Sample α))) (h : forceLast bs = .ok r) : r.map List.length = bs.map List.length := by
  rcases List.eq_nil_or_concat bs with rfl | ⟨as, b, rfl⟩
  · cases h
  · rw [List.concat_eq_append, forceLast_snoc] at h
    cases h
    simp

/-- The batches of one dataset. -/
theorem iter_bound (disk : Disk α) (d : Dataset α) (order : List String) (bs : List (List (Sample α))) (h : d.iter disk order = .ok bs) :
    ∀ b ∈ bs, b.length ≤ d.batchSize.toNat ∧ (d.dropLast = true → b.length = d.batchSize.toNat) := by
  unfold Dataset.iter getStreams at h
  obtain ⟨ss, h1, h⟩ := bind_inv h
  have hl := allStreams_length _ _ _ h1
  rw [List.length_map, List.length_range] at hl
  intro b hb
  cases hd : d.dropLast
  · rw [hd] at h
    cases h
    obtain ⟨k, _, rfl⟩ := List.mem_map.1 hb
    exact ⟨hl ▸ layer_length_le ss k, by simp⟩
  · rw [hd, if_pos rfl] at h
    have hm : b.length ∈ (zipShort ss).map List.length := by rw [← forceLast_lengths _ _ h]; exact List.mem_map_of_mem hb
    obtain ⟨c, hc, he⟩ := List.mem_map.1 hm
    obtain ⟨k, hk, rfl⟩ := List.mem_map.1 hc
    rw [layer_length_full ss k (List.mem_range.1 hk), hl] at he
    exact ⟨by omega, fun _ => he.symm⟩

theorem iterAll_inv (disk : Disk α) (ds : List (Dataset α)) (os : List (List String)) (ho : os.length = ds.length) (parts : List (List (List (Sample α))))
    (h : iterAll disk ds os = .ok parts) : List.Forall₂ (fun d st => ∃ o, Dataset.iter disk d o = .ok st) ds parts := by
  induction ds generalizing os parts with
  | nil => unfold iterAll at h; cases h; exact .nil
  | cons d ds ih =>
    cases os with
    | nil => simp at ho
    | cons o os =>
      obtain ⟨a, h1, h⟩ := bind_inv h
      obtain ⟨b, h2, h⟩ := bind_inv h
      cases h
      exact .cons ⟨o, h1⟩ (ih os (by simpa using ho) b h2)

/-- A layer of streams of batches has at most the sum of the bounds. -/
theorem layer_flatten_le {β : Type} (sizes : List Nat) (ss : List (List (List β))) (h : List.Forall₂ (fun n st => ∀ b ∈ st, b.length ≤ n) sizes ss) (k : Nat) :
    (layer ss k).flatten.length ≤ sizes.sum := by
  induction h with
  | nil => simp [layer]
  | @cons n st sizes ss h1 _ ih =>
    rw [layer_cons, List.flatten_append, List.length_append, List.sum_cons]
    have : st[k]?.toList.flatten.length ≤ n := by
      cases hg : st[k]? with
      | none => simp
      | some b => simpa using h1 b (List.mem_of_getElem? hg)
    omega

theorem layer_flatten_eq {β : Type} (sizes : List Nat) (ss : List (List (List β))) (h : List.Forall₂ (fun n st => ∀ b ∈ st, b.length = n) sizes ss) (k : Nat)
    (hk : ∀ s ∈ ss, k < s.length) : (layer ss k).flatten.length = sizes.sum := by
  induction h with
  | nil => simp [layer]
  | @cons n st sizes ss h1 _ ih =>
    rw [layer_cons, List.flatten_append, List.length_append, List.sum_cons, ih fun s hs => hk s (by simp [hs])]
    have hst := hk st (by simp)
    rw [List.getElem?_eq_getElem hst]
    simp [h1 _ (List.getElem_mem hst)]

theorem popAll_le (d : Bufs α) (is : List String) : (popAll d is).1.length ≤ is.length := by
  induction is generalizing d with
  | nil => simp [popAll]
  | cons i is ih =>
    unfold popAll
    cases d.get i with
    | nil => exact Nat.le_succ_of_le (ih _)
    | cons s q => exact Nat.succ_le_succ (ih _)

theorem syncRun_le (n fuel : Nat) (st : SyncSt α) (h : st.active.length ≤ n) : ∀ b ∈ (syncRun n fuel st).1, b.length ≤ n := by
  induction fuel generalizing st with
  | zero => simp [syncRun]
  | succ m ih =>
    unfold syncRun
    have hp := popAll_le (fill st.active n st.empty st.bufs st.stream).2.2 st.active
    unfold syncStep
    dsimp only
    split
    · rename_i b st' heq
      split at heq
      · split at heq
        · split at heq <;> cases heq
        · cases heq
      · injection heq with h1 h2
        subst h1 h2
        intro b hb
        rcases List.mem_cons.1 hb with rfl | hb
        · omega
        · refine ih _ ?_ b hb
          rw [List.length_map]
          refine Nat.le_trans (List.length_filter_le _ _) ?_
          omega
    · rename_i st' heq
      split at heq
      · split at heq
        · split at heq
          · cases heq
          · injection heq with h2
            subst h2
            exact ih _ (by rw [List.length_take]; omega)
        · cases heq
      · cases heq
    · simp
    · simp

theorem sync_le (n fuel : Nat) (bs : List (List (Sample α))) (h : ∀ b ∈ bs, b.length ≤ n) : ∀ b ∈ (sync fuel bs).1, b.length ≤ n := by
  cases bs with
  | nil => simp [sync]
  | cons b bs =>
    intro c hc
    exact Nat.le_trans (syncRun_le b.length fuel _ (by simp) c hc) (h b (by simp))

/-- The sizes of the batches of given datasets. -/
theorem batches_bound (disk : Disk α) (cfg : LoaderCfg) (fuel : Nat) (ds : List (Dataset α)) (parts : List (List (List (Sample α))))
    (h : List.Forall₂ (fun d st => ∃ o, Dataset.iter disk d o = .ok st) ds parts) :
    (∀ b ∈ (loaderBatches cfg fuel parts).1, b.length ≤ (ds.map fun d => d.batchSize.toNat).sum) ∧
    (cfg.dropLast = true → cfg.overlapping = true → (∀ d ∈ ds, d.dropLast = true) →
      ∀ b ∈ (loaderBatches cfg fuel parts).1, b.length = (ds.map fun d => d.batchSize.toNat).sum) := by
  have hle : List.Forall₂ (fun n st => ∀ b ∈ st, b.length ≤ n) (ds.map fun d => d.batchSize.toNat) parts := by
    rw [List.forall₂_map_left_iff]
    refine h.imp ?_
    rintro d st ⟨o, ho⟩ b hb
    exact (iter_bound disk d o st ho b hb).1
  constructor
  · have hm : ∀ b ∈ mergeWorkers cfg.dropLast parts, b.length ≤ (ds.map fun d => d.batchSize.toNat).sum := by
      intro b hb
      unfold mergeWorkers at hb
      obtain ⟨l, hl, rfl⟩ := List.mem_map.1 hb
      have : ∃ k, l = layer parts k := by
        split at hl
        · obtain ⟨k, _, rfl⟩ := List.mem_map.1 hl; exact ⟨k, rfl⟩
        · obtain ⟨k, _, rfl⟩ := List.mem_map.1 hl; exact ⟨k, rfl⟩
      obtain ⟨k, rfl⟩ := this
      exact layer_flatten_le _ _ hle k
    unfold loaderBatches
    dsimp only
    split
    · exact hm
    · exact sync_le _ _ _ hm
  · intro hd ho hall b hb
    unfold loaderBatches mergeWorkers at hb
    rw [ho, hd] at hb
    obtain ⟨l, hl, rfl⟩ := List.mem_map.1 hb
    obtain ⟨k, hk, rfl⟩ := List.mem_map.1 hl
    refine layer_flatten_eq _ _ ?_ k fun s hs => Nat.lt_of_lt_of_le (List.mem_range.1 hk) (minLen_le hs)
    rw [List.forall₂_map_left_iff]
    have : ∀ (ds : List (Dataset α)) (parts : List (List (List (Sample α)))), List.Forall₂ (fun d st => ∃ o, Dataset.iter disk d o = .ok st) ds parts →
        (∀ d ∈ ds, d.dropLast = true) → List.Forall₂ (fun d st => ∀ b ∈ st, b.length = d.batchSize.toNat) ds parts := by
      intro ds parts h
      induction h with
      | nil => exact fun _ => .nil
      | cons h1 _ ih =>
        intro hall
        obtain ⟨o, ho⟩ := h1
        exact .cons (fun b hb => (iter_bound disk _ o _ ho b hb).2 (hall _ (by simp))) (ih fun d hd => hall d (by simp [hd]))
    exact this ds parts h hall

theorem sum_replicate_map (ds : List (Dataset α)) (z : Int) (hz : 0 ≤ z) (h : ∀ d ∈ ds, d.batchSize = z) : (((ds.map fun d => d.batchSize.toNat).sum : Nat) : Int) = ds.length * z := by
  induction ds with
  | nil => simp
  | cons d ds ih =>
    rw [List.map_cons, List.sum_cons, Nat.cast_add, ih fun d' hd' => h d' (by simp [hd']), h d (by simp), List.length_cons, Nat.cast_add, Nat.cast_one, Int.add_mul]
    omega

/-- C177, what holds for a single dataset: no batch is larger than `batch_size`, with any number of workers, overlapping or not; with `drop_last` every batch has exactly that
size. Nothing is assumed about the files. Missing: lists of datasets. -/
theorem C177_single_partial (disk : Disk α) (a : LoaderArgs) (m : Multi) (hm : Multi.new a none = .ok m) (inWorker : Bool) (d : Dataset α) (order : List Nat)
    (orders : List (List String) → List (List String)) (hor : ∀ ls, (orders ls).length = ls.length) (fuel : Nat) (out : List (List (Sample α))) (e : Ended)
    (h : m.iter disk inWorker (.single d) order orders fuel = .ok (out, e)) :
    0 < a.batchSize ∧ ∀ b ∈ out, (b.length : Int) ≤ a.batchSize ∧ (a.dropLast = true → (b.length : Int) = a.batchSize) := by
  obtain ⟨hacc, hcfg⟩ := C133_accepts_partial a none
  have hc := hcfg m hm
  have hov := (hacc.1 ⟨m, hm⟩).1
  unfold Multi.iter at h
  obtain ⟨ds, h1, h⟩ := bind_inv h
  obtain ⟨_, _, h⟩ := bind_inv h
  obtain ⟨parts, h3, h⟩ := bind_inv h
  rw [hc] at h1 h
  dsimp only at h1 h
  obtain ⟨hn, hdvd, hlen, hds⟩ := split_inv disk d _ _ _ _ _ _ h1
  have hF := iterAll_inv disk ds _ (by rw [hor, List.length_map]) parts h3
  obtain ⟨hle, heq⟩ := batches_bound disk ⟨a.batchSize, (none.map Int.ofNat).getD a.numWorkers, a.shuffle, a.overlapping, a.dropLast⟩ fuel ds parts hF
  generalize hw : max 1 ((none.map Int.ofNat).getD a.numWorkers) = w at *
  have hpos : 0 < a.batchSize / w := by
    cases ds with
    | nil => simp at hlen; omega
    | cons d' ds => exact (hds d' (by simp)).2.1
  have hsum : (((ds.map fun d => d.batchSize.toNat).sum : Nat) : Int) = a.batchSize := by
    rw [sum_replicate_map ds (a.batchSize / w) (by omega) fun d' hd' => (hds d' hd').1, hlen, Int.toNat_of_nonneg (by omega), Int.mul_ediv_cancel' hdvd]
  injection h with h
  rw [h] at hle heq
  refine ⟨?_, fun b hb => ⟨?_, fun hd => ?_⟩⟩
  · rw [← Int.mul_ediv_cancel' hdvd]; exact Int.mul_pos hn hpos
  · rw [← hsum]; exact_mod_cast hle b hb
  · rw [← hsum]; exact_mod_cast heq hd (hov hd) (fun d' hd' => (hds d' hd').2.2.trans hd) b hb

/-- C177, what holds for a list of datasets: no batch is larger than the batch sizes of the datasets together, and if all datasets drop their last batches every batch has exactly
that size. Missing: the `batch_size` of the loader, which has no influence (`C177_ignored`), and its `drop_last` where a dataset does not drop its last batches itself. -/
theorem C177_list_partial (disk : Disk α) (a : LoaderArgs) (ds : List (Dataset α)) (m : Multi) (hm : Multi.new a (some ds.length) = .ok m) (inWorker : Bool) (order : List Nat)
    (orders : List (List String) → List (List String)) (hor : ∀ ls, (orders ls).length = ls.length) (fuel : Nat) (out : List (List (Sample α))) (e : Ended)
    (h : m.iter disk inWorker (.list ds) order orders fuel = .ok (out, e)) :
    ∀ b ∈ out, b.length ≤ (ds.map fun d => d.batchSize.toNat).sum ∧
      (a.dropLast = true → (∀ d ∈ ds, d.dropLast = true) → b.length = (ds.map fun d => d.batchSize.toNat).sum) := by
  obtain ⟨hacc, hcfg⟩ := C133_accepts_partial a (some ds.length)
  have hc := hcfg m hm
  have hov := (hacc.1 ⟨m, hm⟩).1
  unfold Multi.iter at h
  obtain ⟨ds', h1, h⟩ := bind_inv h
  cases h1
  obtain ⟨_, _, h⟩ := bind_inv h
  obtain ⟨parts, h3, h⟩ := bind_inv h
  rw [hc] at h
  have hF := iterAll_inv disk ds _ (by rw [hor, List.length_map]) parts h3
  obtain ⟨hle, heq⟩ := batches_bound disk ⟨a.batchSize, (((some ds.length).map Int.ofNat).getD a.numWorkers), a.shuffle, a.overlapping, a.dropLast⟩ fuel ds parts hF
  injection h with h
  rw [h] at hle heq
  exact fun b hb => ⟨hle b hb, fun hd hall => heq hd (hov hd) hall b hb⟩

/-- With a list of datasets the arguments `batch_size` and `shuffle` of the loader have no influence on its batches. -/
theorem C177_ignored (disk : Disk α) (a : LoaderArgs) (bs : Int) (sh : Bool) (ds : List (Dataset α)) (inWorker : Bool) (order : List Nat)
    (orders : List (List String) → List (List String)) (fuel : Nat) :
    (do let m ← Multi.new { a with batchSize := bs, shuffle := sh } (some ds.length); m.iter disk inWorker (.list ds) order orders fuel) =
    (do let m ← Multi.new a (some ds.length); m.iter disk inWorker (.list ds) order orders fuel) := by
  unfold Multi.new LoaderCfg.new
  dsimp only
  cases a.dropLast <;> cases a.overlapping <;> by_cases h : 0 < a.numWorkers <;> simp [h, Except.bind_ok', Except.bind_error'] <;> rfl

end

/-- Two datasets with one file each. -/
def exTwo : List (Dataset Nat) :=
  [⟨["a"], 1, none, none, 1, false, false, [("a", 3, 1)], [("a", 3)]⟩, ⟨["b"], 1, none, none, 1, false, false, [("b", 1, 1)], [("b", 1)]⟩]

/-- C177 is false: with the default `batch_size=1` and a list of two datasets the first batch has two samples. -/
theorem C177_list_false : Multi.new exArgs (some exTwo.length) = .ok ⟨⟨1, 2, false, false, false⟩, ⟨1, 0, none, false, false, false⟩⟩ ∧
    ((⟨⟨1, 2, false, false, false⟩, ⟨1, 0, none, false, false, false⟩⟩ : Multi).iter exLoadDisk false (.list exTwo) [] id 20).map
      (fun r => (r.1.map fun b => b.map fun s => (s.id, s.chunkIndex), r.2)) = .ok ([[("a", 0), ("b", 0)], [("a", 1)], [("a", 2)]], .returned) := by
  decide +kernel

/-- C177 is false in a second way: `drop_last` of the loader does not reach the datasets of a list; of a dataset with batch size 2 and one file, batches of one sample come. -/
theorem C177_drop_false : ∃ m : Multi, Multi.new { exArgs with batchSize := 2, overlapping := true, dropLast := true } (some 1) = .ok m ∧
    (m.iter exLoadDisk false (.list [⟨["a"], 1, none, none, 2, false, false, [("a", 3, 1)], [("a", 3)]⟩]) [] id 20).map
      (fun r => (r.1.map fun b => b.map fun s => (s.id, s.chunkIndex), r.2)) = .ok ([[("a", 0)], [("a", 1)], [("a", 2)]], .returned) :=
  ⟨_, rfl, by decide +kernel⟩

-- Non-trivial cases: two workers with a batch of two, synchronised, and with `drop_last`.
example : Multi.new { exArgs with batchSize := 2, numWorkers := 2 } none = .ok ⟨⟨2, 2, false, false, false⟩, ⟨1, 0, none, false, false, false⟩⟩ ∧
    ((⟨⟨2, 2, false, false, false⟩, ⟨1, 0, none, false, false, false⟩⟩ : Multi).iter exLoadDisk false (.single exLoad) [1, 2, 0] id 20).map
      (fun r => (r.1.map fun b => b.map fun s => (s.id, s.chunkIndex), r.2)) =
    .ok ([[("b", 0), ("c", 0)], [("c", 1)], [("a", 0)], [("a", 1)], [("a", 2)]], .returned) := by decide +kernel
example : ∃ m : Multi, Multi.new { exArgs with batchSize := 2, numWorkers := 1, overlapping := true, dropLast := true } none = .ok m ∧
    (m.iter exLoadDisk false (.single exLoad) [1, 2, 0] id 20).map (fun r => (r.1.map fun b => b.map fun s => (s.id, s.chunkIndex), r.2)) =
    .ok ([[("b", 0), ("c", 0)], [("a", 0), ("c", 1)]], .returned) := ⟨_, rfl, by decide +kernel⟩

end DS.Data
