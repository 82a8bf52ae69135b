import Verif.Lemmas.SyncMemory
import Verif.Props.Loader
/-!
# C209: what `make_streams_synchronous` keeps in memory
-/

namespace DS.Data

section
variable {α : Type}

/-- The state before the first iteration. -/
theorem kept_init {N : Nat} {b : List (Sample α)} {rest : List (List (Sample α))} (hs : Src b.length N (b :: rest)) (hn : (b.map Sample.id).Nodup) :
    Kept b.length N (b :: rest) [] ⟨rest, false, b.map Sample.id, Bufs.first b⟩ := by
  obtain ⟨h1, h2, _⟩ := first_spec b hn
  have hfirst : (Bufs.first b).held = b.length := by
    have key : ∀ (l : List (Sample α)) (d : Bufs α), d.keys.Nodup → (l.map Sample.id).Nodup → (∀ s ∈ l, d.get s.id = []) →
        Bufs.held (l.foldl (fun d s => d.set s.id [s]) d) = d.held + l.length := by
      intro l
      induction l with
      | nil => intro d _ _ _; rfl
      | cons s l ih =>
        intro d hk hl hd
        rw [List.map_cons, List.nodup_cons] at hl
        rw [List.foldl_cons, ih _ (keys_set_nodup d s.id [s] hk) hl.2, List.length_cons]
        · have := held_set_any d s.id [s]
          rw [hd s (by simp)] at this
          simp only [List.length_nil, List.length_singleton] at this
          omega
        · intro t ht
          rw [get_set, if_neg (fun he : t.id = s.id => hl.1 (he ▸ List.mem_map_of_mem ht))]
          exact hd t (by simp [ht])
    have := key b [] List.nodup_nil hn (fun _ _ => rfl)
    rw [show (Bufs.first b).held = Bufs.held (b.foldl (fun (d : Bufs α) s => d.set s.id [s]) []) from rfl, this]
    simp [Bufs.held]
  have hsize : (Bufs.first b).held ≤ (2 * b.length - 1) * N := by
    rw [hfirst]
    have h3 := hs.npos
    have h4 : (2 * b.length - 1) * 1 ≤ (2 * b.length - 1) * N := Nat.mul_le_mul_left _ hs.Npos
    omega
  refine ⟨hsize, fun _ => ⟨[b], by simp, ⟨rfl, ?_, h1, ?_, fun j _ => Or.inl rfl, hn, by simp, Or.inl ?_, hsize⟩⟩⟩
  · intro j
    show [] ++ (Bufs.first b).get j = _
    rw [h2 j]
    simp
  · have key : ∀ (l : List (Sample α)) (d : Bufs α) (m : List String), d.keys.Sublist (firsts m) → (∀ s ∈ l, s.id ∉ m) → (l.map Sample.id).Nodup →
        (Bufs.keys (l.foldl (fun d s => d.set s.id [s]) d)).Sublist (firsts (m ++ l.map Sample.id)) := by
      intro l
      induction l with
      | nil => intro d m h _ _; simpa using h
      | cons s l ih =>
        intro d m h hm hl
        rw [List.map_cons, List.nodup_cons] at hl
        rw [List.foldl_cons, List.map_cons, show m ++ s.id :: l.map Sample.id = (m ++ [s.id]) ++ l.map Sample.id by simp]
        apply ih _ _ _ _ hl.2
        · have hnm : s.id ∉ firsts m := fun hx => hm s (by simp) (((firsts_spec m).2 _).1 hx)
          rw [keys_set, firsts_snoc, if_neg hnm, if_neg fun hx => hnm (h.subset hx)]
          exact h.append (List.Sublist.refl _)
        · intro t ht hx
          rcases List.mem_append.1 hx with hx | hx
          · exact hm t (by simp [ht]) hx
          · exact hl.1 (List.mem_singleton.1 hx ▸ List.mem_map_of_mem ht)
    have := key b [] [] (by simp [Bufs.keys]) (by simp) hn
    simpa [Bufs.first] using this
  · intro a ha
    refine ⟨rfl, ?_, ?_⟩
    · show (Bufs.first b).get a ≠ []
      rw [h2]
      intro h0
      exact ofFile_nil_iff.1 h0 ha
    · intro j hj hjn
      exfalso
      have : (Bufs.first b).get j = [] := by
        rw [h2]
        exact ofFile_nil_iff.2 hj
      exact hjn this

/-- C209: on a well-formed stream whose files stay in consecutive batches and whose first batch is a largest one, the generator never holds more than
`(2 B - 1) N` samples, where `B` is the size of the first batch and no file has more than `N` chunks, however many files there are and however long it runs. -/
theorem C209_bounded (b : List (Sample α)) (rest : List (List (Sample α))) (h : WellFormed (b :: rest)) (hst : Steady (b :: rest)) (hb : ∀ c ∈ rest, c.length ≤ b.length)
    (N : Nat) (hN : ∀ j, (ofFile j (b :: rest).flatten).length ≤ N) (fuel : Nat) :
    ∀ d ∈ heldDuring fuel (b :: rest), d.held ≤ (2 * b.length - 1) * N := by
  obtain ⟨b', rest', he, hne, hn⟩ := h.1
  obtain ⟨rfl, rfl⟩ : b = b' ∧ rest = rest' := by
    rw [List.cons.injEq] at he
    exact he
  have hpos := List.length_pos_iff.2 hne
  have hNpos : 0 < N := by
    obtain ⟨s, hs⟩ := List.exists_mem_of_ne_nil _ hne
    have h1 := hN s.id
    have h2 : s ∈ ofFile s.id (b :: rest).flatten := mem_ofFile (by simp [hs])
    have := List.length_pos_iff.2 (List.ne_nil_of_mem h2)
    omega
  have hsrc : Src b.length N (b :: rest) := by
    refine ⟨wellFormed_F h, hst, ?_, hpos, hN, hNpos⟩
    intro c hc
    rcases List.mem_cons.1 hc with rfl | hc
    · exact Nat.le_refl _
    · exact hb c hc
  have hi := hist_init b rest hne hn
  exact trace_bound hsrc fuel [] _ hi.inv (hi.phase.imp (·.1) (·.1)) (kept_init hsrc hn)

/-! ## The loader -/

theorem layer_ge {β : Type} (ss : List (List β)) (k : Nat) (h : maxLen ss ≤ k) : layer ss k = [] := by
  apply List.eq_nil_iff_forall_not_mem.2
  intro x hx
  obtain ⟨s, hs, hg⟩ := mem_layer.1 hx
  have h1 := le_maxLen hs
  have h2 := (List.getElem?_eq_some_iff.1 hg).1
  omega

theorem maxLen_eq {β : Type} (ss : List (List β)) (m : Nat) (h1 : ∀ s ∈ ss, s.length ≤ m) (h2 : ∀ k, k < m → ∃ s ∈ ss, k < s.length) : maxLen ss = m := by
  apply Nat.le_antisymm
  · by_contra hc
    obtain ⟨s, hs, hl⟩ := maxLen_mem (ss := ss) (k := m) (by omega)
    have := h1 s hs
    omega
  · by_contra hc
    obtain ⟨s, hs, hl⟩ := h2 (maxLen ss) (by omega)
    have := le_maxLen hs
    omega

theorem length_zipLongest {β : Type} (ss : List (List β)) : (zipLongest ss).length = maxLen ss := by simp [zipLongest]

theorem zipLongest_toList {β : Type} (ss : List (List β)) (k : Nat) : (((zipLongest ss)[k]?).toList).flatten = layer ss k := by
  by_cases hk : k < maxLen ss
  · simp [zipLongest, hk]
  · rw [layer_ge ss k (by omega), List.getElem?_eq_none (by rw [length_zipLongest]; omega)]
    rfl

/-- The batches of all workers, put together, are those of all their streams. -/
theorem merge_zip (Ls : List (List (List (Sample α)))) : mergeWorkers false (Ls.map zipLongest) = zipLongest Ls.flatten := by
  have hmax : maxLen (Ls.map zipLongest) = maxLen Ls.flatten := by
    apply maxLen_eq
    · intro s hs
      obtain ⟨L, hL, rfl⟩ := List.mem_map.1 hs
      rw [length_zipLongest]
      by_contra hc
      obtain ⟨t, ht, hl⟩ := maxLen_mem (ss := L) (k := maxLen Ls.flatten) (by omega)
      have := le_maxLen (ss := Ls.flatten) (List.mem_flatten.2 ⟨L, hL, ht⟩)
      omega
    · intro k hk
      obtain ⟨t, ht, hl⟩ := maxLen_mem hk
      obtain ⟨L, hL, ht⟩ := List.mem_flatten.1 ht
      refine ⟨zipLongest L, List.mem_map_of_mem hL, ?_⟩
      rw [length_zipLongest]
      have := le_maxLen ht
      omega
  show (zipLongest (Ls.map zipLongest)).map List.flatten = _
  unfold zipLongest
  rw [List.map_map]
  change (List.range (maxLen (Ls.map zipLongest))).map _ = _
  rw [hmax]
  apply List.map_congr_left
  intro k hk
  clear hk
  show (layer (Ls.map zipLongest) k).flatten = layer Ls.flatten k
  clear hmax
  induction Ls with
  | nil => rfl
  | cons L Ls ih => rw [List.map_cons, layer_cons, List.flatten_append, zipLongest_toList, ih, List.flatten_cons, layer_append]

/-- Streams of complete files, side by side: files stay in consecutive batches. -/
theorem steady_zip (S : String → List (Sample α)) (lanes : List (List String)) (hS : ∀ l ∈ lanes, ∀ x ∈ l, WholeFile x (S x)) :
    Steady (zipLongest (lanes.map fun l => l.flatMap S)) := by
  intro pre b b' post heq s hs heos
  have h1 : (zipLongest (lanes.map fun l => l.flatMap S))[pre.length]? = some b := by rw [heq]; simp
  have h2 : (zipLongest (lanes.map fun l => l.flatMap S))[pre.length + 1]? = some b' := by rw [heq, List.getElem?_append_right (by omega)]; simp
  have hl : ∀ k c, (zipLongest (lanes.map fun l => l.flatMap S))[k]? = some c → c = layer (lanes.map fun l => l.flatMap S) k := by
    intro k c hc
    have := zipLongest_toList (lanes.map fun l => l.flatMap S) k
    rw [hc] at this
    simpa using this
  rw [hl _ _ h1] at hs
  obtain ⟨t, ht, hg⟩ := mem_layer.1 hs
  obtain ⟨l, hlm, rfl⟩ := List.mem_map.1 ht
  obtain ⟨e, he1, he2, t', ht', hte⟩ := flatMap_locate S l (hS l hlm) pre.length s hg
  have hne : pre.length ≠ e := by
    intro he
    rw [← he, hg] at ht'
    cases ht'
    rw [heos] at hte
    cases hte
  obtain ⟨s', hs', hid⟩ := he2 (pre.length + 1) (by omega) (by omega)
  refine ⟨s', ?_, hid⟩
  rw [hl _ _ h2]
  exact mem_layer.2 ⟨_, ht, hs'⟩

theorem iterAll_streams (disk : Disk α) (d : Dataset α) (bs : Int) (shuffle : Bool) (S : String → List (Sample α)) (parts orders : List (List String))
    (ho : List.Forall₂ List.Perm orders parts) (hf : ∀ x ∈ parts.flatten, processData disk d x = .ok (S x)) :
    iterAll disk (parts.map (workerDataset disk d bs shuffle false)) orders = .ok ((orders.map (streamsOf S bs.toNat)).map zipLongest) := by
  induction ho with
  | nil => rfl
  | @cons o p os ps hop _ ih =>
    have h1 : Dataset.iter disk (workerDataset disk d bs shuffle false p) o = .ok (zipLongest (streamsOf S bs.toNat o)) := by
      unfold Dataset.iter
      rw [getStreams_ok _ S]
      · rfl
      · intro x hx
        exact (processData_congr disk d _ rfl rfl x).trans (hf x (List.mem_flatten.2 ⟨p, by simp, hop.mem_iff.1 hx⟩))
    show (do let a ← Dataset.iter disk (workerDataset disk d bs shuffle false p) o; let b ← iterAll disk _ os; Except.ok (a :: b)) = _
    rw [h1, Except.bind_ok', ih (fun x hx => hf x (by rw [List.flatten_cons]; exact List.mem_append_right _ hx)), Except.bind_ok']
    rfl

/-- C209 for the loader: with non-overlapping batches of `batch_size` it never holds more than `(2 batch_size - 1) N` samples if no file has more than `N`
chunks, whatever the number of workers and files. -/
theorem C209_loader (disk : Disk α) (cfg : LoaderCfg) (d : Dataset α) (hs : Splittable d) (hdrop : cfg.dropLast = false) (hb : 0 < cfg.batchSize)
    (hdvd : max 1 cfg.numWorkers ∣ cfg.batchSize) (hn : d.files.Nodup) (hne : d.files ≠ [])
    (S : String → List (Sample α)) (hf : ∀ x ∈ d.files, processData disk d x = .ok (S x)) (hS : ∀ x ∈ d.files, WholeFile x (S x))
    (order : List Nat) (ho : order.Perm (List.range d.files.length)) (orders : List (List String) → List (List String))
    (hor : ∀ ls, List.Forall₂ List.Perm (orders ls) ls) (N : Nat) (hN : ∀ x ∈ d.files, (S x).length ≤ N) (fuel : Nat) :
    ∃ ds, loaderHeld disk cfg d order orders fuel = .ok ds ∧ ∀ e ∈ ds, (e.held : Int) ≤ (2 * cfg.batchSize - 1) * N := by
  obtain ⟨parts, hplen, h2, h3⟩ := split_ok disk d hs (max 1 cfg.numWorkers) cfg.batchSize (by omega) hb (Int.emod_eq_zero_of_dvd hdvd) cfg.shuffle false order ho
  have hpn : parts.flatten.Nodup := h2.nodup_iff.2 hn
  have hbn : 0 < cfg.batchSize / max 1 cfg.numWorkers := Int.ediv_pos_of_pos_of_dvd hb (by omega) hdvd
  have hf' : ∀ x ∈ parts.flatten, processData disk d x = .ok (S x) := fun x hx => hf x (h2.mem_iff.1 hx)
  obtain ⟨streams, h4, h5⟩ := iterAll_ok disk d (cfg.batchSize / max 1 cfg.numWorkers) hbn cfg.shuffle S parts (orders parts) (hor parts) hpn hf'
    (fun x hx => hS x (h2.mem_iff.1 hx))
  obtain ⟨m1, m2, m3⟩ := merge_once S parts streams hpn h5
  have hfiles : (parts.map (workerDataset disk d (cfg.batchSize / max 1 cfg.numWorkers) cfg.shuffle false)).map Dataset.files = parts := by
    rw [List.map_map]
    have : (Dataset.files ∘ workerDataset disk d (cfg.batchSize / max 1 cfg.numWorkers) cfg.shuffle false) = id := by funext p; rfl
    rw [this, List.map_id]
  have hload : loaderHeld disk cfg d order orders fuel = .ok (heldDuring fuel (mergeWorkers false streams)) := by
    unfold loaderHeld
    rw [hdrop, h3, Except.bind_ok', hfiles, h4, Except.bind_ok']
  refine ⟨_, hload, ?_⟩
  have h6 := iterAll_streams disk d (cfg.batchSize / max 1 cfg.numWorkers) cfg.shuffle S parts (orders parts) (hor parts) hf'
  rw [h4, Except.ok.injEq] at h6
  have hmerge : mergeWorkers false streams = zipLongest ((orders parts).map (streamsOf S (cfg.batchSize / max 1 cfg.numWorkers).toNat)).flatten := by rw [h6, merge_zip]
  obtain ⟨lanes, hlanes, hlen, hin⟩ : ∃ lanes : List (List String), ((orders parts).map (streamsOf S (cfg.batchSize / max 1 cfg.numWorkers).toNat)).flatten = lanes.map (fun l => l.flatMap S) ∧
      lanes.length = parts.length * (cfg.batchSize / max 1 cfg.numWorkers).toNat ∧ ∀ l ∈ lanes, ∀ x ∈ l, x ∈ parts.flatten := by
    refine ⟨(orders parts).flatMap fun o => (List.range (cfg.batchSize / max 1 cfg.numWorkers).toNat).map fun i => everyFrom i (cfg.batchSize / max 1 cfg.numWorkers).toNat o, ?_, ?_, ?_⟩
    · generalize orders parts = os
      induction os with
      | nil => rfl
      | cons o os ih =>
        rw [List.map_cons, List.flatten_cons, ih, List.flatMap_cons, List.map_append]
        congr 1
        unfold streamsOf
        rw [List.map_map]
        rfl
    · rw [← (hor parts).length_eq]
      generalize orders parts = os
      induction os with
      | nil => simp
      | cons o os ih =>
        rw [List.flatMap_cons, List.length_append, ih, List.length_map, List.length_range, List.length_cons, Nat.succ_mul]
        omega
    · intro l hl x hx
      obtain ⟨o, hom, hl⟩ := List.mem_flatMap.1 hl
      obtain ⟨i, _, rfl⟩ := List.mem_map.1 hl
      have hxo := (everyFrom_sublist _ _ o).subset hx
      obtain ⟨p, hp, hper⟩ := forall2_left (hor parts) hom
      exact List.mem_flatten.2 ⟨p, hp, hper.mem_iff.1 hxo⟩
  rw [hlanes] at hmerge
  have m1' : ∀ x ∈ d.files, ofFile x (mergeWorkers false streams).flatten = S x := fun x hx => m1 x (h2.mem_iff.2 hx)
  have m2' : ∀ s ∈ (mergeWorkers false streams).flatten, s.id ∈ d.files := fun s hs => h2.mem_iff.1 (m2 s hs)
  have hst : Steady (mergeWorkers false streams) := by
    rw [hmerge]
    exact steady_zip S lanes fun l hl x hx => hS x (h2.mem_iff.1 (hin l hl x hx))
  have hofN : ∀ j, (ofFile j (mergeWorkers false streams).flatten).length ≤ N := by
    intro j
    by_cases hj : j ∈ d.files
    · rw [m1' j hj]
      exact hN j hj
    · rw [ofFile_none fun s hs (he : s.id = j) => hj (by rw [← he]; exact m2' s hs)]
      simp
  cases hmw : mergeWorkers false streams with
  | nil =>
    intro e he
    cases he
  | cons b rest =>
    have hwf : WellFormed (b :: rest) := by
      rw [← hmw]
      refine ⟨⟨b, rest, hmw, m3 b (by rw [hmw]; simp)⟩, ?_⟩
      intro s hs
      rw [m1' s.id (m2' s hs)]
      exact hS s.id (m2' s hs)
    rw [hmw] at hst hofN
    have hz : ∀ (k : Nat) (c : List (Sample α)), (b :: rest)[k]? = some c → c = layer (lanes.map fun l => l.flatMap S) k := by
      intro k c hc
      rw [← hmw, hmerge] at hc
      have := zipLongest_toList (lanes.map fun l => l.flatMap S) k
      rw [hc] at this
      simpa using this
    have hb0 : b = layer (lanes.map fun l => l.flatMap S) 0 := hz 0 b rfl
    have hle : ∀ c ∈ rest, c.length ≤ b.length := by
      intro c hc
      obtain ⟨k, hk, rfl⟩ := List.mem_iff_getElem.1 hc
      have := hz (k + 1) rest[k] (by simp [hk])
      rw [this, hb0]
      exact layer_length_anti _ (Nat.zero_le _)
    have hbs : (b.length : Int) ≤ cfg.batchSize := by
      have h7 : b.length ≤ lanes.length := by
        rw [hb0]
        exact Nat.le_trans (layer_length_le _ _) (by simp)
      have h8 : (parts.length : Int) = max 1 cfg.numWorkers := by
        rw [hplen]
        omega
      have h9 : (lanes.length : Int) = cfg.batchSize := by
        rw [hlen]
        push_cast
        rw [h8, Int.toNat_of_nonneg (by omega)]
        exact Int.mul_ediv_cancel' hdvd
      omega
    intro e he
    have h10 := C209_bounded b rest hwf hst hle N hofN fuel e he
    have h11 : 0 < b.length := List.length_pos_iff.2 (m3 b (by rw [hmw]; simp)).1
    have h12 : (e.held : Int) ≤ ((2 * b.length - 1 : Nat) : Int) * N := by exact_mod_cast h10
    have h13 : (((2 * b.length - 1 : Nat) : Int)) ≤ 2 * cfg.batchSize - 1 := by omega
    exact Int.le_trans h12 (Int.mul_le_mul_of_nonneg_right h13 (by omega))
where
  forall2_left {os ps : List (List String)} (h : List.Forall₂ List.Perm os ps) {o : List String} (ho : o ∈ os) : ∃ p ∈ ps, o.Perm p := by
    induction h with
    | nil => cases ho
    | cons h1 _ ih =>
      rcases List.mem_cons.1 ho with rfl | hl
      · exact ⟨_, by simp, h1⟩
      · obtain ⟨q, hq, h3⟩ := ih hl
        exact ⟨q, by simp [hq], h3⟩

-- Non-trivial case: seven files of one or two chunks in batches of two; the bound is attained.
/-- Files of two chunks, except "a" and "c". -/
def exHeldFile (x : String) : List (Sample Nat) := exFile x (if x = "a" ∨ x = "c" then 1 else 2)
/-- The batches of a dataset of seven files with batch size two. -/
def exHeldStream : List (List (Sample Nat)) := zipLongest (streamsOf exHeldFile 2 ["a", "b", "c", "d", "e", "f", "g"])
theorem exHeldFile_whole (x : String) : WholeFile x (exHeldFile x) := exFile_whole x _ (by split <;> decide)
example : exHeldStream.map (fun b => b.map Sample.id) = [["a", "b"], ["c", "b"], ["e", "d"], ["e", "d"], ["g", "f"], ["g", "f"]] := by decide +kernel
example : WellFormed exHeldStream ∧ Steady exHeldStream ∧ (∀ c ∈ exHeldStream, c.length ≤ 2) ∧ (∀ j, (ofFile j exHeldStream.flatten).length ≤ 2) ∧
    6 ∈ (heldDuring 20 exHeldStream).map Bufs.held := by
  obtain ⟨bs, h1, h2, h3, h4, _⟩ := C75_exactly_once (fun x => .ok (exHeldFile x)) exHeldFile 2 (by decide) ["a", "b", "c", "d", "e", "f", "g"] (by decide) (fun _ _ => rfl)
    (fun x _ => exHeldFile_whole x)
  rw [getStreams_ok _ exHeldFile 2 false _ (fun _ _ => rfl)] at h1
  obtain rfl : exHeldStream = bs := by
    simp only [Bool.false_eq_true, if_false, Except.ok.injEq] at h1
    exact h1
  refine ⟨⟨⟨_, _, rfl, by decide +kernel, by decide +kernel⟩, ?_⟩, ?_, fun c hc => (h4 c hc).2.1, ?_, by decide +kernel⟩
  · intro s hs
    rw [h2 s.id (h3 s hs)]
    exact exHeldFile_whole _
  · have := steady_zip exHeldFile ((List.range 2).map fun i => everyFrom i 2 ["a", "b", "c", "d", "e", "f", "g"]) (fun _ _ x _ => exHeldFile_whole x)
    rw [List.map_map] at this
    exact this
  · intro j
    by_cases hj : j ∈ ["a", "b", "c", "d", "e", "f", "g"]
    · rw [h2 j hj]
      unfold exHeldFile exFile
      rw [List.length_map, List.length_range]
      split <;> omega
    · rw [ofFile_none fun s hs (he : s.id = j) => hj (by rw [← he]; exact h3 s hs)]
      simp
-- Non-trivial case: two workers, three files, batches of two; the bound is 9.
example : (loaderHeld exLoadDisk ⟨2, 2, false, false, false⟩ exLoad [1, 2, 0] id 20).map (fun l => l.map Bufs.held) = .ok [2, 4, 2, 3, 4, 3, 3, 2, 1, 0] := by decide +kernel

end
end DS.Data
