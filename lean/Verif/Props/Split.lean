import Verif.Props.Sync
/-!
# C78, C94: splitting a dataset among workers
-/

namespace DS.Data

section
variable {α : Type}

theorem mapPy_ok {β γ : Type} (f : β → Py γ) (g : β → γ) (l : List β) (h : ∀ x ∈ l, f x = .ok (g x)) : mapPy f l = .ok (l.map g) := by
  induction l with
  | nil => rfl
  | cons x xs ih =>
    unfold mapPy
    rw [h x (by simp), Except.bind_ok', ih (fun y hy => h y (by simp [hy])), Except.bind_ok']
    rfl

/-- A dataset as its constructor makes it, for which `split` finds what it looks up: every file has a length, and metadata if there are any. -/
structure Splittable (d : Dataset α) : Prop where
  seconds : d.chunkSeconds ≠ 0
  lengths : ∀ x ∈ d.files, (d.lengths.lookup x).isSome = true
  metadata : d.metadata = [] ∨ ∀ x ∈ d.files, (d.metadata.lookup x).isSome = true

/-- The metadata list handed to the dataset of a worker. -/
def partMeta (d : Dataset α) (part : List String) : List (String × Nat × Nat) :=
  if d.metadata = [] then [] else part.map fun x => (x, (d.metadata.lookup x).getD (0, 0))

/-- The dataset of a worker with the files `part`. -/
def workerDataset (disk : Disk α) (d : Dataset α) (bs : Int) (shuffle dropLast : Bool) (part : List String) : Dataset α :=
  let md := if partMeta d part = [] then part.map fun f => (f, (disk f).1.length, (disk f).2) else partMeta d part
  ⟨part, d.chunkSeconds, d.transform, none, bs, shuffle, dropLast, md, md.map fun e => (e.1, (e.2.1 : Rat) / (e.2.2 : Rat))⟩

theorem metaFor_ok (d : Dataset α) (hs : Splittable d) (part : List String) (hp : ∀ x ∈ part, x ∈ d.files) : metaFor d.metadata part = .ok (partMeta d part) := by
  unfold metaFor partMeta
  by_cases h : d.metadata = []
  · rw [if_pos h, if_pos h]
  · rw [if_neg h, if_neg h]
    apply mapPy_ok
    intro x hx
    have := (hs.metadata.resolve_left h) x (hp x hx)
    obtain ⟨v, hv⟩ := Option.isSome_iff_exists.1 this
    simp [lookupKey, hv, Except.map]

theorem splitOne_ok (disk : Disk α) (d : Dataset α) (bs : Int) (hb : 0 < bs) (shuffle dropLast : Bool) (part : List String) :
    splitOne disk d bs shuffle dropLast (part, partMeta d part) = .ok (workerDataset disk d bs shuffle dropLast part) := by
  unfold splitOne Dataset.new
  rw [if_neg (by omega)]
  rfl

/-- What `split` computes when it does not raise. -/
theorem split_ok (disk : Disk α) (d : Dataset α) (hs : Splittable d) (n bs : Int) (hn : 0 < n) (hb : 0 < bs) (hdvd : bs % n = 0) (shuffle dropLast : Bool)
    (order : List Nat) (ho : order.Perm (List.range d.files.length)) :
    ∃ parts : List (List String), parts.length = n.toNat ∧ parts.flatten.Perm d.files ∧
      d.split disk n bs shuffle dropLast order = .ok (parts.map (workerDataset disk d (bs / n) shuffle dropLast)) := by
  have h1 : mapPy (lookupKey d.lengths) d.files = .ok (d.files.map fun x => (d.lengths.lookup x).getD 0) := by
    apply mapPy_ok
    intro x hx
    obtain ⟨v, hv⟩ := Option.isSome_iff_exists.1 (hs.lengths x hx)
    simp [lookupKey, hv]
  have h2 : mapPy (numChunksOf d.chunkSeconds) (d.files.map fun x => (d.lengths.lookup x).getD 0) =
      .ok ((d.files.map fun x => (d.lengths.lookup x).getD 0).map fun l => ((pyRound (l / d.chunkSeconds) : Int) : Rat)) := by
    apply mapPy_ok
    intro l _
    unfold numChunksOf
    rw [if_neg hs.seconds]
  obtain ⟨ps, idxs, h3, _, h5, h6, _⟩ := C71_partition ((d.files.map fun x => (d.lengths.lookup x).getD 0).map fun l => ((pyRound (l / d.chunkSeconds) : Int) : Rat))
    n.toNat (by omega) false true rfl order (by simpa using ho)
  simp only [List.length_map] at h6
  have hlt : ∀ is ∈ idxs, ∀ i ∈ is, i < d.files.length := by
    intro is his i hi
    exact List.mem_range.1 (h6.mem_iff.1 (List.mem_flatten.2 ⟨is, his, hi⟩))
  have h7 : mapPy (mapPy fun i : Nat => pyGet d.files i) idxs = .ok (idxs.map fun is => is.map fun i => d.files.getD i "") := by
    apply mapPy_ok
    intro is his
    apply mapPy_ok
    intro i hi
    rw [pyGet_nat d.files i (hlt is his i hi)]
    simp [List.getD, hlt is his i hi]
  have hperm : (idxs.map fun is => is.map fun i => d.files.getD i "").flatten.Perm d.files := by
    rw [← List.map_flatten]
    refine (h6.map _).trans ?_
    have : (List.range d.files.length).map (fun i => d.files.getD i "") = d.files := by
      apply List.ext_getElem
      · simp
      · intro i h1 h2
        simp [List.getD, h2]
    rw [this]
  refine ⟨idxs.map fun is => is.map fun i => d.files.getD i "", by simp [h5], hperm, ?_⟩
  have h8 : mapPy (metaFor d.metadata) (idxs.map fun is => is.map fun i => d.files.getD i "") =
      .ok ((idxs.map fun is => is.map fun i => d.files.getD i "").map (partMeta d)) := by
    apply mapPy_ok
    intro part hp
    apply metaFor_ok d hs
    intro x hx
    exact hperm.mem_iff.1 (List.mem_flatten.2 ⟨part, hp, hx⟩)
  have hbn : 0 < bs / n := Int.ediv_pos_of_pos_of_dvd hb (by omega) (Int.dvd_of_emod_eq_zero hdvd)
  unfold Dataset.split
  rw [if_neg (by omega), if_neg (by simp [hdvd]), h1, Except.bind_ok', h2, Except.bind_ok', h3, Except.bind_ok', h7, Except.bind_ok', h8, Except.bind_ok']
  generalize (idxs.map fun is => is.map fun i => d.files.getD i "") = parts
  have hz : parts.zip (parts.map (partMeta d)) = parts.map fun p => (p, partMeta d p) := by
    induction parts with
    | nil => rfl
    | cons p ps ih => simp [ih]
  rw [hz]
  have := mapPy_ok (splitOne disk d (bs / n) shuffle dropLast) (fun p => workerDataset disk d (bs / n) shuffle dropLast p.1) (parts.map fun p => (p, partMeta d p)) (by
    intro p hp
    obtain ⟨q, _, rfl⟩ := List.mem_map.1 hp
    exact splitOne_ok disk d (bs / n) hbn shuffle dropLast q)
  rw [this, List.map_map]
  rfl

/-- C78: `split(n, batch_size)` raises ValueError iff `n ≤ 0` or `n` does not divide `batch_size`; otherwise it returns `n` datasets whose file lists together
are a permutation of the files and whose batch sizes add up to `batch_size`. -/
theorem C78_split (disk : Disk α) (d : Dataset α) (hs : Splittable d) (n bs : Int) (hb : 0 < bs) (shuffle dropLast : Bool)
    (order : List Nat) (ho : order.Perm (List.range d.files.length)) :
    (d.split disk n bs shuffle dropLast order = .error .valueError ↔ n ≤ 0 ∨ ¬ n ∣ bs) ∧
    (0 < n → n ∣ bs → ∃ ds, d.split disk n bs shuffle dropLast order = .ok ds ∧ (ds.length : Int) = n ∧ (ds.map Dataset.files).flatten.Perm d.files ∧
      (ds.map Dataset.batchSize).sum = bs ∧ ∀ d' ∈ ds, 0 < d'.batchSize ∧ d'.shuffle = shuffle ∧ d'.dropLast = dropLast) := by
  have key : 0 < n → n ∣ bs → ∃ ds, d.split disk n bs shuffle dropLast order = .ok ds ∧ (ds.length : Int) = n ∧ (ds.map Dataset.files).flatten.Perm d.files ∧
      (ds.map Dataset.batchSize).sum = bs ∧ ∀ d' ∈ ds, 0 < d'.batchSize ∧ d'.shuffle = shuffle ∧ d'.dropLast = dropLast := by
    intro hn hdvd
    obtain ⟨parts, h1, h2, h3⟩ := split_ok disk d hs n bs hn hb (Int.emod_eq_zero_of_dvd hdvd) shuffle dropLast order ho
    refine ⟨_, h3, by rw [List.length_map, h1]; omega, ?_, ?_, ?_⟩
    · rw [List.map_map]
      have : (Dataset.files ∘ workerDataset disk d (bs / n) shuffle dropLast) = id := by funext p; rfl
      rw [this, List.map_id]
      exact h2
    · rw [List.map_map]
      have : ∀ l : List (List String), (l.map (Dataset.batchSize ∘ workerDataset disk d (bs / n) shuffle dropLast)).sum = l.length * (bs / n) := by
        intro l
        induction l with
        | nil => simp
        | cons p ps ih =>
          rw [List.map_cons, List.sum_cons, ih]
          show bs / n + _ = _
          simp only [List.length_cons, Nat.cast_add, Nat.cast_one]
          rw [Int.add_mul, Int.one_mul, Int.add_comm]
      rw [this, h1]
      have : ((n.toNat : Nat) : Int) = n := by omega
      rw [this, Int.mul_ediv_cancel' hdvd]
    · intro d' hd'
      obtain ⟨p, _, rfl⟩ := List.mem_map.1 hd'
      exact ⟨Int.ediv_pos_of_pos_of_dvd hb (by omega) hdvd, rfl, rfl⟩
  refine ⟨⟨?_, ?_⟩, key⟩
  · intro h
    by_contra hcon
    simp only [not_or, not_le, not_not] at hcon
    obtain ⟨ds, h', _⟩ := key hcon.1 hcon.2
    rw [h] at h'
    cases h'
  · intro h
    unfold Dataset.split
    by_cases hn : n ≤ 0
    · rw [if_pos hn]
    · rw [if_neg hn, if_pos]
      intro h0
      exact (h.resolve_left hn) (Int.dvd_of_emod_eq_zero h0)

/-- The hypothesis `batch_size ≥ 1` of C78 matters: a batch size of 0 passes the divisibility check and fails an assertion. -/
theorem C78_zero_batch (disk : Disk α) (shuffle dropLast : Bool) :
    Dataset.split disk ⟨[], 1, none, none, 1, false, false, [], []⟩ 2 0 shuffle dropLast [] = .error .assertionError := by
  rfl

/-- A dataset of four files with lengths given in seconds. -/
def exDataset : Dataset Nat := ⟨["a", "b", "c", "d"], 1, none, some ["C", "B", "L"], 4, false, false, [], [("a", 5), ("b", 2), ("c", 2), ("d", 1)]⟩
example : Splittable exDataset := ⟨by decide +kernel, by decide, Or.inl rfl⟩
example : (exDataset.split (fun _ => ([0], 1)) 2 4 true false [3, 1, 2, 0]).map (fun ds => ds.map fun d => (d.files, d.batchSize)) =
    .ok [(["d", "c"], 2), (["b", "a"], 2)] := by decide +kernel
example : (exDataset.split (fun _ => ([0], 1)) 3 4 true false [3, 1, 2, 0]).map (fun ds => ds.map fun d => (d.files, d.batchSize)) = .error .valueError := by
  decide +kernel

/-- C94 is false: `split` drops `names`, and file lengths that were given to the constructor are read again from disk. -/
theorem C94_false : ∃ (disk : Disk Nat) (d : Dataset Nat) (ds : List (Dataset Nat)),
    Dataset.new disk ["a"] 1 (some [5]) none (some ["C", "B", "L"]) [] 1 false false = .ok d ∧ d.split disk 1 1 false false [0] = .ok ds ∧
      d.names = some ["C", "B", "L"] ∧ d.lengths.lookup "a" = some 5 ∧ ds.map Dataset.names = [none] ∧ ds.map (fun d' => d'.lengths.lookup "a") = [some 3] := by
  refine ⟨fun _ => ([0, 0, 0], 1), _, _, rfl, rfl, rfl, rfl, rfl, ?_⟩
  decide +kernel

theorem lookup_map_self {β γ : Type} (part : List String) (f : String → β) (g : β → γ) (x : String) (hx : x ∈ part) :
    ((part.map fun y => (y, f y)).map fun e => (e.1, g e.2)).lookup x = some (g (f x)) := by
  induction part with
  | nil => cases hx
  | cons y ys ih =>
    simp only [List.map_cons, List.lookup_cons]
    by_cases h : x = y
    · simp [h]
    · have hb : (x == y) = false := by simpa using h
      rw [hb]
      exact ih ((List.mem_cons.1 hx).resolve_left h)

/-- C94, what holds: the parts keep `chunk_seconds` and the transform; their names are always `None`; and if the dataset's lengths come from file metadata,
every part keeps the lengths of its files. Missing: names, and lengths given to the constructor. -/
theorem C94_partial (disk : Disk α) (d : Dataset α) (hs : Splittable d) (n bs : Int) (hn : 0 < n) (hb : 0 < bs) (hdvd : n ∣ bs) (shuffle dropLast : Bool)
    (order : List Nat) (ho : order.Perm (List.range d.files.length)) :
    ∃ ds, d.split disk n bs shuffle dropLast order = .ok ds ∧ ∀ d' ∈ ds, d'.chunkSeconds = d.chunkSeconds ∧ d'.transform = d.transform ∧ d'.names = none ∧
      (d.metadata ≠ [] → d.lengths = d.metadata.map (fun e => (e.1, (e.2.1 : Rat) / (e.2.2 : Rat))) → ∀ x ∈ d'.files, d'.lengths.lookup x = d.lengths.lookup x) := by
  obtain ⟨parts, h1, h2, h3⟩ := split_ok disk d hs n bs hn hb (Int.emod_eq_zero_of_dvd hdvd) shuffle dropLast order ho
  refine ⟨_, h3, ?_⟩
  intro d' hd'
  obtain ⟨p, hp, rfl⟩ := List.mem_map.1 hd'
  refine ⟨rfl, rfl, rfl, ?_⟩
  intro hmd hl x hx
  have hx' : x ∈ p := hx
  have hpm : partMeta d p = p.map fun x => (x, (d.metadata.lookup x).getD (0, 0)) := by
    unfold partMeta
    rw [if_neg hmd]
  have hne : partMeta d p ≠ [] := by
    rw [hpm]
    intro h
    rw [List.map_eq_nil_iff] at h
    rw [h] at hx'
    cases hx'
  have hxf : x ∈ d.files := h2.mem_iff.1 (List.mem_flatten.2 ⟨p, hp, hx'⟩)
  obtain ⟨v, hv⟩ := Option.isSome_iff_exists.1 ((hs.metadata.resolve_left hmd) x hxf)
  show List.lookup x ((if partMeta d p = [] then _ else partMeta d p).map fun e => (e.1, (e.2.1 : Rat) / (e.2.2 : Rat))) = _
  rw [if_neg hne, hpm, lookup_map_self p (fun x => (d.metadata.lookup x).getD (0, 0)) (fun v => (v.1 : Rat) / (v.2 : Rat)) x hx', hl, hv]
  have : ∀ l : List (String × Nat × Nat), (l.map fun e => (e.1, (e.2.1 : Rat) / (e.2.2 : Rat))).lookup x = (l.lookup x).map fun v => (v.1 : Rat) / (v.2 : Rat) := by
    intro l
    induction l with
    | nil => rfl
    | cons e es ih =>
      obtain ⟨k, w⟩ := e
      simp only [List.map_cons, List.lookup_cons]
      cases x == k
      · exact ih
      · rfl
  rw [this, hv]
  rfl

/-- A dataset whose lengths come from metadata. -/
def exDatasetMd : Dataset Nat := ⟨["a", "b"], 1, none, none, 2, false, false, [("a", 4, 2), ("b", 2, 2)], [("a", 4 / 2), ("b", 2 / 2)]⟩
example : Splittable exDatasetMd ∧ exDatasetMd.metadata ≠ [] := ⟨⟨by decide +kernel, by decide, Or.inr (by decide)⟩, by decide⟩

end
end DS.Data
