import Verif.Model.MetaCat
import Mathlib.Data.Rat.Floor
/-!
# Model of the data loading side (dreamstream/data/stream_dataset.py), except `make_streams_synchronous` (Model/Sync.lean)

Generators are the lists of what they yield; a generator that raises midway is the exception alone (what it yielded before
is dropped). Audio is its list of frames along the last axis (`α` is a frame with all its channels). Seconds are exact rationals
instead of floats. Random orders (`random.sample`, `np.argsort` on ties) are parameters. Worker processes are sequential code.
Paths are strings, so `str(file)` is `file`.
-/

namespace DS.Data

/-- `StreamSample`, data_objects.py:13-25 (without `file_metadata`; `file` and `id` coincide for AudioStreamDataset). -/
structure Sample (α : Type) where
  data : List α
  sos : Bool
  eos : Bool
  length : Nat
  chunkIndex : Nat
  numChunks : Nat
  id : String
  deriving DecidableEq, Repr

/-! ## partition_by_sum -/

/-- `sums.index(min(sums))`, stream_dataset.py:56: the first position of the least element; ValueError for an empty list. -/
def argmin : List Rat → Py Nat
  | [] => .error .valueError
  | x :: xs => .ok ((x :: xs).idxOf (xs.foldl min x))

/-- State of the loop 55-59: `partitions`, `indices_partitions`, `sums`. -/
structure Parts where
  parts : List (List Rat)
  idxs : List (List Nat)
  sums : List Rat
  deriving DecidableEq, Repr

/-- One iteration of the loop, stream_dataset.py:55-59. -/
def partStep (values : List Rat) (s : Parts) (i : Nat) : Py Parts := do
  let m ← argmin s.sums
  let v ← pyGet values i
  .ok { parts := s.parts.modify m (· ++ [v])
        idxs := s.idxs.modify m (· ++ [i])
        sums := s.sums.modify m (· + v) }

/-- The loop. -/
def partLoop (values : List Rat) (s : Parts) : List Nat → Py Parts
  | [] => .ok s
  | i :: is => do
    let s' ← partStep values s i
    partLoop values s' is

/-- `partition_by_sum`, stream_dataset.py:24-61. `order` is `indices` after lines 44-50: `argsort`, `range` or a shuffled `range`;
the error for `shuffle and sort` is modelled by the two flags. -/
def partitionBySum (values : List Rat) (n : Nat) (shuffle sort : Bool) (order : List Nat) : Py (List (List Rat) × List (List Nat)) :=
  if shuffle && sort then .error .valueError
  else do
    let s ← partLoop values ⟨List.replicate n [], List.replicate n [], List.replicate n 0⟩ order
    .ok (s.parts, s.idxs)

/-! ## AudioStreamDataset -/

section
variable {α : Type}

/-- Python's `round` to an int: half to even. -/
def pyRound (q : Rat) : Int :=
  let f := q.floor
  let r := q - f
  if r < 1 / 2 then f else if 1 / 2 < r then f + 1 else if f % 2 = 0 then f else f + 1

/-- `[audio[..., i : i + chunk_size] for i in range(0, audio.shape[-1], chunk_size)]`, stream_dataset.py:207, for `chunk_size ≥ 1`. -/
def chunksOf (c : Nat) (audio : List α) : List (List α) :=
  (List.range ((audio.length + c - 1) / c)).map fun k => (audio.drop (k * c)).take c

/-- Lines 207-221: ValueError for chunk size 0 (`range` step), no chunks at all for a negative one. The samples carry
`data=audio` (211). -/
def chunkSamples (c : Int) (file : String) (audio : List α) : Py (List (Sample α)) :=
  if c = 0 then .error .valueError
  else
    let chunks := if c < 0 then [] else chunksOf c.toNat audio
    .ok (chunks.mapIdx fun i ch =>
      { data := audio, sos := decide (i = 0), eos := decide (i + 1 = chunks.length), length := ch.length,
        chunkIndex := i, numChunks := chunks.length, id := file })

/-- What is on disk: `torchaudio.load(file)` gives frames and sample rate; `torchaudio.info` gives their number and the rate. -/
abbrev Disk (α : Type) := String → List α × Nat

/-- An `AudioStreamDataset` object, stream_dataset.py:147-160. `metadata` is `file_metadata` as a list of (file, num_frames, sample_rate),
`lengths` is `file_lengths` as an association list. The transform is a function on the frames. -/
structure Dataset (α : Type) where
  files : List String
  chunkSeconds : Rat
  transform : Option (List α → List α)
  names : Option (List String)
  batchSize : Int
  shuffle : Bool
  dropLast : Bool
  metadata : List (String × Nat × Nat)
  lengths : List (String × Rat)

/-- `AudioStreamDataset.__init__`, stream_dataset.py:147-160, with `get_file_metadata` 173-175 (a dict comprehension: duplicates keep one entry; kept here,
lookups see the first and the entries are equal; for given lengths the last entry of a file wins, hence the `reverse`). A sample rate of 0 (ZeroDivisionError) is not modelled. `batch_size=None` is in `Model/DatasetAttr.lean`. -/
def Dataset.new (disk : Disk α) (files : List String) (chunkSeconds : Rat) (lengths : Option (List Rat)) (transform : Option (List α → List α))
    (names : Option (List String)) (metadata : List (String × Nat × Nat)) (batchSize : Int) (shuffle dropLast : Bool) : Py (Dataset α) :=
  if batchSize ≤ 0 then .error .assertionError                       -- 170
  else
    match lengths with
    | none =>                                                         -- 155-157: `file_metadata or self.get_file_metadata()`
      let md := if metadata = [] then files.map fun f => (f, (disk f).1.length, (disk f).2) else metadata
      .ok ⟨files, chunkSeconds, transform, names, batchSize, shuffle, dropLast, md, md.map fun e => (e.1, (e.2.1 : Rat) / (e.2.2 : Rat))⟩
    | some ls => .ok ⟨files, chunkSeconds, transform, names, batchSize, shuffle, dropLast, [], (files.zip ls).reverse⟩   -- 158-160

/-- `process_data`, stream_dataset.py:193-221. -/
def processData (disk : Disk α) (d : Dataset α) (file : String) : Py (List (Sample α)) :=
  let numFrames := (disk file).1.length
  let audio := (d.transform.getD id) (disk file).1
  if audio.length = 0 then .error .zeroDivisionError                 -- 205
  else
    let stride : Rat := (numFrames : Rat) / (audio.length : Rat)
    if stride = 0 then .error .zeroDivisionError                     -- 206
    else chunkSamples (pyRound (d.chunkSeconds * ((disk file).2 : Rat) / stride)) file audio

/-- `itertools.chain.from_iterable(map(self.process_data, file_list))`, stream_dataset.py:225. -/
def chainStreams (f : String → Py (List (Sample α))) : List String → Py (List (Sample α))
  | [] => .ok []
  | x :: xs => do
    let a ← f x
    let b ← chainStreams f xs
    .ok (a ++ b)

/-- `file_list[i :: b]`, stream_dataset.py:243. -/
def everyFrom {β : Type} (i b : Nat) (xs : List β) : List β :=
  (xs.zipIdx.filter fun p => decide (i ≤ p.2) && decide ((p.2 - i) % b = 0)).map Prod.fst

/-- All streams, or the first exception. -/
def allStreams (f : String → Py (List (Sample α))) : List (List String) → Py (List (List (Sample α)))
  | [] => .ok []
  | x :: xs => do
    let a ← chainStreams f x
    let b ← allStreams f xs
    .ok (a :: b)

/-- The largest length (0 for no streams). -/
def maxLen {β : Type} (ss : List (List β)) : Nat := (ss.map List.length).foldr max 0

/-- The least length (0 for no streams). -/
def minLen {β : Type} : List (List β) → Nat
  | [] => 0
  | s :: ss => (ss.map List.length).foldr min s.length

/-- What the `k`-th step of a zip gets from the streams that still have an element. -/
def layer {β : Type} (ss : List (List β)) (k : Nat) : List β := ss.filterMap (·[k]?)

/-- `zip_longest(*streams)` with the `None`s filtered out, stream_dataset.py:248-249, 493-494. -/
def zipLongest {β : Type} (ss : List (List β)) : List (List β) := (List.range (maxLen ss)).map (layer ss)

/-- `zip(*streams)`, stream_dataset.py:245, 489. -/
def zipShort {β : Type} (ss : List (List β)) : List (List β) := (List.range (minLen ss)).map (layer ss)

/-- `sample.eos = True`. -/
def Sample.end (s : Sample α) : Sample α := { s with eos := true }

/-- `force_is_last_on_last_batch`, stream_dataset.py:177-191; `next` on an empty stream inside a generator is a RuntimeError (PEP 479). -/
def forceLast : List (List (Sample α)) → Py (List (List (Sample α)))
  | [] => .error .runtimeError
  | [b] => .ok [b.map Sample.end]
  | b :: b' :: bs => do
    let r ← forceLast (b' :: bs)
    .ok (b :: r)

/-- `get_streams`, stream_dataset.py:227-251; `order` is `file_list` after 237-240 (a shuffled copy, or the file list itself). -/
def getStreams (f : String → Py (List (Sample α))) (batchSize : Nat) (dropLast : Bool) (order : List String) : Py (List (List (Sample α))) := do
  let ss ← allStreams f ((List.range batchSize).map fun i => everyFrom i batchSize order)
  if dropLast then forceLast (zipShort ss) else .ok (zipLongest ss)

/-- Iterating a dataset, stream_dataset.py:253-254. -/
def Dataset.iter (disk : Disk α) (d : Dataset α) (order : List String) : Py (List (List (Sample α))) :=
  getStreams (processData disk d) d.batchSize.toNat d.dropLast order

/-! ### collation -/

/-- `concatenate_ragged`, stream_dataset.py:64-77, on frames: every row is padded at the end with `pad` to the longest. An empty batch is an
IndexError (71, `batch[0]`). -/
def ragged (pad : α) (rows : List (List α)) : Py (List (List α)) :=
  if rows = [] then .error .indexError
  else .ok (rows.map fun r => r ++ List.replicate (maxLen rows - r.length) pad)

/-- `sorted(batch, key=lambda x: x.length, reverse=True)`, stream_dataset.py:259 (stable). -/
def sortByLength (b : List (Sample α)) : List (Sample α) := b.mergeSort fun x y => decide (y.length ≤ x.length)

/-- `custom_collate`, stream_dataset.py:256-274: the padded data and the metadata. `refine_names` (273) is not modelled. -/
def collate (pad : α) (batch : List (Sample α)) : Py (List (List α) × Meta) := do
  let b := sortByLength batch
  let data ← ragged pad (b.map Sample.data)
  let m ← Meta.init (b.map Sample.id) (b.map Sample.sos) (b.map Sample.eos) (b.map fun s => (s.length : Int)) (some (b.map fun s => (s.chunkIndex : Int)))
  .ok (data, m)

/-! ### split -/

/-- `dict[key]` on an association list. -/
def lookupKey {β : Type} (d : List (String × β)) (k : String) : Py β :=
  match d.lookup k with
  | some v => .ok v
  | none => .error .keyError

/-- `[f(x) for x in xs]` where `f` may raise. -/
def mapPy {β γ : Type} (f : β → Py γ) : List β → Py (List γ)
  | [] => .ok []
  | x :: xs => do
    let a ← f x
    let b ← mapPy f xs
    .ok (a :: b)

/-- Line 287: `round(length / self.chunk_seconds)`. -/
def numChunksOf (cs : Rat) (l : Rat) : Py Rat :=
  if cs = 0 then .error .zeroDivisionError else .ok (pyRound (l / cs) : Int)

/-- Line 291-294. -/
def metaFor (md : List (String × Nat × Nat)) (part : List String) : Py (List (String × Nat × Nat)) :=
  if md = [] then .ok []
  else mapPy (fun f => (lookupKey md f).map fun v => (f, v)) part

/-- The constructor call, lines 299-307: no `names`, no `file_lengths`. -/
def splitOne (disk : Disk α) (d : Dataset α) (bs : Int) (shuffle dropLast : Bool) (p : List String × List (String × Nat × Nat)) : Py (Dataset α) :=
  Dataset.new disk p.1 d.chunkSeconds none d.transform none p.2 bs shuffle dropLast

/-- `AudioStreamDataset.split`, stream_dataset.py:276-310; `order` is `np.argsort(num_chunks_per_file)`. -/
def Dataset.split (disk : Disk α) (d : Dataset α) (numWorkers batchSize : Int) (shuffle dropLast : Bool) (order : List Nat) : Py (List (Dataset α)) :=
  if numWorkers ≤ 0 then .error .valueError
  else if batchSize % numWorkers ≠ 0 then .error .valueError
  else do
    let lens ← mapPy (lookupKey d.lengths) d.files
    let chunks ← mapPy (numChunksOf d.chunkSeconds) lens
    let parts ← partitionBySum chunks numWorkers.toNat false true order
    let fileLists ← mapPy (mapPy fun i : Nat => pyGet d.files i) parts.2
    let metas ← mapPy (metaFor d.metadata) fileLists
    mapPy (splitOne disk d (batchSize / numWorkers) shuffle dropLast) (fileLists.zip metas)

end

end DS.Data
