# Design

Subject: `borgholt/dreamstream`, source read as text in `/repo`. Nothing is executed; the only tie between the
theorems and the code is the reading of the code recorded in the comments of the model (`lean/Verif/Model/*`).

## 1. Layout

| directory | content |
|---|---|
| `lean/Verif/Py.lean` | Python/torch primitives used by the code: exception kinds, `slice.indices`, list slicing, index normalisation, torch `clip`, floor division |
| `lean/Verif/Model/*` | function-by-function model; each definition cites file and lines and states its simplifications |
| `lean/Verif/Spec/*` | small specification files: what a user means, written without model helpers (rows, frames, windows, per-file sequences) |
| `lean/Verif/Lemmas/*` | helper lemmas |
| `lean/Verif/Props/*` | the property theorems, one file per group, each followed by an `example` with a concrete non-trivial instance of its hypotheses; refutations (`_false`) with concrete witnesses |
| `lean/Verif/Tests/*` | the assertions of the repository's own tests (`tests/test_tensor.py`, `tests/patches/test_conv.py`, `tests/data/test_stream_dataset.py`) transcribed as `example`s that evaluate the model; tests of the reading, not proofs |

Conventions: exceptions are values (`Py α := Except PyErr α`, `PyErr` records only the exception class); integers are
unbounded `Int`/`Nat`; tensors of metadata are `List`; sequences of frames are `List α` with channels folded into the
frame type `α`. `_partial` marks a theorem that covers only part of the English statement.

## 2. Trusted base

* Lean 4.33.0 kernel; the axioms `propext`, `Classical.choice`, `Quot.sound` (printed per theorem by the gate; none of our own).
* The reading of `/repo` (cited per definition).
* Assumed behaviour of libraries that is *modelled, not proved*:
  * CPython: `slice.indices`, list slicing/insert/`del`/`in`, dict insertion order, `sorted` stability, `zip`/`zip_longest`,
    PEP 479 (a `StopIteration` inside a generator becomes `RuntimeError`), `match` patterns.
  * torch: 1-D indexing by int/slice/list/mask (IndexError on out of range, ValueError on non-positive step, a *tuple* is a
    multi-axis index), `clip` with `min > max` returns `max`, `min()/max()` of an empty tensor raise RuntimeError, `split`,
    `cat`, `stack` (TypeError on `None`), `roll`, `F.pad`, `conv1d` (RuntimeError when the padded input is shorter than the
    dilated kernel), `rename_/refine_names` (RuntimeError on a wrong number of names or duplicates), axis normalisation, `as_tensor` sharing storage,
    slices being views. Gradients: which functions keep tensors for the backward pass, `torch.Tensor(x)` and slices keep the graph, a second backward pass over a node with
    released tensors raises RuntimeError.
  * numba: `nopython` code does not check array bounds (`array[0]` of an empty array reads arbitrary memory; modelled as an arbitrary parameter).
* Not modelled: floating point in the data (conv outputs are an arbitrary function of the window; `output * mask` is zero where the mask is, also for infinite outputs).
  Outside of `Model/Machine` and `Model/Machine64` lengths are unbounded integers and `div(stride).ceil()` is exact (right for rows of up to 2^24 frames, C150, and totals below 2^31, C151).
  Also not modelled: dtype and device handling (except where the stream buffers of a model are kept, `Model/Move`), gradients as values (the recorded graph is modelled, `Model/Grad`), warning texts, file I/O and
  `torchaudio` (only that reading a file may raise), worker processes of `DataLoader` (each worker's stream is delivered in order), `padding_mode != "zeros"`,
  `MultiLengthStreamMetadata` (raises), the rounding of floats in `utils/timing.py`, the example scripts.

## 3. What is modelled

| model file | code | notes |
|---|---|---|
| `Model/Meta`, `Model/MetaCat` | `tensor.py` `StreamMetadata`: constructor checks, summaries, `index`, `index_batch`, `index_length*`, 2-D masks, `drop_empty`, `cat_batch`, `cat_length`, `split_*`, `unbind_batch`, `__eq__` | immutable values; constructor runs at once |
| `Model/Numba` | `utils/numba.py` | unchecked reads are an arbitrary parameter `junk` |
| `Model/Residual` | `conv(x) + x` with a patched online convolution: broadcasting, comparison of metadata, what the call leaves of `x` | without chunk indices in the positive results |
| `Model/FromFiles` | the collated batches of a loader as stream tensors (batch, channels, length), which are then given to the convolution | one value of type `α` stands for all channels of a frame |
| `Model/Timing` | `utils/timing.py`: `format_time` (with Python's `%.*g`), `timeit` (number of iterations, summary, warning), `report_timings` | exact rationals; texts are lists of characters; the standard deviation is a parameter |
| `Model/Program` | programs of elementwise functions and patched convolutions whose variables share metadata objects (tensor.py:816-836, overrides.py:213-256), and the same programs with immutable values | frames are never shared; ends with the first exception |
| `Model/Grad` | the graph that torch records through `stream_buffer` (`patches/conv.py`, `overrides.conv1d`), `backward` after each call | sizes and values left out: calls are taken to be accepted |
| `Model/Machine64` | Python floats in the chunk size of `process_data` | no overflow, underflow, special values |
| `Model/MetaIndex` | `tensor.py` `StreamMetadata.index`/`__getitem__` on every kind of index | |
| `Model/Machine` | the float32 division of `_index_length_slice`, the 32-bit sums of `cat_length` | rounding to nearest even on rationals; no overflow of floats |
| `Model/Warn` | `warnings.py` | Python's `warnings` module by filters, version and registries |
| `Model/Cache` | setters, caches, dirty flags of `StreamMetadata` | state machine |
| `Model/Heap` | storage sharing of columns, lazily forced clones, batch slices as views | heap of cells |
| `Model/Lazy` | `LazyProxy`, id part of `__repr__` | |
| `Model/Tensor` | torch on named tensors of any rank (trusted description) | a tensor is shape, names and a function from multi-indices to entries |
| `Model/Overrides` | `overrides.py`: `cat`, `permute`, `split`, `unbind`, `narrow`, `gather`, `take_along_dim`, `index_select`, `scatter_add/reduce`, `flatten`, `squeeze`, `unsqueeze`; `tensor.py`: `recouple`, `default_valid`, `drop_empty`, `unpad_sequence`, keyword dispatch; `utils/operations.py` | |
| `Model/Index` | `overrides.py` ellipsis and index analysis, `__getitem__`, `select` | index entries: ints, slices, `None`, Ellipsis, lists, 1-D index and bool tensors |
| `Model/Pad` | `nn/utils/pad_sequence.py` | |
| `Model/Conv` | `overrides.conv1d`, `patches/conv.py`, stacks of layers | frames with channels folded in; the kernel is an arbitrary function of the frames it touches |
| `Model/ConvTen` | the same code on named tensors with channels, weights, bias and groups: axes by position, `F.pad`, `roll`, masking, `permute` in the hooks, `torch.stack` of buffers | exact entries (any commutative monoid with a product); refines `Model/Conv` (C171) |
| `Model/ConvStack` | patched stacks on named tensors: `Conv1d` with any numbers of channels, entrywise functions, functions along the channels (`log_softmax(dim=1)`), and the ordinary model on ordinary tensors (torch) | functions in place are taken as returning new tensors; refines the stacks of `Model/Conv` (C175) |
| `Model/PipelineTen` | the program of examples/wav2letter.py on named tensors, call by call: `pad_full_sequence`, `align_to`, `unpad_sequence`, `split`, the dealing rounds, `pad_stream_tensor`, the patched model, `OutputCollector` (data_objects.py:102-136) | `align_to` is a trusted description of torch (without `...`); the ids are distinct; random choices are arguments; refines Model/Pipeline (`C176_refines`) |
| `Model/DatasetAttr` | the property `batch_size` of `AudioStreamDataset` with `None`, its setter, and iterating and splitting with it (stream_dataset.py:147-171, 227-310) | sizes are ints |
| `Model/DimNames` | `split_dim_names` (overrides.py:329-331) | strings are lists of characters |
| `Model/Copying` | deepcopy and pickle of patched models (patches/modes.py:21-26, patches/conv.py:60-73) | what `copy`, `pickle` and torch do with plain attributes, bound methods and tensors that require gradients is trusted |
| `Model/Move` | devices and precisions of stream buffers (patches/conv.py:13-64, overrides.py:238-249) | sizes and values are left out; type promotion and checks of torch are trusted |
| `Model/CollectorDict` | `pop`, `del` and `clear` of an `OutputCollector` (data/data_objects.py:102-136) | other methods of `dict` are left out |
| `Model/Threads` | several threads that call one online model (patches/conv.py:13-57) or update one collector (data/data_objects.py:108-136) | a thread is a program of single operations on the shared dictionary (`in`, get, set, del), each of which is atomic (CPython); what lies between them depends on nothing shared |
| `Model/Branches` | modules that give parts of the channels to two patched `Conv1d` and concatenate the results (overrides.py:52-90, 124-139, 576-589 with patches/conv.py) | parts with metadata of their own (`narrow`) or with one shared object (`split`); copies are made at once (in the library at first use) |
| `Model/Checkpoint` | `state_dict` and `load_state_dict` of patched models (patches/conv.py:63-64) | that a plain dict is not part of the state is trusted (torch) |
| `Model/Quantize` | quantisation overrides (overrides.py:166-180) | rounding is an arbitrary function of entry and tensor; dtype and torch's checks of scales are left out |
| `Model/Registry` | `implements`, `augment_documentation` (overrides.py:18-20, 35-50) | functions are numbers with name, documentation and `__wrapped__` |
| `Model/Scrape` | `doc_scrape/pointwise-ops.py` (88-198), `utils/listloaders.py` | the trials of a function are three booleans; the HTML page is the list of names in it; files are texts |
| `Model/Setitem` | `x[index] = value` through `default_valid` (tensor.py:807-836) | torch's assignment is a trusted description; the value shares no memory with `x` |
| `Model/ScalarIndex` | indices that are integer tensors without axes (overrides.py:404-421, 476-572) | torch treats them as ints (trusted) |
| `Model/Iterate` | iterating over a StreamTensor (overrides.py:142-163) | the iterator is the list of its items |
| `Model/Accessors` | `has_batch_dim`, `batch_dim`, `is_batch_dim` and the same for length (tensor.py:838-871) | |
| `Model/ConvMem` | side effects of convolution calls: metadata and frames of the caller, buffers that are views of the caller's memory, failing calls, changing modes | writes and calls as events |
| `Model/Lists` | `split` with a tuple of sections; `default_valid` with tensors in lists (`torch.stack`) | lists are not nested |
| `Model/Elementwise` | elementwise functions with broadcasting, default-valid and recoupled, and their in-place forms | values only; names as in torch's unification from the right |
| `Model/Pipeline` | `examples/wav2letter.py`: cutting, dealing into batches, streaming through a stack, collecting | random draws are arguments |
| `Model/Construct` | `StreamMetadata.__init__` on raw arguments, `as_stream_tensor`, `stream_tensor`, `decouple`, `.T`, `decouple_recursive`, `rand_stream_tensor` | containers are lists, tuples, named tuples, dicts, `defaultdict`s and "other"; random draws are arguments |
| `Model/MaskIndex` | `__getitem__` with a bool or integer tensor of two or more axes, alone or in a tuple; `any_along_dims`, `join_dim_names` | at most one list or tensor in the tuple, at most one Ellipsis; torch's own indexing is a trusted description (row-major order of `True`s) |
| `Model/Take` | `take`, `masked_select`, `frexp`, `scatter_add_`/`scatter_reduce_`; `gather`, `take_along_dim`, `index_select` with an index that is a StreamTensor | the index of `take` has one axis; a StreamTensor index re-enters the override with plain data (modelled as the AttributeError this raises) |
| `Model/Reduce` | functions in no table (`sum`, `max`, `chunk`, …) and `softmax`: `default_valid` for results that are one tensor or a tuple | the torch function is a parameter on lines along the axis; warnings are not modelled |
| `Model/LoaderOpts` | arguments of `MultiStreamDataLoader`, `MultiStreamOneProcessDataLoader` | torch's `DataLoader` by its argument checks and by delivering in order; pinning and `worker_init_fn` left out |
| `Model/Demo` | `stream_dataset_demo.py` | chunks are any type; worker ids and seeds left out |
| `Model/Pickle` | `LazyProxy`, `__copy__`, `__getstate__`/`__setstate__` | the byte stream of pickle left out; torch.Tensor.__reduce_ex__ described, not modelled |
| `Model/Dispatch` | `func_coverage.py`, `doc_scrape/lists`, `utils/listloaders.py`, `__torch_function__` | the tables in full; getters by name; a function is a name and whether it is a method |
| `Model/Call` | binding of arguments to the overrides; axes given by name or as a tuple | torch's signatures are a trusted description; what torch does with a name is an index or RuntimeError |
| `Model/ConvArgs` | the spellings of the arguments of `overrides.conv1d` | |
| `Model/ConvMask` | `overrides.conv1d` with the mask as a multiplication, stacks of such layers | multiplication by 0 is an arbitrary function |
| `Model/Modes` | `patches/general.py`, `patches/modes.py` | module trees over a store of objects |
| `Model/Collector` | `data/data_objects.py` `OutputCollector` | |
| `Model/CollectorMem` | `OutputCollector` on tensors that share memory with their inputs (data/data_objects.py:108-136): the first chunk of a stream is kept as a view, a second one makes `torch.cat` copy | memory is a list of cells; a write replaces one cell |
| `Model/CollectCost` | frames written while an `OutputCollector` collects: `torch.cat` (data/data_objects.py:131) writes everything kept so far and the new chunk | counts frames only; not time, not allocation |
| `Model/Dataset`, `Model/Sync` | `data/stream_dataset.py`: partitioning, chunking, slots, `drop_last`, collation, `split`, `make_streams_synchronous`, the loader | exact rationals for seconds; fuel for the generator |
| `Model/Ragged` | `concatenate_ragged` on tensors of any rank (data/stream_dataset.py:64-77) | `pad_sequence` is a trusted description; dtypes, names and tensors without axes left out |
| `Model/Collate` | `custom_collate` on tensors of any rank with the names of the dataset (data/stream_dataset.py:256-274) | of a sample, the fields that are read |
| `Model/CollectOrder` | `OutputCollector` with the order of its dictionary, `pop` | a `dict` as the list of its pairs; frames as in `Model/Collector` |
| `Model/Reads` | when `AudioStreamDataset` opens files while it is iterated and split | loading is one step; only `torchaudio.info` and `torchaudio.load` open files |
| `Model/Workers` | worker processes with queues, the process that iterates over them | one worker per dataset (as in the code), messages in order; no timeouts, no crashes, starting and stopping of processes left out |
| `Model/Live` | a dataset object, the disk and running iterators under any program | samples without `file_metadata`; iterators of the dataset, not of the loader |
| `Model/LoaderLive` | a loader object and its running iterators under any program | one dataset, files on disk do not change; the batches of 486-502 are those of `Model/Gen`, fixed at the first `next`; orders are used only where the dataset shuffles (237-240) |
| `Model/SyncMemory` | the dictionaries of `make_streams_synchronous` at every check of `continue_buffering` (data/stream_dataset.py:343-372) | states within the addition of one batch are left out |
| `Model/Fallback` | the fallback warnings of indexing, `flatten`, `masked_select`, `scatter_add`, `scatter_reduce` (overrides.py:556, 729, 753, 757, 789, 793, 818) and programs of such calls | the text is operation and description; other warnings between the calls are left out |
| `Model/Gen` | the same generators (`process_data`, `chain.from_iterable`, `zip`, `zip_longest`, `force_is_last_on_last_batch`, `make_streams_synchronous`, the loader) when a file cannot be read: what they yield before they raise | `process_data` raises only before its first `yield`; workers are sequential |

The model agrees with every assertion transcribed in `lean/Verif/Tests` (93 of `test_tensor.py`, the equivalence test of `test_conv.py` for each of its modules, the dataset tests with
six short files). One assertion of the repository is itself doubtful: `tests/test_tensor.py:1105-1112` expects `x[..., 0, ...]` to give the first *frame* under the names (B, L), which is the mislabelling of C158.

Not modelled: what `quantize*` compute (their overrides remove names and metadata and call torch), several
index lists in one tuple beyond the fact that they raise.

Aliasing is modelled only where a property is about it (`Model/Heap`, `Model/ConvMem`, `Model/Program`, and the `caller` field of `Model/Conv`). Everywhere else metadata are immutable values; C168 says for which programs that makes no difference.

## 4. Plan per property

### Metadata, batch axis
* **C01, C02, C85** `Model/MetaIndex.indexBatch` over `BIx = int | slice | list | tuple | ints(tensor) | mask | boolList | none`. Spec: list of selected
  positions (independent of the model), result rows = selected rows. Unbounded over metadata and index. C02 and C85 are expected false (`ids[True]` is `ids[1]`;
  a tuple is a multi-axis torch index): negation by witness plus what does hold.
* **C03** drop_empty = filter of rows. **C04** expected false: exactly one non-empty row gives a 0-d index (`squeeze`) → TypeError; `_partial` for ≥ 2 non-empty rows.
* **C88** heap model; slices are views: expected false for slices, true for the other kinds.

### Metadata, length axis
* Spec (`Spec/Length`): an index denotes the list `sel` of kept source positions; new length = number of kept positions `< len`; sos kept iff `0 ∈ sel`; eos per statement.
* **C05** for `start ≤ stop`; **C06** expected false (`clip(0, stop-start)` with `stop < start` gives a negative length); **C07** expected false (stop is overwritten, hence ignored); partial: stop not before the last position of the batch.
* **C08** decision logic. **C09** int. **C10–C12** lists and masks; C11 expected false (off by one), with the exact characterisation of the flag the code computes.
* **C13** expected false (negative indices are resolved against the longest *selected* row, and against `max_length` rather than the tensor's axis); partial for non-negative indices.
* **C14** composition. **C15, C87** 2-D masks; C87 expected false (length-1 rows, double filtering of chunk indices).
* **C86** expected false: depends on uninitialised memory (parameter); the part that holds (lengths 0, eos false) is proved for every memory content.

### cat / split
* **C16–C18** by induction on the operands. **C19–C20** decision logic + sums. **C21–C22** via C05 and a lemma on clipped intervals. **C23** expected false (eos in an earlier piece → ValueError on cat).

### Equality, caches, copies
* **C24** expected false (operator precedence). Full decision table of what `==` returns is proved.
* **C25** state machine over reads/writes; invariant "not dirty → cache = recomputed". **C26** expected false (element write does not set the dirty flag).
* **C27** heap model of lazily forced clones: expected false before the first read of the clone; true for every history once forced.
* **C28** expected false (second use raises AttributeError, not ValueError). **C29** induction over an operation language. **C30** expected false for a single id of more than 80 characters; partial for other sizes.

### Tensors
* Tensors are functions from multi-indices, so that "the name stays on its axis" is stated by comparing sizes, names and entries of input and output. Data of batch/length operations are stated per row and frame (`Spec/Tensor`: `Describes`).
* **C31–C33** `cat`; C32 expected false (last operand unchecked). **C34** permute. **C35** expected false. **C36** expected false for negative axes, partial for non-negative. **C37** expected false when unnamed axes are mixed; partial with distinct names or given dim. **C38** expected false for `end_dim=-1`.
* **C39** partial (non-negative start). **C40** partial (non-negative axis), expected false for negative axes. **C41–C44** index analysis over index lists; C44 expected false (a leading `None` shifts the axis count). **C45** gather; **C92** take_along_dim expected false. **C46, C91** expected false through C24. **C47** expected false (VALID functions get `{}`). **C48** unbind. **C49, C95** padding; C95 expected false (length-0 rows lose flags). **C50** mask. **C89** expected false (`names.index("B")` raises). **C93** expected false for negative axes. **C98** split along length.

### Convolution
* Model: rows of frames, configuration (kernel size, dilation, stride, padding, tap function `g : List α → β`), module state = buffers by id; pre-hook, `conv1d`, post-hook branch by branch. Spec: `convValid` = list of windows; offline output = `convValid` of the zero-padded sequence.
* **C51** single stream, **C53** any schedule: invariant relating each open stream's buffer to the suffix of its consumed input and the emitted outputs to the prefix of the offline output; key lemma splits `convValid (a ++ b)`. **C54–C57** corollaries of the invariant. **C52** (stride > kernel width), **C58** (short batches → RuntimeError), **C59** (stride = kernel width, `stack([None…])`), **C60** (over-padding), **C61** (input metadata mutated), **C90** (chunk indices dropped), **C96** expected false with witnesses; partials where something general holds. **C62** composition of C53; without padding the flags matter only for clearing buffers, so for streams whose id is used once the invariant needs no condition on the batches (`Props/Unpadded`); **C63** decision logic; **C97** composition with the collector.
* **C102–C107** side effects: C102, C103, C104, C106, C107 expected false (in-place length update, in-place roll, buffers that are views, stale buffers in mixed batches, length update before an error); partials describe when the effects cannot be seen (for C104, an invariant relates the views in the buffer to the cells that the program must still leave alone). C105 by induction over the history.
* **C108–C111** elementwise functions: broadcasting from the right decides shape and names; C108, C110, C111 expected false (operands may enlarge batch or length; in-place forms are default-valid; the comparison comes after the computation), C109 by the shape lemma.
* **C112–C113** padding: C112 row by row through pre-hook, convolution and post-hook, false with padding; C113 by induction over the stack, with the padding zeroed before each convolution.
* **C114** receptive field: by induction over the stack; each layer gets first chunks that are long enough for one output of the rest of the stack and later chunks of at least its total stride, so the side conditions of C60–C62 hold at every layer.
* **C115–C116** the example program: C115 by induction over the rounds of dealing, from C22/C25 (split), C57 (pad/unpad); C116 from C115, C114 and C67, with the padding zeroed between the parts; false for very short last pieces.

### Construction
* **C117–C118** case analysis, `refine_names` by induction over the axes, `permute` lemmas. **C119** structural induction (mutual with lists); expected false for named tuples, `defaultdict` and other containers. **C120** distinctness of decimal strings. **C121** exact success condition; expected false for 2-D `sos` and for `chunk_indices`.
* **C122–C124** row-major enumeration of multi-indices, then the tuple lemmas of C43 for entries before the tensor. C123, C124 expected false with `None`, Ellipsis or entries after the mask (each entry counts as one axis).
* **C125** `unravel`/`ravel` round trip, `dict.fromkeys` = `eraseDups`, C01 for the rows and `list_core` (C10) for the frames. Expected false for a single point (two deletions from one list of names) and negative positions.
* **C126, C128** enumeration of multi-indices as in C122; direct computation. **C127** expected false where the index is passed on without being decoupled. **C129** from C93.
* **C130–C132** expected false along batch and length, since `default_valid` copies the metadata; the rest by computing on lines.
* **C133–C135** option checks by cases; expected false where an option is accepted and refused later. **C136** KeyError of `split` characterised by the files with a length; expected false for short lists.
* **C137** `pickWorkers` by induction on the bound, the partition by C71; names expected false above 26. **C138** as C95, for any items told apart by a key.
* **C139** the round trip step by step; expected false. **C140** on the heap model of `Model/Heap`; expected false for chunk indices and in-place writes.
* **C141–C143** the tables are finite and written out, so membership is decided over all names, and everything else is in no table; the consequence for `x.masked_select` for every tensor and mask. **C144** a general lemma on Python's call protocol (when one signature accepts what another accepts), then the table of signatures; expected false where parameter names or order differ. **C145, C146** follow each override to the first use of the axis; expected false. **C147** by the order of the statements in `conv1d`; expected false for ints.
* **C150** rounding to nearest moves a quotient of integers up to 2^24 by less than its distance to the next integer; expected false for longer rows. **C151** 32-bit addition is addition modulo 2^32. **C152, C153** state machine of Python's `warnings` module; C153 expected false. **C154** case analysis of the `match` statement; expected false where no case matches.
* **C155, C156** graphs as lists of nodes, a relation "computed from", invariants: buffers after a trained convolution lead to a released node (raises), or nothing older than the call is reached (works). Both expected false for the usual stacks.
* **C157** relative error of each rounding is at most 2^-53; the composed error stays below 1/1000 up to 2^40 frames.
* **C158** induction over the collapsing loop (positions of neighbours are consecutive); torch accepts neighbours only if the later ones stand for no axes; witnesses for Ellipses apart.
* **C159** invariant of the buffers (as C55) along the accepted calls: at the end of a sequence equal lengths force the buffer to be the bare start padding; pointwise kernels separately.
* **C160, C161** C82 and C83 give the chunks of each file in the collated batches (a batch holds a file at most once, so sorting it by length does not matter); then the specification vocabulary of the convolution (`BatchOK`, `Complete`, `Schedule`) applies, and C52/C59 do the rest for files of one chunk. The samples carry the whole file (C74), which makes C161 false for longer ones; for those, C52 applies to the frames that are given instead of those of the file. With drop_last: the merged batches are the first ones of the loader without drop_last, except for marks on the last one (`merge_short_long`), so what is delivered of a file is a prefix of what C82 gives. Such batches are a stream of beginnings of files, so if they must not overlap C169 says what is played, and with one worker, where every file is ended, C79–C81 do.
* **C162–C166** Digits by recursion on their number; a numeral and the number it denotes are specified without the formatter (`Spec/Timing`); the exponent is bounded by `Int.log`; the number of iterations is a floor division; the median by counting in the sorted list.
* **C167, C168** A heap of metadata objects; a simulation relation between it and immutable values, kept by every statement that uses no variable whose object a convolution has written to. **C169** by induction on the samples of the truncated file; exactly, the files fall into groups of the size of the first batch, and an invariant over the rounds of a group (`Lemmas/SyncTruncate`, `TInv`) says what each buffer still holds, so that the first group whose longest file lacks its end is found by induction over the groups.
* **C170** expected false (`conv1d` counts axes by position); names commute with every step. **C171** refinement of `Model/Conv`, step by step: a relation between tensors and rows of frames kept by padding, rolling, slicing, convolution, masking and the hooks; exceptions agree; then C52 transfers.
* **C172** expected false for `select` (a negative axis below the range is repeated zero times); the others by unfolding. **C173** expected false along batch (`[0] + tuple`). **C174** expected false: `default_valid` looks only at arguments that are tensors themselves.
* **C175** refinement layer by layer on top of C171 (frames are functions from channels, 0 outside, so that all layers have one frame type); then C113 and C114 transfer; the ordinary model by induction over the layers from `C171_torch`. `C175_unpadded_partial` transfers `C62_unpadded_partial` in the same way, for stacks without padding and batches of any kind.
* **C58, C59, C202 for stacks without padding** (`Props/UnpaddedTotal`): by induction over the layers; what a layer has given of a stream is what the ordinary layer gives for its frames so far, so a call gives something new iff the ordinary stack does. `C58_stack_partial`: every call with a new output is accepted unless streams of which nothing is held come with new ones (`C59_stack_false`); `C58_stack_needed_partial`: no other call is accepted.
* **C176** refinement call by call (padding, alignment, unpadding, splitting, dealing, padding, the stack by C175, the collector) into the program on frames; then C116 transfers, the targets by `C175_whole`. `C176_wav2letter_partial` puts in the sizes of the published network.
* **C177** sizes of layers of streams, their sums over workers, and an invariant of the synchronising generator (the active files never exceed the first batch); nothing is assumed about the files.
* **C178** the attribute after a list of assignments is the last accepted one, by induction; then both datasets are equal.
* **C179** induction over the characters; exact condition for the direction that fails.
* **C180** from the definition of a described tensor; positions of names in tuples without repetitions.
* **C181** from the definitions; induction over tuples; a witness for the loss of the metadata.
* **C182** induction over decorators and over definitions; a witness for repeated documentation.
* **C183** splitting undoes joining for names without line breaks; a witness for empty lists. **C184** from the decision table of the script.
* **C185** mutual induction over trees of modules. **C186** from the general theorem on one call of a convolution (`forward_any`), with empty prefixes.
* **C187** the part selected by an index is a list of positions without repetitions on each axis; writing and reading are inverse by induction over the axes; the names of the part are specified by a relation over the index (`PartNames`) and torch's unification is compared with agreement of names. **C188** counting axes and names. **C189** from C41, C43 and C48.
* **C190** the invariants of C155 (which buffers require gradients) carried through the calls. **C191** mutual induction over trees of modules on the program that pickle writes. **C192** invariant: the buffers hold, for every open stream, the place of the model at its last call.
* **C193** induction over the program: the closed ids are those of which an end was seen.
* **C194/C195** simulation: in every schedule a thread is where it would be alone after as many of its own operations (its programs touch only its own keys); alone, the program of operations is the call of `Model/Conv` or `Model/Collector`.
* **C196/C197** case distinction on the pre-hook (held frames of the rows of the batch); C197 by C148 for the streams that are not open; a model that loads its own earlier state keeps its buffers (`load_state_dict` does not cover them).
* **C198** naturality: mapping frames by a function that keeps 0 commutes with every step of the convolution (`Lemmas/ConvMap`); mapping to one-element frames gives the statement about shapes. **C199** expected false for `split` (shared metadata); for `narrow` both parts are images of one convolution with both kernels under the projections to the channels, then C52. **C200** expected false; exact width of the outputs in a first call. **C201** direct, axes looked up by name. **C202** expected false (C62); otherwise C62's induction with the open sequence carried along, and the stack of maxima for what an output depends on.
* **C203/C204** a call of the convolution is rewritten as a function of each row and of a few quantities of the batch that do not depend on the order (`Lemmas/ConvView`); reordering and renaming commute with it. Both need distinct ids (witnesses). **C205** the two streams are run as one stream of pairs; the sums are its image under the operation (C198). **C206** expected false: the loader reads ahead; a zip of generators yields the common layers until the first of them raises; without overlapping batches a step that does not find the stream exhausted does not depend on what follows. **C207** expected false for copies in different streams of one batch; for copies in one stream the invariant of C79-C81 is generalised: the rest of the stream, filtered by a file, is a sequence of whole copies, the first possibly begun.
* **C208** expected false: the collector keeps the first chunk itself; exactly, an entry follows its memory as long as it has one chunk only. **C209** before a batch is read either an active file is incomplete, and then at most N - 1 batches have been read since its first sample (its files stay in consecutive batches, and the dictionary keeps the order of first occurrence), or all active files are complete and fewer than B - running others are, and every other open file is in the last batch; both leave at most (B - 1) N + B (N - 1) samples.
* **C210** expected false: `unsqueeze(-1)` inserts the name before the last one (as `list.insert` does), and pieces along the length axis can only be joined if no row ends before the last piece. Otherwise the entries by the coordinates of the pieces, names and metadata by the rules of each function (C17, C18, C29, C30); for the length axis the exact condition on the rows.
* **C211** expected false: decoupled functions do not warn, and Python shows a warning once per place it is attributed to, which is a line of overrides.py. The functions are modelled again with their warnings (`Model/Fallback`) and shown to give what the other models give; then induction over the program with the set of warnings shown so far. **C212** the files that started in what was read so far are those that started in what was yielded and then those whose buffer begins with a first chunk, in the order of the dictionary; the active files of a new group are the first of these. **C213** the metadata of no sequences count as all starting and all ending, so no buffer is read, torch applies the padding, and no buffer is written; induction over the stack and the schedule. **C214** expected false (every B-th file goes into the same lane, and `split` sorts); the order is that of the pairs (chunks read before in the lane, lane), which gives the listed order for files of equally many chunks and for batches of one. **C215** expected false: `split` assigns the files to the workers before they are shuffled; the first batch holds the first file of every lane, and any file can be moved to the front. **C216** expected false: nothing is given out before all active files are buffered to their ends; reading that stops is a stream that raises, and the invariant is that buffers hold samples that were read. **C217** from C62 and the locality of the ordinary convolution; runs on equal shapes are accepted alike by C198. Expected false for strides above the kernel width, where chunks that end in a gap shift the positions. **C218** expected false (a layer with padding takes the padding of its input for zeros, C112). A call with the multiplication differs from one without in the padding of its output only; layers without padding do not read it; both runs compared layer by layer. **C219** expected false for empty selections along length: two runs with different `junk` are compared, operation by operation; only the start flags can differ. **C220** expected false: `update` skips empty rows of batches, and the last output of a stream can be empty. The state after collecting the chunks that are not skipped is known exactly from C67; its flags are those of the last chunk with frames. **C221** expected false: every chunk is appended with `torch.cat`, which copies all frames collected so far. Frames written are counted (`Model/CollectCost`); the count is known exactly from the state after each chunk, and for chunks of one frame it is a triangular number. **C222** expected to hold but for axes of size 1, which `copy_` expands: read the two transpositions as one exchange of coordinates (`swap_get`) and compare entry by entry; witnesses for a mono file in a batch with a stereo file and for an axis before the first. **C223** expected false for the default `names=None`: no axis has a name. With the batch in front and the length last it follows from C222, from stability of sorting (as in C83) and from what `refine_names` does on unnamed axes. **C224** expected true: the collector is modelled again with the list of its pairs (`Model/CollectOrder`), shown to do the same as the model without order (simulation), then induction over the chunks fed. **C225** expected false: `split` gives up `file_lengths` and reads every header again (compare C94). Iterating is modelled as a sequence of observations, loads and batches (`Model/Reads`); refinement of `getStreams`, counting of loads for any prefix, and for laziness the invariant that a stream is in the middle of a file that was loaded. **C226** expected true: steps of the processes are interleaved by an arbitrary schedule (`Model/Workers`); workers do not change what is in the queues and still to come taken together, so every schedule simulates the program without queues, which is compared round by round with the zip of generators. Progress by cases on the worker that is asked; the messages not yet made and the steps of the program without queues bound the steps. **C227** expected false: `chunk_seconds` and `transform` are read when a file is opened. The dataset object, the disk and the iterators are one state (`Model/Live`), programs are arbitrary lists of steps. Each iterator is compared with its generator by an invariant that counts the calls of `next`; other steps leave it as it is. For arbitrary assignments: the invariant that what has been yielded of a file and what is left of it are the samples of one moment. **C228** expected false: `__iter__` is a generator function, so the loader is read at the first `next`, and `collate_fn` at every one. The loader and its iterators are one state (`Model/LoaderLive`); an iterator is left alone by all steps but its own calls, and from its first call on what it will give is a function of the collate functions to come (induction over the program). **C229** expected with conditions: layer by layer, a successful call keeps ids and ends of its batch unless an empty last chunk sits in a ragged batch, and the post-hook leaves no buffer for ended ids; by induction over the batches the buffers are empty when the last batch of every id ends it, so the stack is fresh and passes compose. Of earlier properties: **C226** with files joins C101's splitting and the schedules of worker processes; **C68** gets an exact criterion for any batches (feeding a chunk is accepted iff it extends a stream); **C97** with chunk indices is expected false (mixed batches lose them, C90); **C161** is carried on through stacks into the collector. **C228** again: the batches that an iterator yields are tied to the loader's own (`loader` of `Model/Sync`), so that the choices made at `iter` (workers, batch size, drop_last, shuffling) matter. **C229** again: streams of several chunks by the counting argument of C114, where the last chunk of every stream is complete, so the stack is ready; then one epoch is a loader's pass, a run of the stack from its initial state to its initial state, and a new collector, of which every stream has one chunk. **C230** expected false for stacks, because of C229's empty last chunks: then buffers of ended files stay for ever, one for every file (induction over the files, with the two layers' steps computed once for any names). What holds: a file that is open after a batch is in the next one (for overlapping batches because lanes are concatenated files, for synchronised ones by C80), so the open streams are those of the latest batch; with drop_last the same holds because every lane has its next chunk as long as there is a next batch; a layer holds nothing for other streams (induction over the calls, as in C229). **C231** expected to hold: the hook puts less than one kernel width in front of the chunk (C55), and torch computes one output per stride after that; the total for one stream follows from C51 because the outputs are as wide as their sequence; stacks by induction over the layers. C232 is a consequence of C74: collation makes a batch as wide as the longest data in it, and the data are the whole files; C73 and C82 give the number of batches, so the total for one file is its length times the number of its chunks. Expected to be false, with the exact widths proved. **C161**, collector: beyond the frames, the entries after an epoch are exactly the files, marked as ended and closed (through C220). **C229**, collectors: a second pass may be cut, ordered and batched differently; it is refused as soon as it has a first chunk with frames of a stream that was collected. **C233** expected to be false, by C231 and C232: the bound on the work of a call is in the width of the batch, which is that of the whole files. Exactly for kernels of one frame, where nothing is buffered; a bound for all others. **C161** with drop_last: without padding a stream left in progress has given the offline outputs of its frames, so the number of workers does not matter. **C58**, **C161**, calls that raise: after a kernel's worth of frames at least the kernel less one stride is buffered, so only first chunks need to hold the kernel and later ones a stride; the widths of the loader's batches do not matter without padding. For stacks: from `need` frames on, every `jump` frames give another output of the whole stack, which makes every call lively and warm in the sense of `C58_stack_partial`; with C62 this gives the outputs for the loader's batches. **C175** follows for tensors by the refinement.
* **C148** two states of the stack that agree at the ids of `S` are a bisimulation: a call within `S` looks only at these buffers, a call outside `S` does not touch them. **C149** expected false: the layers before the one that raises have updated their buffers; the exact state after a refused call by induction over the stack.

### Modes, collector
* **C64–C66** module trees. **C66** expected false (hooks run twice). **C67–C70** state machine `(entries, closed)`; C69, C70 expected false.

### Data
* **C71–C72** greedy fold; **C73** chunk list; **C74** expected false (`data=audio`); **C75–C77** zip/zip_longest over per-slot streams; C77 expected false for ≥ 2 workers; **C78** split; **C79–C81** `make_streams_synchronous` as a step function with fuel: termination for every well-formed stream and exactly-once delivery by an invariant relating buffers, remaining input and output; **C82** composition; **C83** stable sort; **C84** expected false (`self.collate_fn` stays `None`); **C94** expected false (`names`, `file_lengths` dropped); **C99** list lemma.

## 5. Status per property

Generated from the sources. `_false`: refutation of the property for the modelled code; `_partial`: what does hold.

<!-- status -->
| property | status | theorems |
|---|---|---|
| C01 Batch indexing keeps every metadata column aligned | proved | `C01_index_batch` |
| C02 A list of bools is a batch mask | partial | `C02_bool_list_false`, `C02_bool_list_partial` |
| C03 Dropping empty sequences removes exactly the empty rows | proved | `C03_drop_empty` |
| C04 StreamTensor.drop_empty never fails on a batch with content | partial | `C04_drop_empty_one_false`, `C04_drop_empty_partial` |
| C05 Unit-step length slices give metadata that describes the kept frames | proved | `C05_length_slice` |
| C06 Length slicing never produces negative lengths | partial | `C06_negative_length_false`, `C06_negative_length_partial` |
| C07 Strided length slices count the frames they keep | partial | `C07_no_stop_partial`, `C07_strided_false`, `C07_strided_partial` |
| C08 Negative length strides are refused | proved | `C08_negative_step` |
| C09 Integer length indexing describes the picked frame | proved | `C09_length_int` |
| C10 Coordinate-list length indexing counts the picked data frames | proved | `C10_length_list` |
| C11 Coordinate-list length indexing keeps eos when the last frame is picked | partial | `C11_list_eos_false`, `C11_list_eos_partial` |
| C12 A bool mask on length equals the list of its True positions | proved | `C12_length_mask` |
| C13 Joint batch and length indexing describes the data that was selected | partial | `C13_joint_false`, `C13_joint_full_partial`, `C13_joint_int_partial`, `C13_joint_list_partial`, `C13_joint_negative_partial`, `C13_joint_slice_partial` |
| C14 Successive unit-step length slices compose | proved | `C14_slices_compose` |
| C15 A 2-D mask over batch and length | proved | `C15_mask2d` |
| C16 cat_batch concatenates rows | proved | `C16_cat_batch`, `C16_cat_batch_assoc` |
| C17 split_batch is inverted by cat_batch | proved | `C17_split_batch_refuses`, `C17_split_batch_sections`, `C17_split_batch_size`, `C17_split_no_rows` |
| C18 unbind yields one single-row metadata per sequence | proved | `C18_unbind` |
| C19 cat_length accepts exactly consecutive chunks | proved | `C19_cat_length` |
| C20 cat_length is associative | proved | `C20_cat_length_assoc` |
| C21 split_length partitions every row | proved | `C21_split_length` |
| C22 split_length is inverted by cat_length on equal-length batches | proved | `C22_split_cat` |
| C23 split_length is inverted by cat_length on ragged batches | partial | `C23_ragged_false`, `C23_ragged_partial` |
| C24 Metadata equality is equality of contents | partial | `C24_eq_false`, `C24_eq_partial` |
| C25 Cached summaries are never stale | proved | `C25_caches`, `C25_columns`, `C25_masked` |
| C26 Element writes into a column are reflected by the summaries | partial | `C26_element_write_false`, `C26_element_write_partial` |
| C27 A clone is a snapshot | partial | `C27_clone_false`, `C27_clone_partial` |
| C28 Invalid metadata is reported on every use | partial | `C28_invalid_false`, `C28_invalid_partial`, `C28_valid_partial` |
| C29 Every metadata operation yields equally long columns | proved | `C29_closure` |
| C30 repr works for every batch | partial | `C30_repr_false`, `C30_repr_partial` |
| C31 Concatenating along length joins each sequence's frames | proved | `C31_cat_length`, `C31_cat_length_accepts` |
| C32 Concatenating along a feature axis requires equal metadata | partial | `C32_cat_feature_exact_partial`, `C32_cat_feature_false`, `C32_cat_feature_partial`, `C32_cat_feature_self_false` |
| C33 Concatenating along batch keeps rows and metadata together | proved | `C33_cat_batch`, `C33_cat_batch_plain`, `C33_cat_single` |
| C34 permute moves names with axes | proved | `C34_permute` |
| C35 torch.transpose moves names with axes | partial | `C35_adjoint_partial`, `C35_adjoint_refused`, `C35_method_partial`, `C35_torch_transpose_false`, `C35_torch_transpose_partial` |
| C36 unsqueeze inserts an unnamed axis where the data gets one | partial | `C36_unsqueeze_false`, `C36_unsqueeze_partial`, `C36_unsqueeze_wrong_partial` |
| C37 squeeze removes names with axes | partial | `C37_squeeze_all_partial`, `C37_squeeze_all_raises_partial`, `C37_squeeze_dim_partial`, `C37_squeeze_false` |
| C38 flatten falls back to a plain tensor exactly when batch or length is merged | partial | `C38_flatten_clash_partial`, `C38_flatten_fallback_partial`, `C38_flatten_last_false`, `C38_flatten_stream_partial`, `C38_flatten_unnamed_partial` |
| C39 narrow updates metadata like the equivalent slice | partial | `C39_narrow_batch_partial`, `C39_narrow_length_negative_partial`, `C39_narrow_length_partial`, `C39_narrow_negative_false`, `C39_narrow_other_partial` |
| C40 index_select updates metadata for every spelling of the axis | partial | `C40_index_select_batch_partial`, `C40_index_select_length_partial`, `C40_index_select_negative_false`, `C40_index_select_other_partial`, `C40_index_select_zero_partial`, `C40_out_of_range_partial` |
| C41 select equals integer indexing at that axis | proved | `C41_select`, `C41_select_result` |
| C42 Ellipsis expands to the missing full slices | proved | `C42_ellipsis` |
| C43 Basic indexing keeps names on surviving axes and indexes the right metadata axis | proved | `C43_getitem`, `C43_getitem_bare`, `C43_getitem_refuses` |
| C44 New axes do not disturb metadata indexing | partial | `C44_none_bare_partial`, `C44_none_false`, `C44_none_names_false`, `C44_none_partial` |
| C45 gather/take_along_dim keep metadata consistent | partial | `C45_gather_empty_false`, `C45_gather_empty_partial`, `C45_gather_partial`, `C45_gather_refuses_partial` |
| C46 Recoupled operations combine only equal metadata | partial | `C46_recouple_accepts_false`, `C46_recouple_exact_partial`, `C46_recouple_partial`, `C46_recouple_torch_error`, `C46_recouple_unequal_false` |
| C47 Dispatch passes keyword arguments through | partial | `C47_kwargs_false`, `C47_kwargs_partial` |
| C48 Unbind rejects the length axis and splits batch rows | proved | `C48_unbind_batch`, `C48_unbind_length`, `C48_unbind_other` |
| C49 unpad_sequence inverts padding | partial | `C49_no_axes`, `C49_pad_empty_false`, `C49_pad_full_partial`, `C49_pad_stream_names_false`, `C49_pad_stream_partial`, `C49_pad_unpad_partial` |
| C50 sequence_mask marks exactly the valid steps | proved | `C50_refused`, `C50_sequence_mask` |
| C51 Streaming a convolution equals the offline convolution | proved | `C51_streaming` |
| C52 Streaming equivalence for strides beyond the kernel width | partial | `C52_clear_partial`, `C52_gap_partial`, `C52_large_stride_false`, `C52_large_stride_partial` |
| C53 Batch schedule does not matter | proved | `C53_schedule`, `C53_unpadded` |
| C54 Outputs appear as early as possible | proved | `C54_earliest` |
| C55 The stream buffer is small | proved | `C55_buffer_small` |
| C56 The stream buffer holds exactly the open streams | proved | `C56_open_streams` |
| C57 Output padding is zero and lengths count real outputs | proved | `C57_lengths`, `C57_zero` |
| C58 Any chunk size is accepted | partial | `C58_no_raise_partial`, `C58_short_chunk_false`, `C58_short_chunk_partial`, `C58_stack_lengths_partial`, `C58_stack_needed_partial`, `C58_stack_partial`, `C58_starts_partial`, `C58_tail_false` |
| C59 Mixed batches are accepted for every stride | partial | `C59_exact_partial`, `C59_mixed_false`, `C59_mixed_partial`, `C59_stack_false` |
| C60 Over-padded batches give the same result | partial | `C60_lost_partial`, `C60_overpadded_false`, `C60_overpadded_partial` |
| C61 A forward pass leaves its input's metadata alone | partial | `C61_metadata_false`, `C61_metadata_partial` |
| C62 Stacked convolutions stream correctly | partial | `C62_chain_false`, `C62_chain_partial`, `C62_chain_single_partial`, `C62_padded_first_partial`, `C62_unpadded_again_false`, `C62_unpadded_partial` |
| C63 Mode matrix | proved | `C63_modes` |
| C64 online()/offline() reach every submodule | proved | `C64_history`, `C64_online` |
| C65 patch rejects unsupported modules | proved | `C65_patch`, `C65_refused` |
| C66 Patching twice is harmless | partial | `C66_twice_false`, `C66_twice_partial` |
| C67 The collector reassembles every stream | proved | `C67_reassemble` |
| C68 The collector refuses malformed streams | proved | `C68_batch`, `C68_refuse`, `C68_streams` |
| C69 A refused chunk leaves the collector unchanged | partial | `C69_no_batch_axis`, `C69_unchanged_false`, `C69_unchanged_partial` |
| C70 A stream whose first output is empty is collected | partial | `C70_empty_first_false`, `C70_empty_first_partial`, `C70_exact_partial` |
| C71 partition_by_sum is a partition | proved | `C71_exclusive`, `C71_none`, `C71_partition` |
| C72 partition_by_sum is balanced | proved | `C72_balanced`, `C72_largest` |
| C73 Chunks tile the file | proved | `C73_empty_file`, `C73_process`, `C73_process_plain`, `C73_round`, `C73_tiles` |
| C74 Samples carry their chunk of audio | partial | `C74_false`, `C74_partial` |
| C75 A dataset yields every sample exactly once, in file order | proved | `C75_dataset`, `C75_exactly_once` |
| C76 drop_last yields only full batches and ends every started file | proved | `C76_full_and_ended`, `C76_no_batch` |
| C77 drop_last ends every started file with several workers | partial | `C77_exact_partial`, `C77_false`, `C77_one_worker_partial`, `C77_partial` |
| C78 split assigns every file to exactly one worker | proved | `C78_split`, `C78_zero_batch` |
| C79 Synchronised batches lose and reorder nothing | proved | `C79_duplicate_in_first_batch`, `C79_empty`, `C79_empty_first_batch`, `C79_loses_nothing` |
| C80 Synchronised batches start together | proved | `C80_synchronous` |
| C81 Synchronised groups are full | proved | `C81_groups_full` |
| C82 The loader delivers every sample of every file | proved | `C82_delivers_all`, `C82_no_files` |
| C83 Collation keeps samples and metadata together | proved | `C83_collate`, `C83_empty` |
| C84 Without a collate function the loader uses the default | partial | `C84_false`, `C84_partial` |
| C85 A tuple of ints is a batch selection | partial | `C85_tuple_false`, `C85_tuple_partial` |
| C86 An empty selection along length yields empty, inner rows | partial | `C86_empty_selection_false`, `C86_empty_selection_partial` |
| C87 A 2-D mask keeps eos exactly when the end is kept, and keeps chunk indices | partial | `C87_mask2d_eos_false`, `C87_mask2d_eos_partial` |
| C88 Batch-sliced metadata is independent of its source | partial | `C88_index_partial`, `C88_none_partial`, `C88_slice_false`, `C88_values_partial` |
| C89 Indexing can be continued after a batch row was selected | partial | `C89_index_again_false`, `C89_index_again_partial`, `C89_witness_false` |
| C90 Chunk indices survive an online convolution | partial | `C90_chunk_indices_false`, `C90_chunk_indices_partial` |
| C91 A StreamTensor can be combined with itself | partial | `C91_self_false`, `C91_self_partial` |
| C92 take_along_dim broadcasts metadata like data | partial | `C92_take_along_broadcast_false`, `C92_take_along_exact_partial`, `C92_take_along_partial`, `C92_take_along_refused_partial` |
| C93 scatter_add on batch or length falls back to a plain tensor | partial | `C93_scatter_exact_partial`, `C93_scatter_metadata_false`, `C93_scatter_negative_false`, `C93_scatter_partial` |
| C94 split keeps the dataset's configuration | partial | `C94_false`, `C94_partial` |
| C95 Unpadding keeps the flags of empty sequences | partial | `C95_unpad_empty_false`, `C95_unpad_partial` |
| C96 An empty last chunk flushes the stream | partial | `C96_flush_false`, `C96_flush_partial`, `C96_ragged_partial` |
| C97 Collected online outputs equal the offline output | partial | `C97_collect_false`, `C97_collect_partial`, `C97_exact_partial`, `C97_indices_false`, `C97_indices_partial` |
| C98 Splitting a StreamTensor along length keeps every valid frame | partial | `C98_no_rows_partial`, `C98_refused_partial`, `C98_split_length_partial`, `C98_split_no_rows_false`, `C98_zero_false`, `C98_zero_partial` |
| C99 Worker ids are distinct and complete | proved | `C99_worker_ids` |
| C100 Subclasses of Conv1d stream like Conv1d | partial | `C100_exact_partial`, `C100_refused_partial`, `C100_subclass_false`, `C100_subclass_partial` |
| C101 A Conv1d used in several places can be patched | partial | `C101_shared_false`, `C101_shared_partial` |
| C102 Parallel branches see the same input | partial | `C102_parallel_false`, `C102_parallel_partial`, `C102_second_partial`, `C102_shortcut_first_partial` |
| C103 A convolution leaves the frames of its input alone | partial | `C103_exact_partial`, `C103_frames_false`, `C103_frames_partial` |
| C104 Chunk memory can be reused | partial | `C104_careful_partial`, `C104_fresh_partial`, `C104_reuse_false`, `C104_reuse_partial` |
| C105 Offline calls between online calls do not disturb running streams | proved | `C105_interleaving`, `C105_offline` |
| C106 A stream id can be restarted | partial | `C106_exact_partial`, `C106_restart_false`, `C106_restart_partial` |
| C107 A refused call has no side effects | partial | `C107_lengths_partial`, `C107_refused_false`, `C107_refused_partial` |
| C108 Elementwise results with plain operands are described by their metadata | partial | `C108_exact_partial`, `C108_plain_false`, `C108_plain_partial`, `C108_recouple_partial` |
| C109 Elementwise functions of two StreamTensors with equal metadata | proved | `C109_streams` |
| C110 In-place functions refuse operands with other metadata | partial | `C110_exact_partial`, `C110_inplace_false`, `C110_inplace_partial` |
| C111 A refused in-place addition leaves the tensor unchanged | partial | `C111_exact_partial`, `C111_iadd_false`, `C111_iadd_partial` |
| C112 The content of the padding has no influence | partial | `C112_padding_false`, `C112_padding_partial` |
| C113 Pointwise functions between convolutions keep streaming exact | partial | `C113_pointwise_false`, `C113_pointwise_partial` |
| C114 Chunks of at least the receptive field stream exactly | proved | `C114_receptive_field`, `C114_total_stride` |
| C115 Dealing pieces into batches gives a valid stream schedule | proved | `C115_batches`, `C115_random_chunks` |
| C116 Split, batch, stream and collect equals offline | partial | `C116_program_false`, `C116_program_partial` |
| C117 Decoupling and rebuilding a StreamTensor | proved | `C117_invalid_names`, `C117_names`, `C117_no_metadata`, `C117_rebuild` |
| C118 x.T reverses the axes | proved | `C118_T`, `C118_describes` |
| C119 decouple_recursive reaches every StreamTensor | partial | `C119_nested_false`, `C119_nested_partial` |
| C120 rand_stream_tensor gives described tensors | proved | `C120_rand` |
| C121 The metadata constructor accepts exactly consistent columns | partial | `C121_constructor_exact_partial`, `C121_constructor_false`, `C121_constructor_partial`, `C121_forms` |
| C122 Masks over several axes | proved | `C122_mask` |
| C123 Masks over several axes in an index tuple | partial | `C123_ellipsis_false`, `C123_ellipsis_first_partial`, `C123_ellipsis_last_partial`, `C123_ellipsis_last_unnamed_partial`, `C123_mask_in_tuple_false`, `C123_mask_in_tuple_partial`, `C123_none_false` |
| C124 Integer tensors with several axes as index | partial | `C124_ints`, `C124_none_false`, `C124_none_refused_false`, `C124_tuple_partial` |
| C125 take keeps names and metadata of what was taken | partial | `C125_missing_axis_false`, `C125_negative_false`, `C125_order_false`, `C125_refused_partial`, `C125_single_false`, `C125_take_partial` |
| C126 masked_select gives the selected entries as a plain tensor | proved | `C126_masked_select`, `C126_refused` |
| C127 Index and mask arguments may be StreamTensors | partial | `C127_scatter_exact_partial`, `C127_scatter_partial`, `C127_stream_index_false` |
| C128 frexp keeps names and metadata | proved | `C128_frexp` |
| C129 In-place scatters update and return the stream | partial | `C129_exact_partial`, `C129_scatter_inplace_false`, `C129_scatter_inplace_partial` |
| C130 Reductions give described streams | partial | `C130_reduce_false`, `C130_reduce_partial` |
| C131 Every StreamTensor returned has metadata | partial | `C131_chunk_partial`, `C131_many_partial`, `C131_property_false`, `C131_tensor_partial`, `C131_tuple_false` |
| C132 Padding does not influence functions along an axis | partial | `C132_padding_false`, `C132_padding_partial` |
| C133 Loader options are checked by the constructor | partial | `C133_accepts_partial`, `C133_list_false` |
| C134 A constructed loader can be iterated with its options | partial | `C134_persistent_false`, `C134_prefetch_false`, `C134_starts_partial` |
| C135 The one-process loader delivers what the plain loader delivers | partial | `C135_delivers_partial`, `C135_drop_last_false`, `C135_list_false`, `C135_persistent_false`, `C135_timeout_false` |
| C136 A constructed dataset can be split | partial | `C136_lengths_partial`, `C136_metadata_false`, `C136_metadata_partial`, `C136_short_false` |
| C137 The demo splits its data over the largest fitting number of workers | partial | `C137_names_false`, `C137_split_partial`, `C137_too_many_false` |
| C138 The demo loader delivers every chunk once | proved | `C138_delivers` |
| C139 Streams survive pickling | partial | `C139_meta_errors_partial`, `C139_meta_false`, `C139_tensor_false` |
| C140 A copy of metadata equals the original and is independent of it | partial | `C140_copy_false`, `C140_copy_partial` |
| C141 Every torch function has one treatment | partial | `C141_tables_false`, `C141_tables_partial` |
| C142 A method is treated like the function of the same name | partial | `C142_inplace_partial`, `C142_masked_select_false`, `C142_methods_false`, `C142_methods_partial` |
| C143 In-place methods return the tensor they were called on | partial | `C143_inplace_false`, `C143_inplace_partial`, `C143_pairs_partial` |
| C144 Overrides take their arguments as torch does | partial | `C144_axis_false`, `C144_binds_partial`, `C144_order_false`, `C144_permute_method`, `C144_refused_false` |
| C145 An axis may be given by name | partial | `C145_names_false`, `C145_names_partial` |
| C146 Several axes may be given as one tuple | partial | `C146_tuple_false`, `C146_tuple_partial` |
| C147 torch.conv1d accepts the argument forms of torch | partial | `C147_int_false`, `C147_int_raised_false`, `C147_padding_false`, `C147_refused`, `C147_seq_partial` |
| C148 Streams in different batches do not influence each other | proved | `C148_sessions` |
| C149 A refused call of a stack has no effect on its streams | partial | `C149_refused_false`, `C149_refused_partial` |
| C150 Strided length slices are exact for sequences of any length | partial | `C150_float_partial`, `C150_long_rows_false` |
| C151 Lengths of concatenated chunks are the sums of their lengths, however long the stream | partial | `C151_sum_false`, `C151_sum_partial` |
| C152 suppress_warnings silences all warnings of the package | proved | `C152_others`, `C152_suppress` |
| C153 suppress_warnings(False) restores the warnings | partial | `C153_restore_false`, `C153_restore_partial` |
| C154 Indexing metadata gives metadata or raises | partial | `C154_entries_partial`, `C154_index_false`, `C154_index_partial` |
| C155 Training chunk by chunk works | partial | `C155_raises_partial`, `C155_training_false`, `C155_training_partial` |
| C156 The memory kept for an open stream does not grow with its chunks when gradients are recorded | partial | `C156_memory_false`, `C156_memory_partial` |
| C157 Rounding errors do not change the chunks of a file | proved | `C157_chunk_size` |
| C158 Several Ellipses mean what torch means by them | partial | `C158_apart_partial`, `C158_ellipses_false`, `C158_ellipses_partial`, `C158_positions_false` |
| C159 Residual connections stream like offline | partial | `C159_pointwise_partial`, `C159_refused`, `C159_residual_false`, `C159_residual_partial` |
| C160 The batches of a loader are a valid schedule of streams | proved | `C160_drop_last`, `C160_drop_sync`, `C160_schedule` |
| C161 Streaming the files of a dataset through a convolution gives the offline output of each file | partial | `C161_collect_partial`, `C161_drop_partial`, `C161_drop_runs_partial`, `C161_given_partial`, `C161_runs_partial`, `C161_stack_partial`, `C161_stacks_drop_partial`, `C161_stacks_partial`, `C161_stream_false`, `C161_stream_partial` |
| C162 A formatted time has at most seven characters | partial | `C162_width_false`, `C162_width_partial` |
| C163 A formatted time denotes the time to the given precision | proved | `C163_accuracy`, `C163_sign` |
| C164 timeit runs its inner loop for at least the requested duration | proved | `C164_number` |
| C165 The results of timeit summarise its measurements | proved | `C165_summary` |
| C166 The columns of timing reports line up | partial | `C166_columns_false`, `C166_columns_partial` |
| C167 Computing a tensor leaves all other tensors as they are | partial | `C167_clone_false`, `C167_others_false`, `C167_others_partial` |
| C168 Programs on StreamTensors mean what they mean for immutable values | partial | `C168_linear_partial`, `C168_programs_false`, `C168_programs_partial`, `C168_values_partial` |
| C169 A stream that ends within a file is reported | partial | `C169_all_partial`, `C169_exact_partial`, `C169_loader_partial`, `C169_single_partial`, `C169_truncated_false`, `C169_truncated_partial` |
| C170 Convolution finds the length axis by its name | partial | `C170_axes_false`, `C170_first_partial`, `C170_mixed_partial`, `C170_names_partial`, `C170_row_partial` |
| C171 Streaming a convolution with channels gives the offline output in every channel | partial | `C171_channels_false`, `C171_channels_partial`, `C171_refines`, `C171_torch` |
| C172 An axis out of range is refused | partial | `C172_above_partial`, `C172_axis_partial`, `C172_below_partial`, `C172_select_false`, `C172_unsqueeze_partial` |
| C173 Sections may be given as a tuple | partial | `C173_batch_partial`, `C173_tuple_false`, `C173_tuple_partial` |
| C174 Functions of lists of StreamTensors give a stream or refuse different streams | partial | `C174_exact_partial`, `C174_ignored_partial`, `C174_lists_false`, `C174_only_lists_partial`, `C174_stack_partial` |
| C175 Streaming a model of layers with channels gives the output of the ordinary model | partial | `C175_lengths_partial`, `C175_online_partial`, `C175_refines`, `C175_stack_false`, `C175_total_partial`, `C175_unpadded_partial`, `C175_unpadded_total_partial`, `C175_whole` |
| C176 The example program collects what the ordinary model gives | partial | `C176_program_false`, `C176_program_partial`, `C176_refines`, `C176_wav2letter_partial` |
| C177 The batches of a loader have the requested size | partial | `C177_drop_false`, `C177_ignored`, `C177_list_false`, `C177_list_partial`, `C177_single_partial` |
| C178 The batch size of a dataset can be set later | proved | `C178_iter`, `C178_set`, `C178_split`, `C178_split_sizes`, `C178_unset` |
| C179 join_dim_names and split_dim_names are inverse to each other | partial | `C179_join_split`, `C179_split_join_false`, `C179_split_join_partial`, `C179_unnamed` |
| C180 The axis accessors agree with names, data and metadata | proved | `C180_absent`, `C180_described`, `C180_is_dim` |
| C181 Quantising a StreamTensor keeps the stream | partial | `C181_mixed_partial`, `C181_quantize_false`, `C181_tuple_partial`, `C181_values_partial` |
| C182 implements registers overrides and documents them | partial | `C182_dispatch`, `C182_doc_false`, `C182_doc_partial` |
| C183 The lists of functions written by the scraper are read back by the package | partial | `C183_empty_false`, `C183_lists_partial` |
| C184 The scraper puts every function into one list | proved | `C184_partition`, `C184_skipped` |
| C185 A model patched as in the README can be set online | partial | `C185_readme_false`, `C185_readme_partial` |
| C186 Whole files online give the output of the ordinary module | proved | `C186_whole` |
| C187 Assigning to a part of a StreamTensor | partial | `C187_assign_false`, `C187_assign_partial`, `C187_expand_partial`, `C187_lists_partial`, `C187_metadata_partial`, `C187_named_partial`, `C187_new_axis_partial`, `C187_refused_partial`, `C187_stream_partial` |
| C188 Integer tensors without axes are indices like ints | partial | `C188_never_partial`, `C188_others_partial`, `C188_refused_partial`, `C188_scalar_false` |
| C189 Iterating over a StreamTensor | partial | `C189_iter_false`, `C189_iter_partial`, `C189_scalar_partial` |
| C190 A running model can be copied | partial | `C190_copy_false`, `C190_copy_partial` |
| C191 A patched model can be saved as a whole and loaded | partial | `C191_saved_false`, `C191_saved_partial` |
| C192 A running model can be moved to another device or precision | partial | `C192_exact_partial`, `C192_first_false`, `C192_moved_false`, `C192_moved_partial` |
| C193 Outputs can be taken out of the collector | partial | `C193_taken_false`, `C193_taken_partial` |
| C194 Threads with different streams do not disturb each other | proved | `C194_threads` |
| C195 Threads may collect different streams into one collector | proved | `C195_collecting` |
| C196 A chunk that continues an unknown stream is refused | partial | `C196_unknown_false`, `C196_unknown_partial` |
| C197 A checkpoint of a running model can be resumed | partial | `C197_checkpoint_false`, `C197_checkpoint_partial`, `C197_open_partial`, `C197_return_partial` |
| C198 The numbers in a stream decide nothing but numbers | proved | `C198_map`, `C198_shapes` |
| C199 Convolutions on parts of the channels | partial | `C199_narrow_partial`, `C199_resume_partial`, `C199_shared_partial`, `C199_split_false` |
| C200 Branches with kernels of different widths | partial | `C200_first_partial`, `C200_refused_false`, `C200_silent_false`, `C200_whole_partial` |
| C201 align_to orders the axes by name and keeps the stream | partial | `C201_align_false`, `C201_align_partial` |
| C202 A stack gives every output as early as possible | partial | `C202_earliest_partial`, `C202_latency_false`, `C202_latency_partial`, `C202_unpadded_partial` |
| C203 The order of the sequences in a batch does not matter | proved | `C203_distinct_needed`, `C203_order` |
| C204 Ids only tell streams apart | proved | `C204_distinct_needed`, `C204_names` |
| C205 Superposition of streams | proved | `C205_linear_needed`, `C205_superposition` |
| C206 A file that cannot be read costs only itself | partial | `C206_drop_last_partial`, `C206_nothing_read_partial`, `C206_only_itself_false`, `C206_readable_partial`, `C206_stops_partial`, `C206_synchronous_partial`, `C206_synchronous_readable_partial`, `C206_workers_partial` |
| C207 A file may be listed several times | partial | `C207_all_partial`, `C207_copies_partial`, `C207_repeated_false`, `C207_synchronous_partial` |
| C208 The memory of collected outputs can be reused | partial | `C208_exact_partial`, `C208_fresh_partial`, `C208_only_values`, `C208_reuse_false` |
| C209 The synchroniser's memory is bounded | proved | `C209_bounded`, `C209_loader` |
| C210 Functions that undo each other give the StreamTensor back | partial | `C210_negative_partial`, `C210_new_axis_false`, `C210_new_axis_partial`, `C210_permute`, `C210_split_batch`, `C210_split_length_false`, `C210_split_length_partial`, `C210_split_no_rows_false`, `C210_split_other_partial`, `C210_transpose` |
| C211 A stream is not lost silently | partial | `C211_decoupled_partial`, `C211_filters_partial`, `C211_named_partial`, `C211_shown_partial`, `C211_silent_false`, `C211_warns_partial` |
| C212 Files start in the order in which they arrive | proved | `C212_order` |
| C213 A batch without sequences changes nothing | proved | `C213_collected`, `C213_empty`, `C213_schedule` |
| C214 Files start in the order in which they are listed | partial | `C214_dataset_partial`, `C214_equal_partial`, `C214_loader_false`, `C214_order_false`, `C214_order_partial` |
| C215 Shuffling can bring any two files together | partial | `C215_meet_false`, `C215_meet_partial`, `C215_never_partial` |
| C216 A batch is delivered as soon as it has been read | partial | `C216_delivered_false`, `C216_first_partial`, `C216_overlapping_partial`, `C216_read_partial` |
| C217 A damaged frame reaches only the outputs near it | partial | `C217_few_partial`, `C217_gap_false`, `C217_padded_partial`, `C217_unpadded_partial` |
| C218 Infinite frames reach only the outputs that see them | partial | `C218_call_partial`, `C218_mask_false`, `C218_padded_first_partial`, `C218_unpadded_partial` |
| C219 Results do not depend on memory outside the arrays | partial | `C219_metadata_partial`, `C219_getitem_partial`, `C219_getitem_sos_partial`, `C219_index_select_partial`, `C219_methods`, `C219_others`, `C219_outside_false` |
| C220 A collected stream is marked as ended when its end has been collected | partial | `C220_batches_partial`, `C220_late_false`, `C220_marked_false`, `C220_single` |
| C221 The work of collecting is proportional to what is collected | partial | `C221_bound_partial`, `C221_exact_partial`, `C221_linear_false` |
| C222 Collating keeps every sample whole | partial | `C222_axis_false`, `C222_axis_partial`, `C222_exact_partial`, `C222_frames`, `C222_none`, `C222_ragged`, `C222_ranks_false`, `C222_ranks_partial`, `C222_refused_false` |
| C223 The metadata of a collated batch describe it | partial | `C223_collated_partial`, `C223_default_false`, `C223_names_false`, `C223_refused` |
| C224 Collected outputs are listed in the order in which their streams began | proved | `C224_order`, `C224_same`, `C224_stable`, `C224_taken` |
| C225 Each file is opened once per iteration | partial | `C225_at_most`, `C225_drop_last`, `C225_given`, `C225_headers_false`, `C225_headers_partial`, `C225_lazy`, `C225_once`, `C225_trace`, `C225_workers` |
| C226 Batches do not depend on how fast the workers are | proved | `C226_ahead`, `C226_delivers`, `C226_ends`, `C226_files`, `C226_loader`, `C226_merge`, `C226_progress`, `C226_same` |
| C227 Running iterators are not disturbed | partial | `C227_fixed_false`, `C227_iterators_partial`, `C227_whole_drop`, `C227_whole_partial` |
| C228 Running iterators of a loader are not disturbed | partial | `C228_collate_false`, `C228_delivers_partial`, `C228_loader_partial`, `C228_made_false`, `C228_started_partial`, `C228_undisturbed_partial` |
| C229 A patched model can be used for pass after pass | partial | `C229_collector`, `C229_refuses`, `C229_again_partial`, `C229_dropped_false`, `C229_empty_false`, `C229_epochs_partial`, `C229_single`, `C229_stack_partial`, `C229_whole`, `C229_convolution`, `C229_epoch_refused`, `C229_loader_partial`, `C229_program_partial` |
| C230 Streaming a dataset takes the memory of one batch | partial | `C230_leak_false`, `C230_model_partial`, `C230_unbounded_false`, `C230_convolution`, `C230_drop_convolution`, `C230_drop_last`, `C230_drop_stack_partial`, `C230_loader`, `C230_stack_partial` |
| C231 The work of streaming does not grow with the stream | proved | `C231_alone`, `C231_call`, `C231_stack` |
| C232 The batches of a loader are as wide as their chunks | partial | `C232_drop_width_partial`, `C232_total_partial`, `C232_width_false`, `C232_width_partial` |
| C233 An epoch costs as much as its files | partial | `C233_bound_partial`, `C233_total_false`, `C233_total_partial` |
<!-- /status -->

## 6. Disagreements found (code vs. property)

For each property that the code violates: the refutations, with what they show, and the part that holds. The text is that of the theorems' comments.

<!-- findings -->
* **C02** (A list of bools is a batch mask)
  * `C02_bool_list_false`: C02 is false of the code. A list of bools of the batch size either raises or, when it is all `True`, silently returns wrong ids: every id of the result is the *second* id of the batch.
  * holds, `C02_bool_list_partial`: C02, the error branch: with at least one `False` the constructor's length check fails (ValueError), or the id lookup (IndexError); such an index never succeeds. Missing: lists with a `False`, which are refused instead of selecting.
* **C04** (StreamTensor.drop_empty never fails on a batch with content)
  * `C04_drop_empty_one_false`: C04 is false of the code. If exactly one of two or more sequences holds data, `drop_empty` raises TypeError: `nonzero().squeeze()` is 0-d.
  * holds, `C04_drop_empty_partial`: C04, the part that holds. For a batch with rows: `None` exactly if every sequence is empty; otherwise, unless exactly one of several sequences holds data, a StreamTensor with exactly the sequences that hold data, in order, with their metadata and data. Missing: exactly one non-empty sequence among several.
* **C06** (Length slicing never produces negative lengths)
  * `C06_negative_length_false`: C06 is false of the code. An empty slice whose start lies beyond its stop gives negative lengths.
  * holds, `C06_negative_length_partial`: C06, exact description: with normalised start beyond stop every row gets length `stop - start`, which is negative, whatever data it had. Missing: that lengths are never negative, which fails exactly here.
* **C07** (Strided length slices count the frames they keep)
  * `C07_strided_false`: C07 is false of the code. The stop of a strided slice is ignored: `x[..., 0:2:2]` of a row with five frames keeps frame 0 only but reports length 3.
  * holds, `C07_no_stop_partial`: C07, exactly what the code does with every strided slice: rows are described as if the slice had no stop bound. Missing: the stop bound.
  * holds, `C07_strided_partial`: C07 when the stop bound cuts nothing off (it is absent, or at or beyond the last position that the start and the step reach): lengths, sos and eos are as the property demands. Missing: any stop that excludes a position (what the code does then is `C07_no_stop_partial`).
* **C11** (Coordinate-list length indexing keeps eos when the last frame is picked)
  * `C11_list_eos_false`: C11 is false of the code. Picking all three frames of an ending row of three frames loses its eos flag.
  * holds, `C11_list_eos_partial`: C11, exact description of what the code keeps: eos survives iff some picked position holds data of the row and some picked position lies in the row's padding. So the last frame of the longest row never keeps its eos. Missing: the eos of rows without padding among the picked positions (`C11_list_eos_false`).
* **C13** (Joint batch and length indexing describes the data that was selected)
  * `C13_joint_false`: C13 is false of the code. `x[1:, -1]`: the negative index is resolved against the longest *selected* row (2 frames) while the data uses the tensor's length axis (4 frames), so padding is reported as data.
  * holds, `C13_joint_full_partial`: C13, every spelling, when some selected row fills the length axis of `T` frames: integers, lists of positions in ascending order and unit-step slices with bounds in order, negative ones included. (For eos under a list see C11.) Missing: negative spellings when all selected rows are padded.
  * holds, `C13_joint_int_partial`: C13 for a non-negative integer within the tensor's length axis. Missing: negative integers (`C13_joint_negative_partial`, `C13_joint_full_partial`).
  * holds, `C13_joint_list_partial`: C13 for a sorted non-empty list of non-negative positions: lengths and sos (for eos see C11). Missing: negative positions (`C13_joint_full_partial`).
  * holds, `C13_joint_negative_partial`: C13, negative integers, exactly: `i` is resolved against the longest selected row, of `n'` frames, and each row is described at position `n' + i`, wherever the data have it. So the rows are described right if the longest selected row fills the length axis. With `n' + i` before the first frame, every row, also an empty one, is said to have one frame. Missing: rows are not described at the position that `i` names on the length axis.
  * holds, `C13_joint_slice_partial`: C13 for unit-step slices with non-negative bounds in order, on a tensor of `T` frames (possibly padded beyond its longest row), when some selected row has data: rows are selected and each keeps exactly what the positions kept by the slice say. Missing: negative bounds (`C13_joint_full_partial`), selections of empty rows only.
* **C23** (split_length is inverted by cat_length on ragged batches)
  * `C23_ragged_false`: C23 is false of the code. Splitting a ragged batch puts the end of its short row into an earlier piece, which `cat_length` refuses.
  * holds, `C23_ragged_partial`: C23, exactly when it holds: splitting and concatenating gives back the original iff every ending row reaches into the last piece. Missing: ending rows that do not reach into the last piece (`C23_ragged_false`).
* **C24** (Metadata equality is equality of contents)
  * `C24_eq_false`: C24 is false of the code: comparing metadata that differ raises AttributeError when the left has no chunk indices; metadata with chunk indices are not equal to themselves; and unrelated metadata are "equal" when the chunk indices of one are the lengths of the other.
  * holds, `C24_eq_partial`: C24, what holds, and the complete decision table: without chunk indices on either side, `==` is `True` for equal metadata and raises AttributeError otherwise (it never returns `False`); with no chunk indices on the left only, it raises; with chunk indices on the left, it is `True` iff these are the right side's lengths. Missing: chunk indices, which are compared with the wrong column or not at all (`C24_eq_false`).
* **C26** (Element writes into a column are reflected by the summaries)
  * `C26_element_write_false`: C26 is false of the code. After a read of `max_length`, an element write is not seen by the next read.
  * holds, `C26_element_write_partial`: C26, what holds: element writes are reflected if the lengths were (re)assigned, or the object created, after the last read of a summary: for any history `pre`, an assignment of the whole column, then any operations except reads, the next reads are right. Missing: element writes after a read; see `C26_element_write_false`.
* **C27** (A clone is a snapshot)
  * `C27_clone_false`: C27 is false of the code. A clone that has not been used yet reports later in-place changes of the original; and chunk indices are shared even after the clone was used.
  * holds, `C27_clone_partial`: C27, what holds: (1) if the clone is used once before anything else happens, it reports the original's columns, and from then on, after any history of uses of both objects (in-place writes and assignments included), a use of one changes no sos, eos or length reported by the other. (2) Even before its first use, the clone is not affected by assignments to the original's attributes. Missing: in-place changes of the original before the clone's first use, and chunk indices; see `C27_clone_false`.
* **C28** (Invalid metadata is reported on every use)
  * `C28_invalid_false`: C28 is false of the code: the second use raises AttributeError, and assigning to an attribute succeeds the second time.
  * holds, `C28_invalid_partial`: C28, what holds: the first use of invalid metadata raises ValueError and every later read raises (AttributeError) until something is assigned. Missing: the exception class on later uses and assignments; see `C28_invalid_false`.
  * holds, `C28_valid_partial`: C28, the other half: valid metadata report exactly the columns they were given. Missing: invalid metadata, which are reported only on the first use (`C28_invalid_false`).
* **C30** (repr works for every batch)
  * `C30_repr_false`: C30 is false of the code: a batch with a single id of more than 80 characters cannot be printed.
  * holds, `C30_repr_partial`: C30, exactly when `repr` works: it raises (IndexError) iff the batch is a single id of more than 80 characters. `rep` is any function that never shortens its argument, as Python's `repr` of a string. Missing: a single long id (`C30_repr_false`).
* **C32** (Concatenating along a feature axis requires equal metadata)
  * `C32_cat_feature_false`: C32 is false of the code. The last operand is never compared: with two operands, completely different metadata are accepted.
  * `C32_cat_feature_self_false`: With chunk indices that differ from the lengths, equal metadata are refused.
  * holds, `C32_cat_feature_exact_partial`: C32, exactly, for StreamTensors with or without chunk indices. All operands but the last, the first included, are compared with the first: if all pass (`Looks`) the call is torch's concatenation with the first's metadata; otherwise the first one that does not pass decides: AttributeError without chunk indices, ValueError with. Missing: the last operand is not compared; with chunk indices, passing is not being equal.
  * holds, `C32_cat_feature_partial`: C32, the part that holds. Two or more StreamTensors without chunk indices, along an axis that is batch or length of none of them: if some operand other than the last has other metadata than the first, AttributeError is raised (before the data are touched); otherwise the call is torch's concatenation with the first's metadata. Missing: the last operand's metadata are not checked; chunk indices (`C32_cat_feature_exact_partial`).
* **C35** (torch.transpose moves names with axes)
  * `C35_torch_transpose_false`: C35 is false of the code. `torch.transpose` swaps the data of the axes and leaves the names where they were: a batch of two sequences of three frames comes out with three rows named `B`, carrying the metadata of two.
  * holds, `C35_adjoint_partial`: C35, adjoint. `torch.adjoint` is `torch.transpose` of the last two axes, names and all. Missing: `torch.transpose` itself moves the names wrongly on most tensors (`C35_torch_transpose_false`), hence `torch.adjoint` too.
  * holds, `C35_method_partial`: The method `x.transpose(i, j)` (not `torch.transpose`) carries names along with axes. Missing: the function `torch.transpose` (`C35_torch_transpose_false`).
  * holds, `C35_torch_transpose_partial`: C35, the part that holds. `torch.transpose` moves sizes and data, keeps names in their old positions and metadata unchanged. So the names are right exactly if the two axes have the same name, that is, if they are the same axis or both unnamed. Missing: all other cases, where the names are wrong. (`torch.adjoint` is the case of the last two axes, see `C35_adjoint_partial`.)
* **C36** (unsqueeze inserts an unnamed axis where the data gets one)
  * `C36_unsqueeze_false`: C36 is false of the code. A negative axis puts the unnamed axis one place too early in the names: `x.unsqueeze(-1)` of a `(B, L)` tensor names the length axis `None` and the new axis `L`.
  * holds, `C36_unsqueeze_partial`: C36, the part that holds. `a` is the position of the new axis among the axes of the result; `d` is its spelling. If `d` is not negative, or names the very first position, the new axis is unnamed and every other axis keeps its name, size and data. Missing: the other negative spellings, where the names are `C36_unsqueeze_wrong_partial`.
  * holds, `C36_unsqueeze_wrong_partial`: What a negative spelling does when it does not name the first position: the new axis is put at position `a` of the data and at position `a - 1` of the names, so the names are right only if the axis before it was unnamed as well. Missing: nothing for these axes; it describes what is wrong.
* **C37** (squeeze removes names with axes)
  * `C37_squeeze_false`: C37 is false of the code. `x.squeeze()` removes every unnamed axis from the names as soon as one unnamed axis has size 1, and then fails.
  * holds, `C37_squeeze_all_partial`: C37 without an axis, the part that holds. If no unnamed axis of size 1 stands beside an unnamed axis of another size, `x.squeeze()` removes exactly the axes of size 1, each with its own name. Missing: the other tensors, for which the call raises RuntimeError (`C37_squeeze_all_raises_partial`).
  * holds, `C37_squeeze_all_raises_partial`: The remaining tensors: an unnamed axis of size 1 beside an unnamed axis of another size always raises RuntimeError. Missing: the names that the property asks for; the call raises instead.
  * holds, `C37_squeeze_dim_partial`: C37 for a given axis (`a` is the axis that `d` names): an axis of size 1 disappears with its name, all others keep name, size and data; an axis of another size is left alone. Missing: squeezing all axes at once (`C37_squeeze_false`).
* **C38** (flatten falls back to a plain tensor exactly when batch or length is merged)
  * `C38_flatten_last_false`: C38 is false of the code. With `end_dim=-1`, the default, flatten of any tensor with at least one axis raises RuntimeError, whatever `start_dim`.
  * holds, `C38_flatten_clash_partial`: C38, a joined name that is taken. If the name joined from the merged axes is that of another axis, flatten raises RuntimeError. Missing: a result; torch itself raises only for a name that the caller has chosen.
  * holds, `C38_flatten_fallback_partial`: C38, the part that holds (fallback). For every other spelling of `end_dim`: if the merged range contains batch or length the result is a plain, unnamed tensor with the entries in row-major order. Missing: `end_dim=-1`.
  * holds, `C38_flatten_stream_partial`: C38, the part that holds (stream). For every other spelling of `end_dim`: if the merged range contains neither batch nor length, its axes are all named `ns` and the joined name is new, the result is a StreamTensor whose merged axis has the joined name, all other names, sizes and the metadata being in place, and whose data are merged in row-major order. Missing: `end_dim=-1`; unnamed axes in the range (`C38_flatten_unnamed_partial`); merged names that another axis has (`C38_flatten_clash_partial`).
  * holds, `C38_flatten_unnamed_partial`: An unnamed axis in a merged range without batch or length raises TypeError (`"_".join` of `None`). Missing: a result; torch itself flattens such axes.
* **C39** (narrow updates metadata like the equivalent slice)
  * `C39_narrow_negative_false`: C39 is false of the code. Narrowing the batch to its last `n` rows with a negative start (`x.narrow(batch, -n, n)`) returns `n` rows of data with no metadata rows at all: the metadata are sliced by `[-n:0]`.
  * holds, `C39_narrow_batch_partial`: C39, batch, the part that holds. A non-negative start, or a negative start whose end is before the end of the batch: exactly the kept rows, with their metadata. `s` is the first kept row. Missing: a negative start with the range reaching the end (`C39_narrow_negative_false`).
  * holds, `C39_narrow_length_negative_partial`: C39, length, negative starts, exactly. `w` is the size of the axis, `n` the longest sequence. The range is looked for `n` frames from the end instead of `w`; if it ends at the last frame, `[start:0]` is taken, and the lengths are not positive. Missing: for such starts the lengths are right only if the range ends before the axis does and `n = w`.
  * holds, `C39_narrow_length_partial`: C39, length, the part that holds. A non-negative start, or a negative start whose end is before the end of an axis without padding beyond the longest sequence (`n = w`): every row's valid frames are the kept ones among its valid frames; ids and chunk indices stay; a row with data keeps sos iff its first frame is kept and eos iff its last frame is. `s` is the first kept frame, `w` the size of the axis, `n` the longest sequence. Missing: other negative starts (`C39_narrow_length_negative_partial`).
  * holds, `C39_narrow_other_partial`: C39, any other axis: the metadata stay. Missing: negative spellings of batch and length (`C39_narrow_negative_false`).
* **C40** (index_select updates metadata for every spelling of the axis)
  * `C40_index_select_negative_false`: C40 is false of the code. For every negative spelling of the axis the metadata are those of the whole tensor, also on batch and length: the axis is compared with the non-negative positions of batch and length.
  * holds, `C40_index_select_batch_partial`: C40, batch, the part that holds. The non-negative spelling of the batch axis with a 1-D index: the selected rows with their metadata. Missing: negative spellings (`C40_index_select_negative_false`) and 0-d indices (`C40_index_select_zero_partial`).
  * holds, `C40_index_select_length_partial`: C40, length, the part that holds. The non-negative spelling of the length axis with a non-empty 1-D index: if its positions are in ascending order, every row's valid frames are the picked ones among its valid frames, ids and chunk indices stay, sos survives iff frame 0 was picked, and eos survives iff a valid frame and a frame of the padding were picked (C11); otherwise IndexError. (For the empty index see C86.) Missing: negative spellings, 0-d indices, eos when the last valid frame is picked without padding.
  * holds, `C40_index_select_other_partial`: C40, any other axis: the metadata stay. Missing: negative spellings of batch and length (`C40_index_select_negative_false`).
  * holds, `C40_index_select_zero_partial`: C40, 0-d indices: torch accepts them, the override raises TypeError on batch and IndexError on length. Missing: a result; the call is refused.
  * holds, `C40_out_of_range_partial`: C40: positions outside the axis (also negative ones, which `torch.index_select` does not count from the end) are refused with an IndexError, whatever the axis and its spelling. Missing: negative spellings of the axes batch and length for indices in range (`C40_index_select_negative_false`).
* **C44** (New axes do not disturb metadata indexing)
  * `C44_none_false`: C44 is false of the code. `x[:, None, 0]` takes feature 0 of a `(B, F, L)` tensor and adds an axis; the metadata are indexed at frame 0 of the length axis instead: every sequence is now said to be one frame long while the data keep all frames.
  * `C44_none_names_false`: C44 is false of the code, names: a new axis before a full slice makes the indexing fail, `x[:, None, :]`.
  * holds, `C44_none_bare_partial`: C44, the part that holds. `x[None]`. Missing: `None` together with other entries (`C44_none_false`).
  * holds, `C44_none_partial`: C44, the part that holds. `None`s after all other entries of the tuple: unnamed axes appear after the indexed ones, the other names and the metadata are those without the `None`s. Missing: `None`s before other entries (`C44_none_false`).
* **C45** (gather/take_along_dim keep metadata consistent)
  * `C45_gather_empty_false`: C45 is false of the code. An index with no rows and fewer frames than the tensor: torch returns an empty tensor, the override raises RuntimeError, because the longest of no sequences is asked for.
  * holds, `C45_gather_empty_partial`: C45, the remaining indices: without rows and narrower than the tensor, RuntimeError. Missing: an empty StreamTensor.
  * holds, `C45_gather_partial`: C45, the part that holds. Gathering along an axis other than batch and length, with an index that has at least one row or the full width: the data are torch's, the metadata are those of the leading rows, each cut to the leading frames (`LeadRow`). `rb`, `wl` are the index's sizes on batch and length. Missing: an index without rows that is narrower than the tensor (`C45_gather_empty_false`, `C45_gather_empty_partial`).
  * holds, `C45_gather_refuses_partial`: C45, the refusal: along batch or length IndexError, for either spelling of the axis. Missing: a result with metadata along these axes.
* **C46** (Recoupled operations combine only equal metadata)
  * `C46_recouple_accepts_false`: C46 is false of the code. Metadata of different sequences are taken for equal when the chunk indices of the second equal the lengths of the first: the result silently has the first's metadata.
  * `C46_recouple_unequal_false`: C46 is false of the code. Different metadata without chunk indices raise AttributeError, not RuntimeError.
  * holds, `C46_recouple_exact_partial`: C46, exactly, for all StreamTensors. If the metadata of all others pass for the first's (`Looks`), the result has the first's metadata, and RuntimeError is raised if names differ. Otherwise the first one whose metadata do not pass decides: AttributeError if it has no chunk indices, RuntimeError if it has. In default-valid functions the same holds with the names that torch gives. Missing: with chunk indices, passing is not being equal.
  * holds, `C46_recouple_partial`: C46, the part that holds. For StreamTensors without chunk indices (the first may have them): if metadata and names are all equal, the result is what the torch function returns, with the common names and metadata; if the metadata are equal but some names differ, RuntimeError; if some metadata differ, AttributeError (the property asks for RuntimeError). Missing: chunk indices (`C46_recouple_exact_partial`).
* **C47** (Dispatch passes keyword arguments through)
  * `C47_kwargs_false`: C47 is false of the code. Functions in `VALID_FUNCTIONS` never receive keyword arguments.
  * holds, `C47_kwargs_partial`: C47, the part that holds. In every other category the function receives every keyword argument given, in order, its value unchanged or decoupled. Missing: valid functions.
* **C49** (unpad_sequence inverts padding)
  * `C49_pad_empty_false`: C49 is false of the code. An empty sequence padded as a full sequence (starting and ending) comes back neither starting nor ending.
  * `C49_pad_stream_names_false`: C49 is false of the code, `pad_stream_tensor`: only the names of the first sequence are looked at. Of two sequences with the same sizes and the axes in different order, the second comes back with its features as frames: entry (frame 0, feature 1) of the second sequence, which is `[0, 1]` in it, comes back as `[1, 0]`.
  * holds, `C49_pad_full_partial`: C49, the part that holds, `pad_full_sequence`: it is `pad_chunks` with every sequence starting and ending, and `pad_chunks` refuses names with a batch axis or without a length axis. Missing: empty lists (`C49_pad_empty_false`).
  * holds, `C49_pad_stream_partial`: C49, the part that holds, `pad_stream_tensor`: StreamTensors without batch axis, each with one row of metadata, all with the same names, is `pad_chunks` of their data with their ids and flags. Chunk indices are not passed on. Missing: sequences whose axes are in different order (`C49_pad_stream_names_false`).
  * holds, `C49_pad_unpad_partial`: C49, the part that holds. Sequences of one rank with a length axis `a` and equal sizes on the other axes: padding succeeds, every frame of the result beyond a sequence's length is zero, the lengths are the sequences' lengths; unpadding the result gives the sequences back, in order, with the length axis moved to the front, with their ids and, for sequences that have frames, the flags. Missing: the flags of empty sequences (`C49_pad_empty_false`).
* **C52** (Streaming equivalence for strides beyond the kernel width)
  * `C52_large_stride_false`: C52 is false of the code. With a stride beyond the kernel width (kernel 1, stride 2) feeding two frames one at a time gives two outputs, offline gives one.
  * holds, `C52_clear_partial`: C52, where it holds: for every stride, a complete sequence none of whose chunks (but the last) ends inside a gap gives its offline output; in particular one that arrives in a single chunk, and every sequence if the stride is at most the kernel width. Missing: sequences with a chunk that ends inside a gap.
  * holds, `C52_gap_partial`: C52, the failure in closed form: when the one chunk that ends inside a gap is followed by the rest of the sequence, the outputs after it are those of the rest alone, while offline the frames up to the next kernel position are skipped first. Missing: the equality with the offline output, which fails as described.
  * holds, `C52_large_stride_partial`: C52, exactly: for every stride and schedule (no call raising), the outputs of each complete sequence are those of a convolution that starts over after every chunk that ends inside a gap between two kernel positions; likewise for a sequence in progress. Missing: the offline output, which would skip the frames from such a boundary to the next kernel position.
* **C58** (Any chunk size is accepted)
  * `C58_short_chunk_false`: C58 is false of the code. A first chunk of one frame for a kernel of three raises RuntimeError (from torch).
  * `C58_tail_false`: C58 is false of the code, also behind a first chunk in which the kernel fits: with a stride of two, a kernel of three frames leaves one frame of the first three, and a last chunk of one frame raises RuntimeError (with a stride of one it is accepted: `C58_starts_partial`).
  * holds, `C58_no_raise_partial`: C58 and C59, a whole run: if every batch holds a chunk at least as long as the kernel and no chunk is empty, no call raises. Missing: batches all of whose chunks are shorter than the kernel (`C58_short_chunk_false`).
  * holds, `C58_short_chunk_partial`: C58, exactly: after any schedule and with stride below the kernel width, the next batch is accepted iff the kernel fits in what it sees of at least one row. Missing from C58: batches where it fits in none (they raise RuntimeError); strides equal to the kernel width (C59).
  * holds, `C58_stack_lengths_partial`: C58, stacks without padding, by the lengths of the chunks. If every stream starts with a chunk long enough for one output of the stack, and each later chunk has at least as many frames as the stack takes for one more output, no call raises, whatever the batches are and hold besides. Missing: shorter chunks (conditions on the calls are in `C58_stack_partial` and `C58_stack_needed_partial`); strides equal to the kernel width (C59).
  * holds, `C58_stack_needed_partial`: C58, stacks without padding, calls that raise. If the stack has a convolution and the batches are no wider than their longest chunks, a sequence of calls in which some call has no new output for any of its streams raises: whatever runs through gives a new output in every call. Missing: acceptance of such calls.
  * holds, `C58_stack_partial`: C58, stacks without padding. For strides below the kernel widths and streams of one sequence each, in batches of any kind and with chunks of any length: no call raises if in every call the ordinary stack has a new output for at least one stream of the batch, and all streams of the batch start, or none is new, or one of them has already given the last layer a frame. The outputs are then right by `C62_unpadded_partial`. Missing: calls without new outputs, which raise (`C58_stack_needed_partial`), and batches of new streams and others of which none has given a frame to some layer (C59).
  * holds, `C58_starts_partial`: C58 and C59, chunks shorter than the kernel: they do no harm behind the first chunk of their sequence. If the kernel fits in the first chunk of every sequence with the padding before it, and every chunk has at least a stride of frames, no call raises. Missing: first chunks in which the kernel does not fit (`C58_short_chunk_false`); chunks shorter than a stride; strides equal to the kernel width (C59).
* **C59** (Mixed batches are accepted for every stride)
  * `C59_mixed_false`: C59 is false of the code. With kernel 2 and stride 2 the buffer of `a` is present but empty; next to the starting `b`, which has none, all lengths are 0, so the hook stacks and `torch.stack` meets `None`: TypeError.
  * `C59_stack_false`: C59 is false of the code, in stacks with strides below the kernel widths too. The second call raises TypeError, in the second convolution, although there are new outputs: nothing is held for `b`, and there is no entry for `c`.
  * holds, `C59_exact_partial`: C58 and C59, exactly: for every stride and after any schedule, the next batch raises TypeError iff (for a kernel wider than one frame) it holds a chunk that starts and chunks that continue, all of the latter with an empty buffer. Otherwise it is accepted iff the kernel fits in what it sees of at least one row, and raises RuntimeError if not. Missing from C58 and C59: both cases in which it raises.
  * holds, `C59_mixed_partial`: C59, what holds: with a stride below the kernel width and no empty chunks, no batch raises TypeError. Missing: stride equal to the kernel width.
* **C60** (Over-padded batches give the same result)
  * `C60_overpadded_false`: C60 is false of the code. All rows start, none ends, one more padding frame than needed: with padding 1 nothing is added on the left, so the start padding is missing and the outputs differ. With padding 2 the call even raises AssertionError.
  * holds, `C60_lost_partial`: C60, the case that is missing: the module pads, all rows start, not all end, and the batch is wider than each row with its end padding. If some row would be longer than the batch with its start padding too, the call raises AssertionError. Otherwise the start padding is put behind the frames instead of in front, in the outputs and in the buffer. Missing: the result of the batch without padding, which these batches do not give.
  * holds, `C60_overpadded_partial`: C60, what holds: extra padding frames change neither any row's output nor any buffer, unless the module pads, all rows of the batch start, not all end, and the batch is wider than each row (with its end padding if it ends). Missing: that case (see `C60_lost_partial`).
* **C61** (A forward pass leaves its input's metadata alone)
  * `C61_metadata_false`: C61 is false of the code. The lengths of the caller's StreamTensor become the output lengths.
  * holds, `C61_metadata_partial`: C61, what holds, for every input and module state: ids, start and end flags and chunk indices of the argument never change; if the kernel is wider than 1 and some row does not start its stream, nothing changes. In all other cases (missing) the argument has the metadata of the output afterwards. Missing: the other cases (`C61_metadata_false`).
* **C62** (Stacked convolutions stream correctly)
  * `C62_chain_false`: C62 is false of the code. The first layer has no output yet for the first chunk of `b`, so the second layer receives an empty row marked as start next to a row of `a`; the mark is lost and with it the second layer's start padding.
  * `C62_unpadded_again_false`: C62 is false of the code, also without padding, if an id is used again. The end of the first sequence of `a` is not seen, so that its last frames stay in the buffer and are put in front of the second sequence.
  * holds, `C62_chain_partial`: C62 for every schedule in which no layer gets an empty first or last chunk next to other rows, and no chunk that ends inside a gap (there are gaps only if the stride exceeds the kernel width; see C52). Missing: such batches (see `C62_chain_false`); calls that raise (C58, C59).
  * holds, `C62_chain_single_partial`: C62 for strides up to the kernel widths and batches of one chunk each, any number of streams taking turns in any order: no further condition. Missing: several chunks in a batch (`C62_chain_false`).
  * holds, `C62_padded_first_partial`: C62, padded layers first. If the layers up to some point get only batches in which empty first or last chunks come alone, and the layers after it have no padding and strides up to their kernel widths, every stream, whose id is used for one sequence, becomes what the ordinary stack gives. Missing: empty first or last chunks next to other rows in front of a padded layer (`C62_chain_false`).
  * holds, `C62_unpadded_partial`: C62, stacks without padding, with strides up to the kernel widths and any pointwise functions between them (also with `f 0 ≠ 0`, C113): batches of any kind, so that any layer may get empty first or last chunks next to other rows, as long as no id is used for a second sequence. At every moment the frames emitted for a stream are what the ordinary stack gives for the frames received. Missing: padding (`C62_chain_false`), ids used again (`C62_unpadded_again_false`), calls that raise (C58, C59).
* **C66** (Patching twice is harmless)
  * `C66_twice_false`: C66 is false of the code. Patching twice registers the hooks twice; then an online call that works after one `patch` raises TypeError.
  * holds, `C66_twice_partial`: C66, what holds: the second `patch` changes only the number of hooks of `Conv1d` modules (it also empties their buffers, as the first does), and offline calls do not depend on that number. Missing: online calls, which always raise with two hook pairs.
* **C69** (A refused chunk leaves the collector unchanged)
  * `C69_unchanged_false`: C69 is false of the code. A refused chunk that claims to be first (for a known id) and last closes the id all the same, so the stream's real next chunk is refused too.
  * holds, `C69_unchanged_partial`: C69, what holds, in every state (reachable or not): a refused chunk changes no entry, closes no other id, and changes nothing at all unless it is marked as end. Missing: refused chunks marked as end close their id.
* **C70** (A stream whose first output is empty is collected)
  * `C70_empty_first_false`: C70 is false of the code. The empty first chunk is skipped, so the next one is refused as not being the first.
  * holds, `C70_empty_first_partial`: C70, what holds: chunks without a batch axis are never skipped, so any streams of such chunks, empty or not, are collected. Missing: empty first rows of batches.
  * holds, `C70_exact_partial`: C70, exactly: zero-padded batches of well-formed streams are collected if and only if the first chunk of every stream has frames or none of its chunks has; otherwise a ValueError is raised. What is collected are all frames of every stream that has any, and nothing for the streams without frames. Missing: streams with frames whose first chunk has none, for which the property fails.
* **C74** (Samples carry their chunk of audio)
  * `C74_false`: C74 is false: every sample carries the whole file (`data=audio`), so a file of two chunks is delivered twice.
  * holds, `C74_partial`: C74, what holds: every sample's data is the whole audio (so the concatenation is right exactly for files of one chunk); the recorded lengths do delimit the chunks (C73). Missing: the samples do not carry their own chunk.
* **C77** (drop_last ends every started file with several workers)
  * `C77_false`: C77 is false with two workers: the worker with more batches is cut off without an end of stream.
  * holds, `C77_exact_partial`: C77, exactly when it holds. For workers with different files: every file in the output of the loader is ended iff the first batches of every worker, as many as the worker with the fewest has, end the files they start. Missing: an end for the files that a worker with more batches has not ended by then.
  * holds, `C77_one_worker_partial`: C77 for one worker: the loader's output is the dataset's stream, in which every file is ended. Missing: several workers (`C77_false`).
  * holds, `C77_partial`: C77, what holds: if every worker's stream ends all its files (C76) and all streams have the same number of batches, in particular with one worker, then every file in the merged output is ended. Missing: workers with different numbers of batches (`C77_exact_partial`).
* **C84** (Without a collate function the loader uses the default)
  * `C84_false`: C84 is false: without `collate_fn` the local variable gets the default but `self.collate_fn` stays `None`, so the first batch raises TypeError.
  * holds, `C84_partial`: C84, what holds: a given collate function is applied to every batch; without one every batch raises. Missing: a default.
* **C85** (A tuple of ints is a batch selection)
  * `C85_tuple_false`: C85 is false of the code. A tuple of in-range positions never selects rows: it raises, except for the empty tuple on an empty batch.
  * holds, `C85_tuple_partial`: C85, the part that holds. The empty tuple on an empty batch selects no rows. Missing: everything else, by `C85_tuple_false`.
* **C86** (An empty selection along length yields empty, inner rows)
  * `C86_empty_selection_false`: C86 is false of the code. `minmax` of an empty list reads an element that does not exist; if that memory holds 0, a starting row stays "starting" although nothing of it was kept.
  * holds, `C86_empty_selection_partial`: C86: the lengths are 0, ids and chunk indices are kept and eos is False whatever is read; sos is False unless the unchecked read happens to give 0. Missing: sos is False in that case.
* **C87** (A 2-D mask keeps eos exactly when the end is kept, and keeps chunk indices)
  * `C87_mask2d_eos_false`: C87 is false of the code, three ways: a row of length 1 loses its eos under the all-`True` mask; a row keeps eos although no data frame of it is kept; and dropping any row raises IndexError when there are chunk indices.
  * holds, `C87_mask2d_eos_partial`: C87, what holds: without chunk indices, or when every row is kept, the rows of the result are exactly the kept rows with their chunk index, and eos survives iff some kept position is at or beyond the last data frame and not (the row has length 1 and its frame is kept). Missing: the second clause of C87 and rows of length 1; see `C87_mask2d_eos_false`.
* **C88** (Batch-sliced metadata is independent of its source)
  * `C88_slice_false`: C88 is false of the code. A batch slice shares storage with its source: an in-place write (such as `sub.starting_lengths += 1`) on the slice changes the source.
  * holds, `C88_index_partial`: C88, what holds: metadata obtained with an int, a list, an integer tensor or a mask share nothing with their source: indexing changes nothing the source reports, and after any history of uses of both, a use of one changes no column reported by the other. Missing: slices (`C88_slice_false`); for `None` see `C88_none_partial`.
  * holds, `C88_none_partial`: C88 for the index `None`, what holds: the result is a clone; once it was used it reports the source's columns, and from then on, after any history of uses of both, a use of one changes no sos, eos or length reported by the other. Missing: what is missing for clones (`C27_clone_false`).
  * holds, `C88_values_partial`: C88 (and C27), the two models agree: the object that `index_batch` gives on the heap holds the columns that `index_batch` gives for values (C1), and nothing that was held before has changed. Missing: tuples and 0-d tensors, which raise for values (C85), and objects without chunk indices.
* **C89** (Indexing can be continued after a batch row was selected)
  * `C89_index_again_false`: C89 is false of the code. Once the batch or the length axis was selected away, nothing between the brackets works any more: whatever torch and the name analysis would accept, the override raises ValueError because it looks for both names.
  * `C89_witness_false`: C89, witness: `x[0][1]` raises ValueError, `x[0, 1]` works.
  * holds, `C89_index_again_partial`: C89, the part that holds. After one entry of a feature axis was selected, both names are still there: the result is described by its metadata, which are those of the source, and can be indexed again like any described tensor (C43). Missing: selecting an entry of the batch or of the length axis.
* **C90** (Chunk indices survive an online convolution)
  * `C90_chunk_indices_false`: C90 is false of the code. In the mixed batch of the example schedule the chunk indices are dropped.
  * holds, `C90_chunk_indices_partial`: C90, exactly, for every input and module state: the output has the input's chunk indices, except that they are dropped when the batch is buffered row by row (some row does not start, and the buffers differ in length). Missing: batches buffered row by row (`C90_chunk_indices_false`).
* **C91** (A StreamTensor can be combined with itself)
  * `C91_self_false`: C91 is false of the code. A StreamTensor with chunk indices that differ from its lengths cannot be combined with itself: RuntimeError, in recoupled and in default-valid functions.
  * holds, `C91_self_partial`: C91, the part that holds. Without chunk indices, a StreamTensor can be combined with itself and with tensors of equal metadata and names, in recoupled and in default-valid functions, any number of times. Missing: chunk indices.
* **C92** (take_along_dim broadcasts metadata like data)
  * `C92_take_along_broadcast_false`: C92 is false of the code. An index of one row is broadcast over the batch: `n` rows of data, one row of metadata.
  * holds, `C92_take_along_exact_partial`: C92, exactly, for every index that torch broadcasts, except those without rows. `n`, `w` are the tensor's rows and frames, `rb`, `wl` the index's. The data have the broadcast sizes, the metadata describe the first `rb` rows (or all `n` if there are fewer) and `wl` frames. So the number of rows is right exactly if `rb = n`, or `n = 1` and `rb ≤ 1`; and a row's length is right, as far as the data have it, if `wl = w`. Missing: metadata are not broadcast.
  * holds, `C92_take_along_partial`: C92, the part that holds. If the index has the tensor's own sizes on batch and length, the metadata are the tensor's and there are as many data rows as metadata rows. Missing: indices that are broadcast over, or broadcast, the batch or length axis (`C92_take_along_exact_partial`).
  * holds, `C92_take_along_refused_partial`: C92, refusals: an index of another rank, or one that differs from the tensor on another axis where neither has size 1, is refused with torch's RuntimeError, whatever the metadata. Missing: out-of-range values in the index.
* **C93** (scatter_add on batch or length falls back to a plain tensor)
  * `C93_scatter_metadata_false`: C93 is false of the code. Different metadata without chunk indices raise AttributeError; a single StreamTensor with chunk indices falls back to a plain tensor although all its metadata are equal.
  * `C93_scatter_negative_false`: C93 is false of the code. Scattering along batch spelled as a negative axis gives a StreamTensor.
  * holds, `C93_scatter_exact_partial`: C93, exactly, for every axis and all StreamTensors. A negative axis is never taken for batch or length. Unless the axis is the non-negative position of batch or length, the metadata are compared with the first's, the first's with itself included: all pass (`Looks`): a StreamTensor with the first's names and metadata; otherwise the first one that does not pass decides: AttributeError without chunk indices, a plain tensor with. Missing: negative axes, and with chunk indices passing is not being equal.
  * holds, `C93_scatter_partial`: C93, the part that holds. For a non-negative axis `a` and StreamTensors with the same metadata without chunk indices: along batch or length a plain tensor, along any other axis a StreamTensor with the first's names and the common metadata. Missing: negative axes (on batch or length), chunk indices, and different metadata (`C93_scatter_exact_partial`).
* **C94** (split keeps the dataset's configuration)
  * `C94_false`: C94 is false: `split` drops `names`, and file lengths that were given to the constructor are read again from disk.
  * holds, `C94_partial`: C94, what holds: the parts keep `chunk_seconds` and the transform; their names are always `None`; and if the dataset's lengths come from file metadata, every part keeps the lengths of its files. Missing: names, and lengths given to the constructor.
* **C95** (Unpadding keeps the flags of empty sequences)
  * `C95_unpad_empty_false`: C95 is false of the code. The tensor of a row of length 0 is neither starting nor ending, whatever the row said.
  * holds, `C95_unpad_partial`: C95, the part that holds. One tensor per row, in order, without the batch axis, holding exactly the row's valid frames and, for a row that has frames, exactly the row's metadata. Missing: the flags of rows of length 0.
* **C96** (An empty last chunk flushes the stream)
  * `C96_flush_false`: C96 is false of the code. The row of `a` is narrowed to length 0, which drops its eos flag: its end padding is not added, its last output is missing, and its buffer stays.
  * holds, `C96_flush_partial`: C96, what holds: after any schedule, in a batch whose rows have equally long buffers (a single row, in particular), an empty last chunk of a started stream emits the outputs that remain in the buffer followed by the end padding, keeps its eos flag, and its buffer is forgotten. Missing: batches whose rows have buffers of different lengths.
  * holds, `C96_ragged_partial`: C96, the other batches: after any schedule, in a batch whose rows have buffers of different lengths, the flags of empty chunks are not seen. The empty last chunk of a started stream gives no outputs, its row is not marked as the end, and the buffer stays as it was. Missing: the outputs that remain, the flag, and forgetting the buffer.
* **C97** (Collected online outputs equal the offline output)
  * `C97_collect_false`: C97 is false of the code. A schedule that runs through without an exception, but where the first output of `b` is empty: the collector skips it and then refuses the rest of `b`.
  * `C97_indices_false`: C97 is false of the code, with chunk indices, as the datasets give them: the schedule has an index on every chunk and no call raises, but the output of the mixed batch has lost its indices (C90), and the collector refuses to append it to the output before. Without the indices the same schedule is collected.
  * holds, `C97_collect_partial`: C97, what holds: over any schedule of batches without chunk indices in which every stream is one complete sequence, if no convolution call raises and each stream's first output is not empty, the collector accepts everything. For each stream it then holds the offline output if the stride is at most the kernel width or if no chunk but the last ends inside a gap; in general it holds the convolution that starts over after each chunk that ends inside a gap. Missing: empty first outputs (C70), chunk indices (`C97_indices_partial`), convolution calls that raise (C58, C59).
  * holds, `C97_exact_partial`: C97, exactly: over any schedule of batches without chunk indices in which every stream is one complete sequence, if no convolution call raises, the collector accepts the outputs if and only if the first output of every stream has frames or none of its outputs has; otherwise it raises a ValueError. If it accepts, it holds for each stream the convolution that starts over after each chunk that ends inside a gap (the offline output if the stride is at most the kernel width or no chunk but the last ends inside a gap), or nothing if that has no frames. Missing: runs refused by the collector, chunk indices (`C97_indices_partial`), convolution calls that raise (C58, C59), for which the property fails.
  * holds, `C97_indices_partial`: C97, exactly, with or without chunk indices: over any schedule in which every stream is one complete sequence, if no convolution call raises, the collector accepts the outputs if and only if for every stream the first output has frames or none of its outputs has, and of its outputs that have frames all or none have chunk indices; otherwise it raises a ValueError. If it accepts, it holds for each stream the convolution that starts over after each chunk that ends inside a gap (the offline output if the stride is at most the kernel width or no chunk but the last ends inside a gap). Missing: runs refused by the collector (`C97_indices_false`), convolution calls that raise (C58, C59).
* **C98** (Splitting a StreamTensor along length keeps every valid frame)
  * `C98_split_no_rows_false`: C98 is false of the code for a batch without rows: torch splits the data, the longest of no sequences is asked for and RuntimeError raised.
  * `C98_zero_false`: C98 is false of the code for pieces of size 0 of a batch without frames.
  * holds, `C98_no_rows_partial`: C98, batches without rows. Every split along length raises RuntimeError, those included that torch accepts. Missing: the empty pieces that torch gives.
  * holds, `C98_refused_partial`: C98, arguments that torch refuses. Whatever the axis: RuntimeError. Missing: the arguments that torch accepts (`C98_split_length_partial`, `C98_zero_partial`).
  * holds, `C98_split_length_partial`: C98, the part that holds. For a batch with rows, every spelling of the length axis and every argument that torch accepts: each piece has the names and ids of `x` and metadata that describe its data, and for every row the valid frames of the pieces, concatenated in order, are the valid frames of `x`. (If `x` is padded beyond its longest sequence, pieces of pure padding are dropped.) Missing: batches without rows (`C98_no_rows_partial`), pieces of size 0 of an empty tensor (`C98_zero_partial`).
  * holds, `C98_zero_partial`: C98, pieces of size 0 of an empty tensor. torch gives one empty piece; of a batch with rows but no frames ZeroDivisionError is raised. Missing: that piece.
* **C100** (Subclasses of Conv1d stream like Conv1d)
  * `C100_subclass_false`: C100 is false of the code. An instance of a subclass of `Conv1d` is accepted by `patch` but gets no hooks: fed in two chunks online it does not see the last frame of the first chunk, so an output is missing.
  * holds, `C100_exact_partial`: C100, exactly. An instance of a subclass of `Conv1d` is called without hooks on every batch. If all batches are accepted, the outputs of a stream are those of its chunks one by one, each convolved on its own with the padding at the ends of the stream. Missing: outputs whose kernel positions lie across the borders of chunks.
  * holds, `C100_refused_partial`: C100, what is refused. A call without hooks on a tight batch raises RuntimeError exactly when no chunk, with its padding, is as long as the kernel. Missing: the frames of such chunks, which an ordinary online `Conv1d` would add to the buffer's.
  * holds, `C100_subclass_partial`: C100, the part that holds. An instance of a subclass that looks at one frame at a time (kernel width 1) and does not skip frames needs no buffer: called directly on each batch of any schedule, it gives every stream its offline output. Missing: wider kernels (`C100_subclass_false`; exactly which subclasses are right: `C100_exact_partial`).
* **C101** (A Conv1d used in several places can be patched)
  * `C101_shared_false`: C101 is false of the code. A `Conv1d` object used in two places of a model gets two hook pairs from a single `patch`, so that no online call of it succeeds.
  * holds, `C101_shared_partial`: C101, what holds: in a tree where every module occurs once, each fresh `Conv1d` gets exactly one hook pair, and its calls in either mode are those of an online/offline convolution (`call`). Missing: modules occurring in several places.
* **C102** (Parallel branches see the same input)
  * `C102_parallel_false`: C102 is false of the code. Two branches with kernel width 2 on the first chunk `[1, 2, 3]` of a stream: the first branch leaves length 2 in the metadata of the chunk, so the second one gives a single output instead of two.
  * holds, `C102_parallel_partial`: C102, the part that holds. The second branch sees the chunk as it was, so that both results are those of separate calls, if the kernel of the first branch is wider than 1 and the batch has a row that does not start its stream, or if the first branch is pointwise (kernel size 1, stride 1, no padding). Missing: all other cases, in which the second branch takes the output lengths of the first for the lengths of its input.
  * holds, `C102_second_partial`: C102, exactly. The second branch finds, in place of the metadata of the chunk, those of the first branch's output, unless the kernel of the first branch is wider than 1 and some row does not start its stream. Missing: the lengths of the chunk in the other cases.
  * holds, `C102_shortcut_first_partial`: C102, the part that holds, for whole runs. With a pointwise first branch (a shortcut connection that is computed first), running both branches on the same chunks is the same as running each of them alone. Missing: a convolution as the first branch (`C102_parallel_false`).
* **C103** (A convolution leaves the frames of its input alone)
  * `C103_frames_false`: C103 is false of the code. A mixed batch whose width leaves room for the padding: `torch.conv1d` shifts the frames of the starting row within the caller's tensor. So does a patched online `Conv1d` with kernel size 1 and padding.
  * holds, `C103_exact_partial`: C103, exactly. On any zero-padded batch, `torch.conv1d` leaves the frames of its argument alone, unless the layer pads, some rows start and some do not, and there is room for the padding in all rows: then the frames of the starting rows are moved right by the padding. Missing: leaving the starting rows alone in that case.
  * holds, `C103_frames_partial`: C103, the part that holds. A patched online `Conv1d` whose kernel is wider than 1 leaves the frames of its argument alone, whatever the batch; and so does every convolution without padding, and every convolution of a batch in which all rows start or none does. Missing: mixed batches with padding in unpatched modules or with kernel width 1.
* **C104** (Chunk memory can be reused)
  * `C104_reuse_false`: C104 is false of the code. Without padding, the buffer is a view of the first chunk: writing the second chunk into the same memory replaces the buffered frame 3 by 6, and the first output of the second call is 64 instead of 34.
  * holds, `C104_careful_partial`: C104, the part that holds, with care. With a kernel wider than 1, with or without padding: if the program writes over the memory of a batch of first chunks only when each of the streams in it has been called again or has ended, the outputs are those for separate tensors with the contents at the time of the call. The memory of any other batch may be written over at once. Two pieces of memory used in turn are enough. Missing: memory of a first chunk that is written over before the next call of its stream (`C104_reuse_false`); kernels of width 1 (C103).
  * holds, `C104_fresh_partial`: C104, the part that holds, without reuse. If no tensor is overwritten after a call on it, the outputs are those of the values. Missing: memory that is overwritten after the call (`C104_reuse_false`; when that is harmless: `C104_careful_partial`).
  * holds, `C104_reuse_partial`: C104, the part that holds, with reuse. A module with padding whose kernel is wider than 1 copies what it needs, as long as every batch is as wide as its longest row: whatever the program writes into its chunk memory between the calls, the outputs are those for separate tensors with the contents at the time of the call. Missing: modules without padding, and over-padded batches (`C104_careful_partial`).
* **C106** (A stream id can be restarted)
  * `C106_restart_false`: C106 is false of the code. In a mixed batch the frames buffered for the abandoned sequence are put in front of the new one: `[37, 78]` instead of `[78]`.
  * holds, `C106_exact_partial`: C106, exactly. One call on any zero-padded batch of chunks with different ids, whatever is buffered. It raises TypeError if the buffers are used (some row does not start and the kernel sees more than one frame), have the same length, and one of them is missing; otherwise it raises RuntimeError if the kernel fits nowhere. Otherwise each chunk gives the kernel outputs of start padding, the frames held for its id, its own frames and end padding, where held frames count in front of every chunk of a batch in which some row does not start: a chunk that restarts its id in such a batch begins with the start padding and the frames left of the abandoned sequence, and its stream goes on from there. In a batch in which all rows start nothing is put in front. Missing: a restart in a batch with running streams as if nothing was buffered.
  * holds, `C106_restart_partial`: C106, the part that holds. Whatever a module still holds of abandoned streams (`buf` is any buffer): if every stream of `xs` starts, within `xs`, in a batch in which all rows start, the outputs and errors are those of a new module. Missing: streams that restart in a batch with running streams.
* **C107** (A refused call has no side effects)
  * `C107_refused_false`: C107 is false of the code. A first chunk that is too short for the kernel is refused, and its length in the metadata has grown by the padding.
  * holds, `C107_lengths_partial`: C107, exactly. After a refused call the length of each row in the caller's metadata is as before if the kernel is wider than 1 and some row does not start; otherwise it has grown by the padding if the row starts, and by the padding if the row ends. Missing: unchanged lengths in the second case.
  * holds, `C107_refused_partial`: C107, the part that holds. A refused call changes neither the buffer (see C105) nor ids, flags and chunk indices; it leaves the lengths alone too if the module has no padding, or if no row starts or ends, or if the kernel is wider than 1 and some row does not start. Missing: the lengths in the other cases, which grow by the padding.
* **C108** (Elementwise results with plain operands are described by their metadata)
  * `C108_plain_false`: C108 is false of the code. Adding a plain column of two values to a batch of one sequence gives a StreamTensor with two rows and metadata for one.
  * holds, `C108_exact_partial`: C108, exactly. A default-valid elementwise function of a StreamTensor and a plain tensor, in either order, gives a StreamTensor that is described by its metadata if and only if the plain tensor is not larger than the StreamTensor on the batch axis and, if it is empty along length, all sequences are empty. Missing: described results in the other cases.
  * holds, `C108_plain_partial`: C108, the part that holds. A default-valid elementwise function of a StreamTensor and a plain tensor, in either order: if the call succeeds and the plain tensor does not broadcast the batch axis, and does not empty the length axis, the result has the metadata of the StreamTensor, batch and length are found by name at the aligned axes and described by the metadata, and every entry is the function of the entries at the aligned multi-indices. Missing: plain tensors that are larger than the StreamTensor on the batch axis (exactly which plain tensors: `C108_exact_partial`).
  * holds, `C108_recouple_partial`: C108, recoupled functions. For a recoupled elementwise function the plain tensor must have no names; the result has the rank, names and metadata of the StreamTensor, and is described as above. Missing: as above.
* **C110** (In-place functions refuse operands with other metadata)
  * `C110_inplace_false`: C110 is false of the code. `x.add_(y)` and `x.remainder_(y)` accept a StreamTensor with the metadata of other sequences.
  * holds, `C110_exact_partial`: C110, exactly. An in-place function of a StreamTensor does with another StreamTensor what it does with the plain tensor of its entries (and names, except for the functions that work on unnamed views), whatever its metadata are. Missing: refusal of other metadata (`C110_inplace_false`).
  * holds, `C110_inplace_partial`: C110, the part that holds. An in-place elementwise function never changes shape or metadata of its StreamTensor, keeps every name, and leaves it described by its metadata; the other operand cannot broadcast it. Missing: the other operand's metadata are never compared.
* **C111** (A refused in-place addition leaves the tensor unchanged)
  * `C111_iadd_false`: C111 is false of the code. `x += y` with other metadata raises, and `x` has changed.
  * holds, `C111_exact_partial`: C111, exactly. What torch refuses leaves `x` as it was. What torch accepts is in `x` afterwards; the statement succeeds if the metadata of the other StreamTensor pass for those of `x` (`Looks`), and otherwise raises AttributeError or, if the other one has chunk indices, RuntimeError. Missing: as in `C111_iadd_partial`.
  * holds, `C111_iadd_partial`: C111, the part that holds. A refused `x += q` leaves `x` as it was if `q` is a plain tensor, or has the metadata of `x` (without chunk indices); that is, if the refusal comes from torch. Missing: refusals that come from the comparison of metadata.
* **C112** (The content of the padding has no influence)
  * `C112_padding_false`: C112 is false of the code. With padding 1 and kernel 2, the last output of the shorter sequence is computed from the content of the padding.
  * holds, `C112_padding_partial`: C112, the part that holds. The content of the padding has no influence on the result of a call (output and its metadata, buffer, exceptions) if the module has no padding, or if the buffers of the batch are used and differ in length, or if the rows that end are as long as the batch is wide and, when a row starts, some row that starts or ends is. Missing: modules with padding when a row that ends is shorter than the batch, or when all the rows that start are.
* **C113** (Pointwise functions between convolutions keep streaming exact)
  * `C113_pointwise_false`: C113 is false of the code. Adding 5 to everything also fills the padding of the shorter sequence with 5, and the end padding of the next convolution then sees 5 instead of 0.
  * holds, `C113_pointwise_partial`: C113, the part that holds. A stack of online convolutions with arbitrary pointwise functions between them, over any schedule in which no layer gets an empty first or last chunk next to other rows or a chunk that ends inside a gap of its stride, gives each stream its offline output, if every convolution that follows a pointwise function with `f 0 ≠ 0` has no padding. Missing: convolutions with padding after such functions (see `C113_pointwise_false`), and what is missing from C62.
* **C116** (Split, batch, stream and collect equals offline)
  * `C116_program_false`: C116 is false of the code. The last piece of `a` has one frame and gives no output in the first layer; the second layer gets it next to the first chunk of `b` and forgets that it was the last one, so the output for the end padding never comes. If the last piece comes alone, the program stops with an exception.
  * holds, `C116_program_partial`: C116, what holds. If the first piece of each sequence is long enough for one output of the stack and the later ones for its total stride, whatever the order in which the pieces are dealt: the program runs without an exception, and at the end the collector holds, for exactly the given ids, the offline output of the whole sequence. Missing: shorter pieces (in particular a very short last piece), strides that are not below the kernel widths, and pointwise functions with `f 0 ≠ 0` before padded convolutions.
* **C119** (decouple_recursive reaches every StreamTensor)
  * `C119_nested_false`: C119 is false of the code. A named tuple of two tensors and a `defaultdict` raise TypeError, a named tuple with one field loses its content (the field becomes a generator), and StreamTensors in other containers stay.
  * holds, `C119_nested_partial`: C119, what holds. In a nesting of lists, tuples and dicts of any depth every StreamTensor is replaced by its plain data and everything else stays; metadata and names are collected from left to right. Missing: other containers (see `C119_nested_false`).
* **C121** (The metadata constructor accepts exactly consistent columns)
  * `C121_constructor_false`: C121 is false of the code. A two-dimensional `sos` is accepted (the check of tensor.py:157 looks at `lengths` twice), and chunk indices are accepted in any number and are not converted: a list or an int, as the signature allows, stays a list or an int.
  * holds, `C121_constructor_exact_partial`: C121, exactly. The constructor accepts whatever chunk indices it is given and stores them as they are, and a `sos` with any number of axes as long as its first axis has one entry per row; ids that are not strings, and `lengths` and `eos` that do not stand for as many rows as there are ids, are refused. Refusals are ValueErrors, unless one of the columns is a 0-d tensor, which may be a TypeError. Missing: a check of the chunk indices and of the axes of `sos`.
  * holds, `C121_constructor_partial`: C121, what holds. Without chunk indices, and if `sos` has at most one axis: the constructor succeeds exactly if `ids` are strings and all columns stand for the same number of rows, and the columns it stores then are one-dimensional, of equal length, and have the given entries. Missing: chunk indices, `sos` with two axes (`C121_constructor_exact_partial`).
* **C123** (Masks over several axes in an index tuple)
  * `C123_ellipsis_false`: C123 is false of the code, Ellipsis: `x[..., mask]` with a mask over the last two axes. The Ellipsis stands for one axis, the code replaces it with two.
  * `C123_mask_in_tuple_false`: C123 is false of the code. `x[mask, 0:1]` with a mask over the first two axes: torch indexes axis 2 with the slice, the code takes the name of axis 1 for it and refuses the names.
  * `C123_none_false`: C123 is false of the code, `None`: `x[None, mask]` on `(B, L, F)` with a mask over batch and length is accepted as a stream; the mask is taken to cover length and features, so the names are wrong and the frames are counted with the mask's rows, which are sequences.
  * holds, `C123_ellipsis_first_partial`: C123, Ellipsis first. A mask of two or more axes that fits the last axes: torch takes `x[..., mask]` and merges these axes into one, of the entries with a `True` in row-major order. The code never does: it raises a RuntimeError (it counts the mask as one axis, so it has too many names for the result), or a TypeError if the last axis has no name. Missing: the result.
  * holds, `C123_ellipsis_last_partial`: C123, Ellipsis last. A mask of two or more axes that fits the first axes: for torch `x[mask, ...]` is `x[mask]`. If the mask covers batch and length, the code gives this plain tensor; if all its axes are named but it does not cover both, the code raises a RuntimeError, although `x[mask]` is accepted (C122). Missing: the result; unnamed axes under the mask (`C123_ellipsis_last_unnamed_partial`).
  * holds, `C123_ellipsis_last_unnamed_partial`: C123, Ellipsis last, the other tensors: if an axis under the mask has no name, `x[mask, ...]` raises a TypeError, while torch gives `x[mask]`. Missing: the result.
  * holds, `C123_mask_in_tuple_partial`: C123, what holds. A tuple of ints and slices that ends with a mask over two or more axes, as far as torch accepts it (`t'` is torch's result): the axes under the mask become one axis with the joined names, the other names are those of the axes not indexed by an int; if the mask covers both batch and length the result is plain, otherwise the metadata are indexed by the entries at the batch and length axes, or by the sequences or frames with a `True` if the mask covers that axis. Missing: entries after the mask, Ellipsis or `None` before it (`C123_mask_in_tuple_false`).
* **C124** (Integer tensors with several axes as index)
  * `C124_none_false`: C124 is false of the code, `None`: `x[None, idx]` on axes `(B, None, L)`: torch gathers sequences, which the property refuses; the code takes axis 1 to be gathered, keeps the metadata of both sequences and gives the batch axis no name.
  * `C124_none_refused_false`: C124 is false of the code, `None`: on `(F, B, L)`, where torch gathers features, `x[None, idx]` is refused: the batch name is given twice.
  * holds, `C124_tuple_partial`: C124, what holds in tuples. Ints and slices followed by an integer tensor of two or more axes, as far as torch accepts it (`t'` is torch's result): refused if the tensor is at the batch axis, and, once the batch entry is accepted, if it is at the length axis; otherwise the names are those of the axes not indexed by an int, with the new unnamed axes before the gathered one, and the metadata are indexed by the entries at the batch and length axes. Missing: entries after the tensor, Ellipsis or `None` before it (`C124_none_false`).
* **C125** (take keeps names and metadata of what was taken)
  * `C125_missing_axis_false`: C125 is false of the code, missing axes: on a tensor whose batch or length axis was selected away no call of `take` succeeds, whatever the positions. (The index of the missing axis is never assigned; what is raised for good positions is UnboundLocalError.)
  * `C125_negative_false`: C125 is false of the code, negative positions: torch takes the last entry, the override raises ValueError.
  * `C125_order_false`: C125 is false of the code, order: the order of the sequences in the metadata is that of first occurrence, unless all of them occur. With three sequences, points in the third and the first give `c, a`, points in the third, the first and the second give `a, b, c`.
  * `C125_single_false`: C125 is false of the code, points in a single sequence and a single frame: on `(B, F, L)` the call is refused, since the batch name is deleted first and the length name then by its old position; on `(B, L, F)` the same mistake deletes the wrong name: the entries are features, the axis is called length.
  * holds, `C125_refused_partial`: C125, refused, exactly: positions outside the tensor raise IndexError, as in torch; positions in range of which some are negative, which torch counts from the end, raise ValueError (`np.unravel_index`). Missing: a result for negative positions.
  * holds, `C125_take_partial`: C125, the part that holds. `x.take(i)` where `i` lists the row-major positions of the points `ps`, on a stream whose axes all have names: the entries are those at the points, the one axis carries the joined names, without batch if all points lie in one sequence and without length if all lie in one frame. The metadata are those of the sequences that occur, in order of first occurrence, then indexed with the frames that occur in that order, so frames that do not first occur in ascending order raise IndexError. Where all sequences (all frames) occur, that step is skipped. Missing: negative positions; a single sequence and a single frame, unless length comes before batch and there is a third axis; when all sequences occur, the metadata keep their order whatever the order of first occurrence.
* **C127** (Index and mask arguments may be StreamTensors)
  * `C127_stream_index_false`: C127 is false of the code. An index or a mask that is itself a StreamTensor is refused with AttributeError, whatever its metadata, by `gather`, `take_along_dim`, `take`, `index_select` and `masked_select`: it is handed to torch without being decoupled, which calls the override again with the plain data.
  * holds, `C127_scatter_exact_partial`: C127, scatters, exactly: `torch.scatter_add(x, d, i, src)` with a stream `i` as index, for every axis and all metadata. Along the non-negative position of batch or length the result is plain. Along other axes, and for every negative spelling, the metadata of `x` and of `i` are compared with those of `x`: if both pass, the result is a stream with names and metadata of `x`; otherwise the first that does not decides: AttributeError without chunk indices, a plain tensor with. Missing: negative spellings of batch and length, which should give a plain tensor; with chunk indices passing the comparison is not being equal.
  * holds, `C127_scatter_partial`: C127, the part that holds. `scatter_add` and `scatter_reduce`, which decouple all their arguments, accept an index that is a StreamTensor with the same metadata (without chunk indices): the result is the one for a plain index. Missing: the other functions, chunk indices.
* **C129** (In-place scatters update and return the stream)
  * `C129_scatter_inplace_false`: C129 is false of the code. `x.scatter_add_(2, …)` along the length of a `(B, F, L)` stream writes the new data into `x` and returns a plain tensor instead of `x`; with chunk indices it does so along every axis.
  * holds, `C129_exact_partial`: C129, exactly, for every axis and all metadata: `x.scatter_add_(d, …)` writes the new data into `x`, whatever is returned or raised afterwards. The non-negative position of batch or length gives a plain tensor. Any other `d`, negative ones included, gives a stream that is `x` after the call if all metadata pass the comparison with those of `x`; otherwise the first that does not decides: AttributeError (after the data have been written) without chunk indices, a plain tensor with. Missing: `x` as the result along batch and length and with chunk indices.
  * holds, `C129_scatter_inplace_partial`: C129, the part that holds. `x.scatter_add_(dim, index, src)` along an axis other than batch and length, for metadata without chunk indices and other StreamTensors with the same metadata: the result is a stream with the new data and the names and metadata of `x`, and `x` has the new data afterwards. Along batch or length `x` has the new data too, the result is plain. Missing: the result is a stream along batch and length; chunk indices; negative `dim`.
* **C130** (Reductions give described streams)
  * `C130_reduce_false`: C130 is false of the code. A reduction over batch or over length of any described stream (with more than one sequence, resp. a sequence of more than one frame, when `keepdim` is set) gives a StreamTensor with the old metadata, which do not describe it: there is one row of data for several of metadata, or no batch axis, or a sequence is longer than the length axis, or there is no length axis.
  * holds, `C130_reduce_partial`: C130, the part that holds. A reduction along an axis other than batch and length, in either spelling of the axis: the metadata stay and describe the result, whose entries are computed from the lines along the axis; with `keepdim` the axes stay, otherwise the axis disappears with its name. Missing: batch and length.
* **C131** (Every StreamTensor returned has metadata)
  * `C131_property_false`: C131 is false of the code in a second way: the tensor properties of torch that are not redefined (`x.data`, `x.mT`, …) give StreamTensors without metadata.
  * `C131_tuple_false`: C131 is false of the code. Of a function without an override that returns several tensors, such as `x.chunk(2, dim)`, `torch.sort(x, dim)`, `torch.max(x, dim)`, every result is a StreamTensor without metadata: reading `meta` raises AttributeError.
  * holds, `C131_chunk_partial`: C131, `x.chunk(n, dim)`: at most `n` results, each of the least size `c` with which `n` pieces suffice (the last may be smaller), with the names of `x` and without metadata; position `p` of the axis is position `p % c` of piece `p / c`. Missing: metadata.
  * holds, `C131_many_partial`: C131, several results, exactly: the data are torch's, and the arguments' metadata are compared all the same. If all pass for the first's (`Looks`), every result is a StreamTensor without metadata; otherwise the first argument that does not pass decides: AttributeError without chunk indices, RuntimeError with. Missing: metadata.
  * holds, `C131_tensor_partial`: C131, the part that holds. A function without an override that returns one tensor, called on StreamTensors with equal metadata without chunk indices, returns a StreamTensor with that metadata. Missing: functions that return several tensors, and the tensor properties of torch.
* **C132** (Padding does not influence functions along an axis)
  * `C132_padding_false`: C132 is false of the code. Along length, the padding counts: of two streams that differ only in the padding of the second sequence, the sum (mean, maximum, …) over length and the shares (`softmax`) along length of the second sequence differ.
  * holds, `C132_padding_partial`: C132, the part that holds. Reductions and other functions (such as `softmax`) along an axis other than batch and length: on the frames that hold data the result depends only on such frames. Missing: functions along length.
* **C133** (Loader options are checked by the constructor)
  * `C133_list_false`: C133 is false: the documentation says that `num_workers` has no effect with a list of datasets, but one worker more than none is refused.
  * holds, `C133_accepts_partial`: C133, what holds: the constructor accepts exactly the combinations in which `drop_last` comes with overlapping batches and a list of datasets without `num_workers`. The number of streams is then the length of the list, or `num_workers`. Missing: a positive `num_workers` with a list is not ignored.
* **C134** (A constructed loader can be iterated with its options)
  * `C134_persistent_false`: C134 is false: `persistent_workers=True` (also a timeout, or a context) without workers is accepted by the constructor, and every iteration raises.
  * `C134_prefetch_false`: C134 is false in a second way: for a list of datasets every one gets a worker, but the prefetch factor is dropped, whatever it is.
  * holds, `C134_starts_partial`: C134, what holds: a constructed loader over at least one stream starts exactly if the timeout is not negative and, without workers, there is no timeout, no `persistent_workers` and no context; with workers, a prefetch factor must be positive unless a list of datasets was given, in which case it is ignored. Missing: that every loader that was constructed starts, and that the prefetch factor is used.
* **C135** (The one-process loader delivers what the plain loader delivers)
  * `C135_drop_last_false`: C135 is false: with `drop_last` the one-process loader can never be constructed, whatever the other arguments.
  * `C135_list_false`: C135 is false: a list of datasets with one worker is accepted, but that worker may not start the workers of the datasets.
  * `C135_persistent_false`: C135 is false: with one worker and `persistent_workers=True` (which torch allows) the loader is constructed, but the option also reaches the inner DataLoaders, which have no workers: once the dataset was split every iteration raises.
  * `C135_timeout_false`: C135 is false: with one worker, a timeout reaches the inner DataLoaders and fails an assertion.
  * holds, `C135_delivers_partial`: C135, what holds: with at most one worker and without `drop_last`, timeout and `persistent_workers` (and with a prefetch factor only for a worker) the one-process loader can be constructed and yields exactly what the loader without workers yields. Missing: those options, and lists of datasets with one worker.
* **C136** (A constructed dataset can be split)
  * `C136_metadata_false`: C136 is false: the same for metadata that leave out a file.
  * `C136_short_false`: C136 is false: with fewer lengths than files the constructor succeeds and `split` is a KeyError.
  * holds, `C136_lengths_partial`: C136, what holds with `file_lengths`: the dataset can be split iff every file occurs among as many files as there are lengths; otherwise `split` is a KeyError. For distinct files the length used for the i-th file is the i-th length. Missing: that a list of lengths of another size than the file list is refused.
  * holds, `C136_metadata_partial`: C136, what holds without `file_lengths`: the dataset can be split iff no metadata were given or they cover every file; otherwise `split` is a KeyError. Missing: that metadata for some of the files only are completed or refused.
* **C137** (The demo splits its data over the largest fitting number of workers)
  * `C137_names_false`: C137 is false: with 27 workers the first and the last dataset have the same name.
  * `C137_too_many_false`: C137 is false: 53 workers run out of names.
  * holds, `C137_split_partial`: C137, what holds: for positive sizes, `split_datasets` uses the largest number of workers up to `max_workers` that divides the batch size. If these are at most 52, the datasets together hold every item once and their batch sizes add up to the batch size; up to 26 they have different names. Missing: different names for 27 or more workers, and any result for 53 or more.
* **C139** (Streams survive pickling)
  * `C139_meta_false`: C139 is false of the code. No metadata object survives pickling: whatever its arguments, used or not, loading it raises (if it could be written at all).
  * `C139_tensor_false`: C139 is false of the code. No StreamTensor can be pickled: with a named axis torch refuses, without names the inner state lacks metadata.
  * holds, `C139_meta_errors_partial`: C139, exactly: an object that has not been used is written by a current Python, and reading it is a KeyError; one that has been used is a TypeError. Up to Python 3.10 writing is a use. Missing: that metadata can be read back, which never holds.
* **C140** (A copy of metadata equals the original and is independent of it)
  * `C140_copy_false`: C140 is false of the code. A copy has no chunk indices, and an in-place write to its lengths changes the original.
  * holds, `C140_copy_partial`: C140, what holds: the copy reports the flags and lengths of the original, and after any history of uses, reading or assigning columns of one changes nothing that the other reports. Missing: chunk indices, and in-place writes.
* **C141** (Every torch function has one treatment)
  * `C141_tables_false`: C141 is false of the code. `torch.transpose` is in two tables, and is treated as the first of them says (see C35 for what comes of it).
  * holds, `C141_tables_partial`: C141, exactly. A function is in two tables iff it is `torch.transpose`, `torch.sigmoid`, `Tensor.sigmoid` (recoupled and default-valid; they are recoupled) or `torch.fake_quantize_per_tensor_affine` (overridden and decoupled; it is overridden); every other function is treated as its table says, or, if it is in none, as default-valid with a warning; and the warning is given for no other function. Missing: the four functions.
* **C142** (A method is treated like the function of the same name)
  * `C142_masked_select_false`: C142 is false of the code, consequence. Whatever the stream and the mask, `x.masked_select(mask)`, being default-valid, never falls back: when torch accepts the mask, the result is a StreamTensor with all the metadata of `x` and a single axis, which they cannot describe.
  * `C142_methods_false`: C142 is false of the code. `torch.masked_select` falls back to a plain tensor (C126), the method `x.masked_select` is in no table; and so are, of decoupled functions, the methods `argmax`, `argmin`, `argsort`, of recoupled ones `adjoint`, of valid ones `equal`. `torch.transpose` is recoupled, `x.transpose` default-valid.
  * holds, `C142_inplace_partial`: C142, in-place functions. An in-place function that is in some table (`torch.clamp_`) is treated like the method of the same name (`x.clamp_`). Missing: functions that are not in place.
  * holds, `C142_methods_partial`: C142, the part that holds. If both the function and the method are in some table, both are treated alike, except `transpose`, and `real` and `imag`, whose methods are the properties that StreamTensor redefines by the functions (tensor.py:855-861). Missing: `transpose`, and methods in no table.
* **C143** (In-place methods return the tensor they were called on)
  * `C143_inplace_false`: C143 is false of the code. `x.scatter_(…)` is recoupled: it returns another object than `x`.
  * holds, `C143_inplace_partial`: C143, exactly. Every in-place method of the tables returns the tensor itself, except `scatter_` (recoupled), `scatter_add_` and `scatter_reduce_` (overridden, see C129). Missing: these three.
  * holds, `C143_pairs_partial`: C143, an operation and its in-place form. If both `x.o(…)` and `x.o_(…)` occur in the tables, the two are treated in the same way (default-valid and valid, or recoupled and recoupled in place), except `sigmoid` (recoupled, while `sigmoid_` is valid), `conj_physical` (default-valid, while `conj_physical_` is recoupled), and `scatter`, `scatter_add` and `scatter_reduce`, whose in-place forms are treated as if they were not in place. Missing: these five.
* **C144** (Overrides take their arguments as torch does)
  * `C144_axis_false`: C144 is false of the code, `axis`. torch accepts the keyword `axis` for `dim`; no override does.
  * `C144_order_false`: C144 is false of the code, order. `x.scatter_reduce_(dim, index, src, reduce)`, the order that torch documents: the override takes the third argument for the reduction and the fourth for the source. (torch then gets a tensor as reduction and refuses.) By keyword the call binds well.
  * `C144_refused_false`: C144 is false of the code. Calls that torch accepts and the override refuses with TypeError: `torch.permute(input=x, dims=d)`, `torch.unbind(input=x)` (the parameter is called `tensor`), `torch.frexp(x, out=o)`, `torch.select_copy(x, d, i, out=o)` (no such parameter), `torch.take_along_dim(x, i)` (the axis is required), `torch.take(x, index=i)` (called `indices`), and `x.permute(dims=d)`.
  * holds, `C144_binds_partial`: C144, the part that holds. For every other override: each call that torch accepts, with any arguments and keywords, binds, and every parameter is given the value that torch would give it; for a method the tensor itself is the first. Missing: the functions in `differing`, by the theorems above.
* **C145** (An axis may be given by name)
  * `C145_names_false`: C145 is false of the code. Whatever the tensor and the name: `unbind`, `select`, `index_select`, `gather`, `squeeze`, `torch.transpose` and `cat` of two or more tensors refuse an axis given by name.
  * holds, `C145_names_partial`: C145, the part that holds. `cat` of a single tensor, and functions in no table such as `x.sum("L")`: with the name of axis `a` they do what they do with its position, in either spelling. Missing: the overrides.
* **C146** (Several axes may be given as one tuple)
  * `C146_tuple_false`: C146 is false of the code. No call of the methods `permute` and `squeeze` with a tuple of axes succeeds, whatever the tensor and the axes. When torch accepts the axes, TypeError.
  * holds, `C146_tuple_partial`: C146, the part that holds. `torch.permute(x, dims)` with a tuple is what `x.permute(*dims)` is (C34): `permute` binds the tuple to `dims`. Missing: the methods.
* **C147** (torch.conv1d accepts the argument forms of torch)
  * `C147_int_false`: C147 is false of the code. No call of `torch.conv1d` on a StreamTensor with an int as stride or dilation succeeds, whatever the input; these are the defaults, so `torch.conv1d(x, weight)` never works.
  * `C147_int_raised_false`: C147 is false of the code, what is raised. With an int as dilation and a padding that is no list, the exception is a TypeError; with an int as stride it is a TypeError wherever the call with a sequence in its place would have succeeded.
  * `C147_padding_false`: C147 is false of the code, padding. A list, which torch accepts like a tuple, is a TypeError, and `"same"` raises NotImplementedError.
  * holds, `C147_seq_partial`: C147, the part that holds. With sequences for stride and dilation, as `torch.nn.Conv1d` passes them, and any other spelling of the padding, the call is the convolution with those numbers (C51 and the others), exceptions included. Missing: ints for stride and dilation, a list for padding.
* **C149** (A refused call of a stack has no effect on its streams)
  * `C149_refused_false`: C149 is false of the code. The chunk `[5]` of a running stream is refused by the second layer, which has too few frames; the first layer has taken it in. Sent again with the frames that follow it, its frame is used twice.
  * holds, `C149_refused_partial`: C149, the part that holds. A refused call has changed the states of the layers before the one that refused, as an accepted call does, and no others; so it has changed nothing if there are only pointwise functions before that layer. Missing: stacks in which a layer after a convolution refuses.
* **C150** (Strided length slices are exact for sequences of any length)
  * `C150_long_rows_false`: C150 is false of the code. A row of 16777217 frames (17 and a half minutes of audio at 16 kHz), every second of which is kept, has 8388609 frames left; the code says 8388608.
  * holds, `C150_float_partial`: C150, what holds: with a step of at most `2 ^ 24` and rows of at most `2 ^ 24` frames the lengths that the code computes in float32 are the exact ones, so that everything proved of `indexLengthSlice` (C05 to C08, C13, C43, …) holds of the code. Missing: longer rows (`C150_long_rows_false`).
* **C151** (Lengths of concatenated chunks are the sums of their lengths, however long the stream)
  * `C151_sum_false`: C151 is false of the code. Two consecutive chunks of 2 ^ 30 frames of one stream (18 hours of audio at 16 kHz each) are concatenated to a chunk of length -2 ^ 31.
  * holds, `C151_sum_partial`: C151, exactly. Chunks are refused as with unbounded integers (C19), and the lengths of the result are the sums modulo 2 ^ 32; so they are the sums iff each of these is below 2 ^ 31. Missing: longer streams.
* **C153** (suppress_warnings(False) restores the warnings)
  * `C153_restore_false`: C153 is false of the code. `suppress_warnings(True)` followed by `suppress_warnings(False)` does not restore what was set before: if warnings were to be shown every time, or to be raised as exceptions, they are shown once afterwards.
  * holds, `C153_restore_partial`: C153, the part that holds. After any history (from any filters, nothing having been shown before the history), `suppress_warnings(False)` turns the warnings of dreamstream on: until the filters are changed again, each of them is shown the first time it is given, even if it had been shown before, and not shown again. So if nobody had set a filter for them, everything is as at the start. Missing: other settings.
* **C154** (Indexing metadata gives metadata or raises)
  * `C154_index_false`: C154 is false of the code. With three entries, as in `x.meta[:, :, None]` for a tensor with three axes, the result is `None`; so it is with one slice in a list.
  * holds, `C154_entries_partial`: C154, the two entries. After the batch index, the length index may be `None` (everything is kept), an int, a slice, a mask, or a list, a tuple or a tensor of ints, which all mean the same; tensors without axes and with more than one are refused (IndexError). As batch index, these are refused too (TypeError and IndexError). Missing: the cases in which the result is `None`.
  * holds, `C154_index_partial`: C154, exactly. The result is `None` iff a list or tuple is given in which not all entries are ints and whose number of entries is not 2. Otherwise: two entries in a tuple are the batch and the length index (as are two entries in a list, if one is no int); a list of ints selects sequences; a tuple of other than two ints is refused (TypeError); a single entry is a batch index. Missing: the cases in which the result is `None`.
* **C155** (Training chunk by chunk works)
  * `C155_training_false`: C155 (false). Training chunk by chunk, as the README promises, raises on the second chunk of a stream already with two convolutions.
  * holds, `C155_raises_partial`: C155: whatever the stack, training chunk by chunk goes through or raises RuntimeError, and it raises at once if nothing in the stack is trained. Missing: training (`C155_training_partial`).
  * holds, `C155_training_partial`: C155 (partial, exact). A stack of online convolutions and pointwise functions, some of whose weights are trained, is called on batches, each call followed by the backward pass of its output. No call raises if and only if no convolution wider than one frame comes after a trained one, or no batch continues a stream. Missing: nothing for this model; the property as such is false (`C155_training_false`).
* **C156** (The memory kept for an open stream does not grow with its chunks when gradients are recorded)
  * `C156_memory_false`: C156 (false). In a stack with a convolution wider than one frame after a trained one, the buffers of an open stream keep one more result alive with every chunk.
  * holds, `C156_memory_partial`: C156 (partial). If no convolution wider than one frame comes after a trained one, the buffers keep no result of a layer alive, however many chunks were processed. Missing: false for other stacks (`C156_memory_false`).
* **C158** (Several Ellipses mean what torch means by them)
  * `C158_ellipses_false`: C158 is false. `x[..., 0, ...]` on a (batch, feature, length) tensor: the first Ellipsis takes two axes in torch, so the data are those of `x[:, :, 0]`, one frame of every row, but `replace_ellipsis` reads the index as `x[:, 0, :]` (overrides.py:309-311): the result is named (batch, length) over an axis of features and keeps the metadata of all frames.
  * `C158_positions_false`: C158 is false, also by refusing: on a (batch, length) tensor `x[..., ..., None, ...]` is accepted by torch, and so is `x[..., None]`, its other spelling, here; but the first is refused, because the entries replaced by full slices are looked up at the positions from before collapsing (overrides.py:310-311), which by then are those of other entries.
  * holds, `C158_apart_partial`: C158 for Ellipses that are not neighbours (partial). At least two Ellipses, no two of them neighbours, where torch accepts the index. If they stand for one axis each when the entries are counted (as many entries other than `None` as axes), the result has torch's data, where the first Ellipsis takes all the axes, under the names and metadata of the index in which each Ellipsis is a full slice; otherwise IndexError. Missing: the names and metadata of the axes that torch gives, see `C158_ellipses_false`.
  * holds, `C158_ellipses_partial`: C158 (partial). Neighbouring Ellipses: where torch accepts them, any number of them next to each other gives what one of them gives (same values, same names, same metadata, same exception). Missing: Ellipses that are not neighbours, for which the names can be of other axes than the data (`C158_ellipses_false`, `C158_apart_partial`).
* **C159** (Residual connections stream like offline)
  * `C159_residual_false`: C159 is false of the code. Offline the block gives `[4, 8, 12, 16, 14]` for `[1, 2, 3, 4, 5]`. Streamed as `[1, 2, 3]` first it raises RuntimeError, the widths being 2 and 3. Streamed as `[1, 2]`, `[3, 4]`, `[5]` the first call broadcasts the one frame of the convolution, the second call adds the outputs for frames 1 and 2 to frames 2 and 3 without complaint (9, 13 instead of 8, 12), and the last call raises AttributeError.
  * holds, `C159_pointwise_partial`: C159 for convolutions of one frame (kernel size 1, stride 1, no padding). Every call on a batch of chunks without chunk indices and with at least one frame is accepted, whatever is buffered, and gives for each chunk what the block gives offline for its frames. Missing: wider kernels, for which sequences in several chunks fail (`C159_residual_false`, `C159_residual_partial`).
  * holds, `C159_residual_partial`: C159, the part that holds. A residual block around a convolution that keeps the length (stride 1, padding of half the kernel), without chunk indices. (1) If a schedule of calls is accepted, then every sequence that has ended came with all its frames in its last chunk, and (2) the block gives for that chunk what it gives offline. (3) A batch of whole sequences is accepted, whatever is buffered. So the block accepts sequences that are not cut into pieces, and no others. Missing: sequences in several chunks: either some call raises, or the schedule never gets to the end of the sequence.
* **C161** (Streaming the files of a dataset through a convolution gives the offline output of each file)
  * `C161_stream_false`: C161 is false of the code. A file 1, 2, 3 cut into chunks of two frames: both samples carry the whole file (C74), so the network is given the frames 1, 2 and then 1 again, and a convolution with kernel 1 puts out 1, 2, 1.
  * holds, `C161_collect_partial`: C161 (collector). Without drop_last, for files of at least one frame that are one chunk each (no longer than their chunk size), any workers, shuffling and orders, and every convolution that fits in every padded file: the loader yields all batches, no call of the convolution raises, the collector accepts every output, chunk indices included, and afterwards it has entries for exactly the files, each with the offline output of the file, marked as ended, and its id closed. Missing: files of several chunks (`C161_given_partial`).
  * holds, `C161_drop_partial`: C161 with drop_last, whatever the workers: whenever no call of a convolution as in `C161_given_partial` raises, its outputs for every file of which anything is delivered, be it left without an end (`C77_false`) or not, are the offline outputs of the frames delivered: those given for the first `n` chunks of the file. Missing: the frames of later chunks and convolutions with padding, as there.
  * holds, `C161_drop_runs_partial`: C161 with drop_last, no call raises: under the conditions of `C161_runs_partial`, for any number of workers. What comes out is in `C161_drop_partial`. Missing: as there and in `C161_runs_partial`.
  * holds, `C161_given_partial`: C161, files of several chunks. What the network is given of a file is, for every chunk, the *first* frames of the file, as many as the chunk has, and behind them the rest of the file, not counted by the metadata. A convolution without padding (and with a stride of at most its width) does not see that rest: whenever no call raises, its outputs for every file are the offline outputs of the frames given. For files of one chunk these are the frames of the file. Missing: the frames of the later chunks, which the network is never given; convolutions with padding, which see the rest of the file at the end of a shorter sequence (C112).
  * holds, `C161_runs_partial`: C161, no call raises. If the files and their chunks are at least as long as the kernel (the last chunk of a file may be shorter, but not shorter than the stride), no call with the loader's batches raises, and the outputs for every file are the offline outputs of the frames given. Missing: the frames of the later chunks, as in `C161_given_partial`; batches all of whose rows see less than the kernel, which raise RuntimeError (C58); strides equal to the kernel width, which can raise TypeError (C59); convolutions with padding.
  * holds, `C161_stack_partial`: C161 (stacks). Likewise for every stack of layers as in C114, if every file is long enough for one output of the stack: no call raises and the outputs of every file are those of the ordinary stack on the whole file. Missing: files of several chunks (`C161_given_partial`), other stacks (C113, C62).
  * holds, `C161_stacks_drop_partial`: C161, stacks, drop_last, whatever the workers: the outputs for every file are those of the ordinary stack on the frames given for its first chunks, as many as are delivered, whenever no call raises; and none does if the chunks are long enough, as in `C161_stacks_partial`. Missing: as there.
  * holds, `C161_stacks_partial`: C161, stacks, files of several chunks. For stacks without padding and with strides of at most the kernel widths: whenever no call raises, the outputs for every file are those of the ordinary stack on the frames given (`C161_given_partial`). With strides below the kernel widths no call raises if the first chunk of every file is long enough for one output of the stack and the others, also the last one, for one more. Missing: the frames of the later chunks; stacks with padding.
  * holds, `C161_stream_partial`: C161, where it holds. Without drop_last, for files of at least one frame cut into chunks of `size f ≥ 1` frames: what the network is given of a file is, for every chunk, the *first* frames of the file, as many as the chunk has. If no file is longer than its chunk size, the batches are a schedule (C50-C60 apply), no call raises if the kernel fits in every padded file, and whenever no call raises the outputs of every file are the offline outputs of the file, for every convolution. Missing: files of several chunks (`C161_given_partial`).
* **C162** (A formatted time has at most seven characters)
  * `C162_width_false`: C162 is false of the code. The documented bound of 7 characters does not hold for times from 9999.5 seconds on (`1.234e+04s`), nor below a nanosecond (`0.1234ns`).
  * holds, `C162_width_partial`: C162, what holds: times from a nanosecond to 9999.5 seconds are formatted in at most 7 characters; with another precision `p` (at least 4) in at most `p + 3` characters, below `10 ^ p - 1 / 2` seconds. Missing: longer and shorter times, for which the property fails.
* **C166** (The columns of timing reports line up)
  * `C166_columns_false`: C166 is false of the code. A standard deviation below 0.1 nanoseconds makes the line longer, and so does a million iterations.
  * holds, `C166_columns_partial`: C166, what holds: with fewer than 100000 iterations and all times zero or between a nanosecond and 9999.5 seconds, every line has the same length (and so the columns line up). Missing: other times and numbers, for which the property fails.
* **C167** (Computing a tensor leaves all other tensors as they are)
  * `C167_clone_false`: C167 for `x.clone()`, `x.detach()` and the like: they copy or share the frames, but give the metadata object of `x` to their result (tensor.py:830-832). After `y = x.clone(); z = conv(y)` the lengths of `x` are those of `z`: cloning a chunk does not protect it.
  * `C167_others_false`: C167 is false of the code. After `y = relu(x); z = conv(y)` the lengths of `x` (and `y`) are those of `z`, although `x` was never given to the convolution.
  * holds, `C167_others_partial`: C167, what happens exactly: elementwise functions change no variable. A convolution changes no frames of variables other than its argument, and it changes the metadata of a variable if and only if the variable shares its metadata object with the argument and the kernel is one frame wide or all sequences start; the metadata are then those of the output. Missing: variables that share the metadata object, for which the property fails.
* **C168** (Programs on StreamTensors mean what they mean for immutable values)
  * `C168_programs_false`: C168 is false of the code. With immutable metadata the last variable would have length 3.
  * holds, `C168_linear_partial`: C168 for straight-line programs, such as stacks of layers: if every tensor is used by at most one statement, the program does what it does with immutable StreamTensors, and all tensors that were not used have the same values. Missing: tensors that several statements use (`C168_programs_false`).
  * holds, `C168_programs_partial`: C168, what holds: if after a convolution no variable of the family of its argument (the variables from which or with which the argument was computed elementwise) is used again, except through the result, the program raises the same exception, or leaves the same values in all variables that are not spent and the same `stream_buffer`s, as with immutable StreamTensors. Missing: programs that use a tensor of such a family again (residual connections, C159).
  * holds, `C168_values_partial`: C168, single statements: `f(x)` gives a tensor with the metadata of `x` and `f` of each of its frames, and `f(x, y)` of two tensors of the same width with equal metadata a tensor with that metadata and `f` of corresponding frames. Missing: tensors of different widths or with different metadata, and chunk indices (C108, C111, C159).
* **C169** (A stream that ends within a file is reported)
  * `C169_truncated_false`: C169 is false of the code. A truncated file goes unnoticed if it is not the longest of its group: `a` lacks its end, and nothing is raised.
  * holds, `C169_all_partial`: C169 holds if all files lack their end. Missing: as in `C169_exact_partial`.
  * holds, `C169_exact_partial`: C169, exactly: on a stream whose files may lack their end, the generator plays groups of different files one after the other, starting with the first batch, each chunk by chunk; all groups but the last have the size of the first batch. It raises RuntimeError after the first group with a longest file that lacks its end, and returns, having delivered every sample of the stream, if there is no such group. Missing: files that lack their end and are shorter than others of their group go unnoticed (`C169_truncated_false`).
  * holds, `C169_loader_partial`: C169 (loader). A loader with drop_last whose batches must not overlap, with any workers: if it raises nothing while its workers are set up, it plays groups of files as in `C169_exact_partial`; what it plays of a file are its first chunks, the last of them possibly marked as the end. It returns if no group has a longest file without an end, which is so with one worker, and raises RuntimeError otherwise. Missing: as there.
  * holds, `C169_single_partial`: C169 holds for batches of one file: if any file lacks its end, the generator raises. Missing: several files in a batch (`C169_exact_partial`).
  * holds, `C169_truncated_partial`: C169, where it holds: if the stream ends within its only file, the samples are yielded and then RuntimeError is raised. Missing: several files, for which `C169_exact_partial` says when it raises.
* **C170** (Convolution finds the length axis by its name)
  * `C170_axes_false`: C170 is false of the code. Exchanging the two features of the frames (1, 2), (3, 4) should give (2, 1), (4, 3). With axes batch, features, time it does. With axes batch, time, features the call is accepted and the two frames change places: the axes count by position, whatever their names are.
  * holds, `C170_first_partial`: C170, another axis first: a batch of several streams (or none) whose first axis has another size than the number of streams is refused by every layer, with or without padding. Missing: looking the batch axis up by its name; if the sizes agree by chance, or for a single stream, the call is accepted (C170_axes_false).
  * holds, `C170_mixed_partial`: C170, another axis first: if some of the streams start and some do not, and the first axis has not the size of the batch (as when another axis precedes it), a layer with padding raises IndexError at the mask of the starting rows. Missing: looking the batch axis up by its name.
  * holds, `C170_names_partial`: C170, what the code does: the names of the axes do not matter. Under other (valid) names the same data give the same data, metadata and buffer, or the same exception; the result carries the names of the argument. Missing: looking the axes up by their names (the property holds for the order batch, channels, length: C171).
  * holds, `C170_row_partial`: C170, rows without batch axis: a StreamTensor with two axes (channels, L), as `unbind` gives, is refused by every layer, although `torch.conv1d` takes tensors without batch axis. Missing: a result for such rows.
* **C171** (Streaming a convolution with channels gives the offline output in every channel)
  * `C171_channels_false`: C171 is false of the code. With stride 3 and kernel size 1 the chunks of 2 frames and 1 frame give two outputs; the whole sequence has one.
  * holds, `C171_channels_partial`: C171, what holds: over any schedule of batches with axes (batch, channels, length), if no call raises, the outputs of each complete stream put together are, in every output channel, what an ordinary `Conv1d` gives for the whole stream, if the stride is at most the kernel width or no chunk but the last ends inside a gap. Missing: sequences with a chunk that ends inside a gap (C52), calls that raise (C58, C59).
* **C172** (An axis out of range is refused)
  * `C172_select_false`: C172 is false of the code. `x.select(-5, 1)` of a tensor with two axes is not refused: it selects row 1, as `x.select(0, 1)` does.
  * holds, `C172_above_partial`: C172, `select` with an axis above the range: IndexError, as in torch. Missing: an axis below the range.
  * holds, `C172_axis_partial`: C172, the part that holds: the other overrides that take an axis refuse an axis out of range with IndexError. Missing: `select` with an axis below the range.
  * holds, `C172_below_partial`: C172, `select` exactly: an axis below the range counts as axis 0. Missing: a refusal.
  * holds, `C172_unsqueeze_partial`: C172, new axes: `unsqueeze` takes axes of the result, and refuses others with IndexError. Missing: `select`.
* **C173** (Sections may be given as a tuple)
  * `C173_tuple_false`: C173 is false of the code. `x.split((1, 1), 0)` along the batch axis raises TypeError; the list works.
  * holds, `C173_batch_partial`: C173, the batch axis: with a tuple of sections `split` never returns. Missing: a result.
  * holds, `C173_tuple_partial`: C173, other axes: a tuple of sections means what the list means, along the length axis for tensors that are at least as wide as their metadata say. Missing: the batch axis.
* **C174** (Functions of lists of StreamTensors give a stream or refuse different streams)
  * `C174_lists_false`: C174 is false of the code. `torch.stack` of two StreamTensors (here without names on their axes, since torch does not stack named tensors) computes the result, and then raises IndexError.
  * holds, `C174_exact_partial`: C174, exactly, for all arguments. What the torch function raises is raised. Otherwise only the arguments that are StreamTensors themselves count. If there is none, a tensor becomes an IndexError. If all of them pass for the first (`Looks`), a tensor gets the metadata of the first. If one does not, the first such one decides: AttributeError without chunk indices, RuntimeError with them. Lists of tensors come back without metadata, other results as they are. Missing: metadata of StreamTensors in lists.
  * holds, `C174_ignored_partial`: C174, no refusal of different streams: StreamTensors inside lists are not looked at. With one StreamTensor `x` outside the lists the result has the metadata of `x`, whatever the lists hold. Missing: a comparison with the metadata of the others.
  * holds, `C174_only_lists_partial`: C174, exactly: a function in no table whose StreamTensors are all inside lists gives no tensor, whatever torch returns: IndexError. Missing: a result.
  * holds, `C174_stack_partial`: C174 for `torch.stack`: named tensors are refused by torch with RuntimeError, and so are different shapes; otherwise IndexError, whatever the metadata. Missing: a result.
* **C175** (Streaming a model of layers with channels gives the output of the ordinary model)
  * `C175_stack_false`: C175 is false of the code. A function of the entries that does not keep zeros (here `x + 1`) fills the padding of the shorter of two sequences, and the end padding of the next convolution sees it.
  * holds, `C175_lengths_partial`: C175 without padding, by the lengths of the chunks. If every stream starts with a chunk long enough for one output of the model and each later chunk is long enough for one more, no call raises, and the outputs of each stream put together are what the ordinary model gives for the frames of the stream that have come in. Missing: shorter chunks (`C175_unpadded_total_partial`), padding (`C175_online_partial`), strides equal to the kernel width (C59).
  * holds, `C175_online_partial`: C175, what holds: if no call raises, the outputs of each complete stream put together are what the ordinary model gives for the whole stream, provided no layer gets a batch with empty first or last chunks of several streams or chunks that end inside gaps (`Fine`), and functions that do not keep zeros do not come directly before a convolution with padding (`StackOK`). Missing: such stacks and batches (C62, C113).
  * holds, `C175_total_partial`: C175, no exceptions: for stacks with strides below the kernel widths and chunks at least as long as C114 asks, no call raises, every output chunk has frames, and the outputs of each complete stream put together are what the ordinary model gives for the whole stream. Missing: shorter chunks, wider strides (C114, C52).
  * holds, `C175_unpadded_partial`: C175 without padding: whatever functions are between the convolutions, whatever the batches hold next to their chunks and however short or empty the chunks are, after any number of calls that do not raise the outputs of each stream put together are what the ordinary model gives for the frames of the stream that have come in, if it gives anything for them. Missing: padding (C175_online_partial), strides above the kernel width (C52).
  * holds, `C175_unpadded_total_partial`: C175 without padding, no exceptions: with strides below the kernel widths no call raises if every call brings a new frame of the output of some stream (`Lively`) and no stream of which nothing has reached the last layer comes together with new ones (`Warm`). Missing: calls without new output, which raise (C58_stack_needed_partial).
* **C176** (The example program collects what the ordinary model gives)
  * `C176_program_false`: C176 is false of the code. The last piece of `a` has one frame and gives no output in the first layer. Next to the first piece of `b` the second layer forgets that it was the last one, so that the output for the end padding never comes and `a` is not closed; alone it makes the program raise.
  * holds, `C176_program_partial`: C176, what holds. If the first piece of every sequence is long enough for one output, pieces in between for the total stride and last pieces for what the end padding leaves of it, then whatever the order in which the pieces are dealt: the program does not raise, the ordinary model accepts every whole sequence, and for every id the collected tensor has the axes (F, L) and the size and entries of the target without its batch axis. Other ids have no entry. Missing: shorter pieces (false, see `C176_program_false`), strides not below the kernel widths, and functions that do not keep zeros before padded convolutions.
  * holds, `C176_wav2letter_partial`: C176 for the example itself. For the network of examples/wav2letter.py with any weights, in exact arithmetic: if no last piece has fewer than 115 samples, the program does not raise and what the collector holds for each sequence has the shape (classes, frames) and the entries of the model's output on the whole sequence. Missing: last pieces of fewer than 115 samples, which the sizes that the example draws do not exclude; rounding.
* **C177** (The batches of a loader have the requested size)
  * `C177_drop_false`: C177 is false in a second way: `drop_last` of the loader does not reach the datasets of a list; of a dataset with batch size 2 and one file, batches of one sample come.
  * `C177_list_false`: C177 is false: with the default `batch_size=1` and a list of two datasets the first batch has two samples.
  * holds, `C177_list_partial`: C177, what holds for a list of datasets: no batch is larger than the batch sizes of the datasets together, and if all datasets drop their last batches every batch has exactly that size. Missing: the `batch_size` of the loader, which has no influence (`C177_ignored`), and its `drop_last` where a dataset does not drop its last batches itself.
  * holds, `C177_single_partial`: C177, what holds for a single dataset: no batch is larger than `batch_size`, with any number of workers, overlapping or not; with `drop_last` every batch has exactly that size. Nothing is assumed about the files. Missing: lists of datasets.
* **C179** (join_dim_names and split_dim_names are inverse to each other)
  * `C179_split_join_false`: C179 is false: the names `in_x` and `out` come back as three names.
  * holds, `C179_split_join_partial`: C179, what holds in the other direction: the names of several axes come back from their joined name exactly if there is at least one and none of them contains an underscore. Missing: names with underscores, which torch accepts.
* **C181** (Quantising a StreamTensor keeps the stream)
  * `C181_quantize_false`: C181 is false of the code. Rounding the entries of two streams to multiples of 5 with `fake_quantize_per_tensor_affine` gives the rounded entries in an ordinary tensor without names: the streams are lost, and no exception is raised. A tuple of a StreamTensor and an ordinary tensor, which torch accepts, raises AttributeError.
  * holds, `C181_mixed_partial`: C181, refused: a tuple with an ordinary tensor raises AttributeError, wherever it stands. Missing: the tuples of StreamTensors and ordinary tensors that torch accepts.
  * holds, `C181_tuple_partial`: C181, what the code does for `quantize_per_tensor` and `quantize_per_tensor_dynamic`: one StreamTensor gives one tensor, a tuple of StreamTensors gives as many, each rounded by itself with its own scale; all are ordinary tensors without names. Missing: names and metadata.
  * holds, `C181_values_partial`: C181, what the code does for one StreamTensor: the entries are rounded one by one, at the same places; the result is an ordinary tensor without names. Missing: names and metadata.
* **C182** (implements registers overrides and documents them)
  * `C182_doc_false`: C182 is false of the code. `overrides.split` (overrides.py:124-127) has no documentation and is decorated with `torch.split`, `torch.functional.split`, which is the same function, and `torch.Tensor.split`: its documentation becomes the word `None`, twice that of `torch.split`, and that of the method.
  * holds, `C182_doc_partial`: C182, documentation: a function with documentation keeps it in front; the documentations of the torch functions follow in the order from the lowest decorator to the highest, each after a line of 80 signs; the function takes the name of the highest. Other functions are unchanged. Missing: functions without documentation, torch functions that are named twice (C182_doc_false).
* **C183** (The lists of functions written by the scraper are read back by the package)
  * `C183_empty_false`: C183 is false of the code. If the script finds no function for one of the lists, an empty file is written, and importing the package raises AttributeError: the file is read as one line, the name of which is empty. Without a file (a package that was installed without `doc_scrape`) IndexError is raised.
  * holds, `C183_lists_partial`: C183, the part that holds. A list with functions is read back as exactly the functions that the script has put in, in order, whatever further files there are. Missing: empty lists.
* **C185** (A model patched as in the README can be set online)
  * `C185_readme_false`: C185 is false of the code. A model is patched with `patch_module`, as the README says. If any module below it has not been patched itself, `model.online()` raises AttributeError, with the model itself already online.
  * holds, `C185_readme_partial`: C185, exactly. After `patch_module(model)`, `model.online()` succeeds exactly if all other modules of the model have been patched before (a model without submodules included), and then sets the mode of all modules. After `patch(model)` it always does. Missing: models whose submodules have not been patched.
* **C187** (Assigning to a part of a StreamTensor)
  * `C187_assign_false`: C187 is false of the code. `x[0] = y[0]` raises AttributeError, because the metadata of a row are not those of the batch (C24); but the row has been written.
  * holds, `C187_assign_partial`: C187, numbers and unnamed tensors. With ints, slices and Ellipsis as index, a number or an unnamed tensor that can be expanded to the selected part is written to exactly the entries that the same index selects; all others stay, and so do shape and names. The metadata are not touched: `setitem` gives the data only. Missing: values with names (exact in `C187_named_partial` and `C187_expand_partial`); `None`, index lists and index tensors, which are refused (`C187_new_axis_partial`, `C187_lists_partial`).
  * holds, `C187_expand_partial`: C187, values that are not of the shape of the part. A tensor with a name is never expanded, and neither is one whose shape, without leading axes of size 1, is not that of the last axes of the part with sizes 1 allowed: RuntimeError, and nothing is changed. Missing: expansion of named values.
  * holds, `C187_lists_partial`: C187, lists and index tensors. An index that contains a list or an index tensor is always refused, and the data are as before. Missing: the assignment itself, which torch does on tensors without names.
  * holds, `C187_metadata_partial`: C187, metadata. When torch accepts the assignment of a StreamTensor, the outcome depends on the metadata only: the assignment succeeds if those of the value look like those of `x`; otherwise it raises AttributeError if the value has no chunk indices, and RuntimeError if it has, and the entries have been written (`C187_assign_false`). Missing: as in `C187_refused_partial`.
  * holds, `C187_named_partial`: C187, values of the shape of the part, plain or StreamTensors, with or without names. If the part has no names, or every name of the value is that of the axis of the part, the value is written to exactly the selected entries, and the outcome depends on the metadata only (`C187_metadata_partial`). Otherwise the assignment raises RuntimeError and changes nothing. Missing: as in `C187_refused_partial`.
  * holds, `C187_new_axis_partial`: C187, `None` in the index. Such assignments are always refused, and nothing is changed. Missing: the assignment, which torch does on tensors without names.
  * holds, `C187_refused_partial`: C187, refusals. When the assignment raises an error, the data are as before, unless the value is a StreamTensor whose metadata are not equal to those of `x` (`C187_assign_false`). Missing: such values, for which the entries have been written.
  * holds, `C187_stream_partial`: C187, StreamTensors. With slices and Ellipsis as index, a StreamTensor with the shape of the part, the names of `x` and the same metadata (without chunk indices) is written to exactly the selected entries. Missing: ints in the index (`C187_named_partial`) — then the metadata of the value, which has no batch axis of this size, must still be those of `x` —, chunk indices (`C24`), and values that are expanded.
* **C188** (Integer tensors without axes are indices like ints)
  * `C188_scalar_false`: C188 is false of the code. `x[torch.tensor(1)]` raises RuntimeError, `x[1]` gives the row.
  * holds, `C188_never_partial`: C188, refusals, without assumptions on the rest. Such an index always raises an exception. Missing: as above.
  * holds, `C188_others_partial`: C188, other indices. Without such an entry the index does what `C41`-`C44` say. Missing: as above.
  * holds, `C188_refused_partial`: C188, refusals. An index that contains an integer tensor without axes, alone or in a tuple with at most one Ellipsis, never gives a wrong result, because it never gives a result: when torch accepts the index, the description has one name too many for each such entry, and RuntimeError is raised. Missing: the same result as with the int, which the code does not give (`C188_scalar_false`).
* **C189** (Iterating over a StreamTensor)
  * `C189_iter_false`: C189 is false of the code. With the length axis first, iterating raises ValueError, although every `x[i]` works.
  * holds, `C189_iter_partial`: C189. Unless the first axis is the length axis, iterating gives one StreamTensor for each position of the first axis, and the `i`-th is `x[i]`: same names, shape, metadata and entries. Missing: the length axis first (`C189_iter_false`).
  * holds, `C189_scalar_partial`: C189, no axes. A StreamTensor without axes cannot be iterated over: TypeError, as in torch. Missing: as in `C189_iter_partial`.
* **C190** (A running model can be copied)
  * `C190_copy_false`: C190 (false). A running model of two convolutions cannot be copied when gradients are recorded; before the first chunk and after the last one it can.
  * holds, `C190_copy_partial`: C190 (partial, exact). A stack of online convolutions and pointwise functions is called on batches, and then copied. The copy is made, and has the state of the model, if and only if no convolution wider than one frame comes after a trained one, or no stream is open; otherwise RuntimeError. Under `torch.no_grad()` no weights count as trained. Missing: nothing for this model; the property as such is false (`C190_copy_false`).
* **C191** (A patched model can be saved as a whole and loaded)
  * `C191_saved_false`: C191 (false). A patched model that was saved as a whole can never be loaded: AttributeError, whatever the model.
  * holds, `C191_saved_partial`: C191 (partial, exact). Every module occurs once in the model. It can be loaded after it was saved if and only if no part of it was patched; then the loaded modules are those of the model. Missing: false of patched models (`C191_saved_false`, which also covers shared modules).
* **C192** (A running model can be moved to another device or precision)
  * `C192_first_false`: C192 (false). Whether frames of a higher precision are refused depends on the order of the rows: they are in the first row, they are silently converted in the second.
  * `C192_moved_false`: C192 (false). A running model that is moved to another device, or to a lower precision, refuses the next chunk of an open stream; a higher precision and a move between two streams are fine.
  * holds, `C192_exact_partial`: C192 (exact). A stack of online convolutions that is called and moved in any order gives an output at every call if and only if no call that continues a stream has, for some convolution wider than one frame, a row with frames on another device, or frames of a precision that does not fit — of any row where the buffers have the same length, of the first row where they do not. Every other history raises RuntimeError. Missing: false in general (`C192_moved_false`); frames of a higher precision are not refused if they are not in the first row (`C192_first_false`).
  * holds, `C192_moved_partial`: C192 (partial). A stack of online convolutions is called and moved to other devices and precisions in any order. No call raises if all convolutions look at one frame only, or if every call that continues a stream has only rows of streams whose frames fit the place of the model (the same device, and a precision that is not higher, nor half where the model is in bfloat16 or the other way round). If some convolution is wider, and all buffers of a call have the same length or the precision never changes, every other history raises RuntimeError. Missing: false in general (`C192_moved_false`); which calls raise when the precision changes and the buffers of a call have different lengths (`C192_exact_partial`).
* **C193** (Outputs can be taken out of the collector)
  * `C193_taken_false`: C193 (false). A finished output is taken out of the collector; a new stream with the same id is refused all the same, and so it is after `clear()`.
  * holds, `C193_taken_partial`: C193 (partial, exact). A program collects chunks and takes outputs out of the collector (`pop`, `del`, `clear`), in any order. When nothing is held for an id, the next chunk of it is collected, as the first one of a new output, if and only if it is marked as start and no chunk of this id that was marked as end has been seen; otherwise it is refused with a ValueError. Missing: new streams with the id of one that was finished (`C193_taken_false`).
* **C196** (A chunk that continues an unknown stream is refused)
  * `C196_unknown_false`: C196 is false of the code. The chunk `[5, 6]` continues a stream `b` that the module knows nothing of. In a batch with a running stream it is accepted and taken for the beginning of a stream; alone it is refused.
  * holds, `C196_unknown_partial`: C196, exactly. A batch with a chunk that does not start, of a stream of which the module (of kernel width above 1) holds nothing. If no row of the batch has held frames, the call is refused with a TypeError. Otherwise the chunk is taken for the beginning of a stream: the call has the output, or raises the exception, that it has if the module holds an empty sequence of frames for this stream. Missing: refusal in the second case (`C196_unknown_false`).
* **C197** (A checkpoint of a running model can be resumed)
  * `C197_checkpoint_false`: C197 is false of the code. The next chunk of an open stream, given to a new model with the state of the running one, raises a TypeError.
  * holds, `C197_checkpoint_partial`: C197, streams that are not open. A new model with the state of a running one treats the batches of streams of which the running one holds nothing as that does. Missing: streams that were open when the state was saved (`C197_checkpoint_false`, `C197_open_partial`).
  * holds, `C197_open_partial`: C197, streams that are open. Given a batch with a chunk that does not start, a new model with the state of a running one raises a TypeError if its first convolution has a width above 1 and only pointwise functions come before it; it gives the output of the running model, or raises its exception, if all its convolutions have width 1. Missing: as in `C197_checkpoint_partial`.
  * holds, `C197_return_partial`: C197, returning to a checkpoint. A running model into which its own earlier state is loaded goes on from where it is: the outputs for all further batches are those without loading, whatever was given to it since the state was saved. Missing: the streams as they were when the state was saved (`C197_checkpoint_false`).
* **C199** (Convolutions on parts of the channels)
  * `C199_split_false`: C199 is false of the code. With `p, q = x.split([1, 1], 1)` both parts have one metadata object. On the first chunk (1, 2), (3, 4) the first convolution leaves length 1 in it, so the second one takes the second frame for padding: of the outputs (4, 6), (8, 10) of the ordinary model only (8, 8) is left, whose second number is the sum of frames that are not neighbours. Nothing is raised.
  * holds, `C199_narrow_partial`: C199, what holds: with parts that have metadata of their own (`narrow`), two convolutions of the same configuration, and over any schedule of batches with axes (batch, channels, length) without chunk indices: if no call raises, the outputs of each complete stream put together are, in the channels of the first convolution, what an ordinary `Conv1d` gives for the first channels of the whole stream, and in the other channels what it gives for the other channels, if the stride is at most the kernel width or no chunk but the last ends inside a gap. Missing: parts obtained by `split` (`C199_split_false`; see `C199_shared_partial`), chunk indices (`cat` refuses them, C32), different configurations (C200).
  * holds, `C199_resume_partial`: C199, histories: a history of calls may be cut anywhere; the second part begins with the buffers the first part has left. Missing: see `C199_narrow_partial`.
  * holds, `C199_shared_partial`: C199, parts that share their metadata: `split` does what `narrow` does, whatever the buffers, on every batch in which some row does not start if the first kernel is wider than one frame, and on every batch if both convolutions are pointwise. Missing: first chunks of streams with kernels wider than one frame (`C199_split_false`).
* **C200** (Branches with kernels of different widths)
  * `C200_refused_false`: C200 is false of the code. A pointwise convolution next to one of width 3 with padding 1: on the first chunk of two frames the branches have two outputs and one, and `torch.cat` raises RuntimeError.
  * `C200_silent_false`: C200 also fails without an exception: `torch.cat` compares sizes but, of two tensors, not the metadata, and the other streams of a batch can make the sizes equal. Of the sums 3, 6, 9, 12, 9 of stream "b" the code gives 3, 6, 0, 9, 12: a zero that is taken for an output in the first chunk, and the last output cut off.
  * holds, `C200_first_partial`: C200, first chunks: if every stream in a batch starts in it and none ends, branches with kernels of different widths are never concatenated: the call raises RuntimeError, whatever the frames. Missing: as for `C200_whole_partial`.
  * holds, `C200_whole_partial`: C200, streams in one piece: if every stream in a batch starts and ends in it, and the batch has at least one frame, the call succeeds, keeps the metadata, and gives for each stream in each half of the channels what the ordinary convolution gives for that stream. Missing: streams in several chunks (`C200_refused_false`, `C200_silent_false`; with kernels of one width C199).
* **C201** (align_to orders the axes by name and keeps the stream)
  * `C201_align_false`: C201 is false of the code. After `y = x.mean("L")` (axes batch and features, metadata with lengths 3 and 2), `y.align_to("B", "F", "L")` has a length axis of size 1, and its metadata still say 3 and 2.
  * holds, `C201_align_partial`: C201, exactly. `x.align_to(*names)` (distinct names) raises RuntimeError if some axis of `x` has no name or one that is not given. Otherwise the result has the given names in the given order, every axis of `x` with its size, an axis of size 1 for every other name, the entries of `x` at the same coordinates by name, and the metadata of `x`. The batch and length axes hold the sequences of the metadata, as in `x`, if and only if no new length axis is made for longer sequences, and no new batch axis for another number of sequences than one. Missing: new axes called "B" or "L" in the other cases (`C201_align_false`).
* **C202** (A stack gives every output as early as possible)
  * `C202_latency_false`: C202 is false of the code. `b` starts with one frame next to a longer chunk of `a`; the second layer loses its start padding (see `C62_chain_false`). After three frames of `b` two outputs are ready, but only one comes out, and it is not the first one.
  * holds, `C202_earliest_partial`: C202: no stack with these kernel sizes, dilations, strides and paddings can do better. Number the frames of a sequence of `N` frames 1, ..., `N`. Of the outputs that are ready after `N` frames, those that are ready after `n ≤ N` frames depend on no frame after number `n`, and all others depend on a later one. Missing: nothing about the code; this says what `ready` in `C202_latency_partial` means.
  * holds, `C202_latency_partial`: C202 for strides up to the kernel widths and schedules in which no layer gets an empty first or last chunk next to other rows. `n` frames of the running sequence of stream `i` have come in (after any number of complete sequences). What came out for it is: `ready ls n` outputs, the first ones that the stack computes offline for the sequence, however it goes on. Missing: batches in which some layer gets an empty first or last chunk next to other rows (`C202_latency_false`), strides beyond the kernel width (C52).
  * holds, `C202_unpadded_partial`: C202, stacks without padding, in batches of any kind, for streams of one sequence each: after `n` frames of a stream exactly `ready ls n` outputs have come out for it, the first ones that the stack computes offline, however the stream goes on. Missing: padding (`C202_latency_partial`), ids used again (`C62_unpadded_again_false`).
* **C206** (A file that cannot be read costs only itself)
  * `C206_only_itself_false`: C206 is false: the file `a` has been read whole, but only its first sample is delivered, because the loader looks for the next file before it delivers the others; of `c`, in the other stream, and of `b` after the bad file nothing is.
  * holds, `C206_drop_last_partial`: C206, exactly, with `drop_last`: the batches all streams have, except that the last of them is lost (it was held back to be marked as the end, lines 177-191) if the first of the streams that end there ends with a file that cannot be read. Missing: nothing beyond.
  * holds, `C206_nothing_read_partial`: C206, without overlapping batches, if the first batch cannot be read: the exception and nothing else. Missing: files of other streams that can be read.
  * holds, `C206_readable_partial`: C206, a dataset whose files can all be read yields what the model without exceptions midway says, and it returns. Missing: files that cannot be read (`C206_only_itself_false`).
  * holds, `C206_stops_partial`: C206, exactly, without `drop_last`: the dataset raises the exception of the first file that is reached and cannot be read, after the batches before that: as many as there are samples before that file in its own stream. Missing: nothing of the other streams beyond that, and none of the files after it, is delivered (`C206_only_itself_false`).
  * holds, `C206_synchronous_partial`: C206, without overlapping batches: what is delivered before the exception is what would have been delivered whatever followed, and the loader then raises the exception of the file: it does not return, and it raises nothing else. Missing: what was already read but not yet delivered is lost (`C206_only_itself_false`).
  * holds, `C206_synchronous_readable_partial`: C206, without overlapping batches, nothing is different if all files can be read. Missing: files that cannot (`C206_only_itself_false`).
  * holds, `C206_workers_partial`: C206, several workers without `drop_last`: the loader raises when the first worker that is asked raises, after the batches before; the parts of the other workers are still asked for in that step but not delivered. Missing: nothing after that is delivered (`C206_only_itself_false`).
* **C207** (A file may be listed several times)
  * `C207_repeated_false`: C207 is false of the code: `a` is listed twice and the two copies come in different streams. With overlapping batches both are in one batch (the docstring says "Each batch is sampled to consist only of unique files"); without, the first sample of one of them is lost, and the first batch holds the first and the second sample of the other.
  * holds, `C207_all_partial`: C207, the part that holds for any list of files, overlapping batches: wherever the copies come, the batches hold the samples of every file exactly as often as it is listed, and nothing else; no batch is empty or larger than the batch size. Missing: batches of different files, and batches that do not overlap, which lose samples (`C207_repeated_false`).
  * holds, `C207_copies_partial`: C207, the part that holds, overlapping batches: if all copies of a file come in the same stream, the batches hold every file as often as it is listed, one copy after the other, and no batch holds a file twice. Missing: copies in different streams (`C207_repeated_false`).
  * holds, `C207_synchronous_partial`: C207, the part that holds, without overlapping batches: under the same condition the loader returns, delivers every file as often as it is listed, one copy after the other, in groups of different files that start together, and a group is smaller than the first only if nothing but further copies of its files is left. Missing: copies in different streams (`C207_repeated_false`).
* **C208** (The memory of collected outputs can be reused)
  * `C208_reuse_false`: C208 is false of the code. The outputs come in one piece of memory: `[1, 2]`, then `[5, 6]`; the collector holds `[5, 6, 5, 6]` instead of `[1, 2, 5, 6]`. A stream of one chunk shows what is written into its memory afterwards (9 instead of 3).
  * holds, `C208_exact_partial`: C208, exactly. If no call raises, the collector shows for each id: nothing, if no chunk of it has been collected; if one has, what is in the memory of this chunk *now*; if several have, what was in the memory of the first one when the second one was collected, and the others as they were when they were collected, whatever is written into any memory afterwards. (Chunks of batches without frames are not collected, C70.) Missing: the values of the first chunk at the time when it was collected (`C208_reuse_false`).
  * holds, `C208_fresh_partial`: C208, what holds without reuse. If no memory is written into after it has been given to the collector, the collector shows at the end what it would hold if it had copied everything at once, and the same calls raise the same exceptions. Missing: memory that is written into later (`C208_reuse_false`; what is shown then: `C208_exact_partial`).
* **C210** (Functions that undo each other give the StreamTensor back)
  * `C210_new_axis_false`: C210 is false for negative axes: after `x.unsqueeze(-1).squeeze(-1)` the last axis has no name any more.
  * `C210_split_length_false`: C210 is false for ragged batches: the pieces of a batch split along length cannot be concatenated.
  * `C210_split_no_rows_false`: C210 is false for batches without rows: torch gives one piece (a batch without rows) and `split` none, so that nothing is left to concatenate.
  * holds, `C210_negative_partial`: C210, negative spellings, exactly. If the new axis is given by a negative number and is not the first, its removal gives back the data and metadata, and all names but that of the axis before the new one, which is lost. Missing: that name.
  * holds, `C210_new_axis_partial`: C210, unsqueeze and squeeze. Adding an axis and removing it gives the StreamTensor back if the axis is not spelled with a negative number (or is the first). Missing: other negative spellings (`C210_new_axis_false`, `C210_negative_partial`).
  * holds, `C210_split_length_partial`: C210, splitting along length, exactly. A batch as wide as its longest sequence, split into pieces along length: concatenating the pieces gives it back if and only if every sequence reaches the last piece, and into it if it ends there. Missing: batches with shorter sequences, for which the concatenation raises (C31) or has other flags (C23).
  * holds, `C210_split_other_partial`: C210, splitting along another axis. Splitting along an axis that is neither batch nor length and concatenating the pieces gives the StreamTensor back. Missing: StreamTensors with chunk indices, whose pieces `cat` refuses (C24, C32).
* **C211** (A stream is not lost silently)
  * `C211_silent_false`: C211 is false of the code. `torch.argmax(x)` (a decoupled function) loses the stream without a warning. And of two calls of `flatten` that lose the stream, on different tensors and at different places of the program, only the first is reported: the warning is attributed to overrides.py and not to the place of the call.
  * holds, `C211_decoupled_partial`: C211, decoupled functions: they never warn. Missing: the warning.
  * holds, `C211_filters_partial`: C211, what the user sees under a filter "always", "error" or "ignore" for these warnings: every warning is shown; every call that would give one raises it; or no warning is shown. Missing: the losses that give no warning (`C211_decoupled_partial`).
  * holds, `C211_named_partial`: C211, where and what. The warning of a call names the function that was called and is attributed to the line of overrides.py that gives it: one line for each function, and for the two scatters one for each reason. So calls of different functions never hide each other's warnings. Missing: calls of the same function, and decoupled functions.
  * holds, `C211_shown_partial`: C211, what the user sees, by default. In a new session (no filter says anything about these warnings), a program of calls does what the functions do; the warning of a call that loses the stream is shown if and only if no earlier call gave the same one. Missing: later losses with the same warning, wherever in the program they happen, and decoupled functions (`C211_silent_false`).
  * holds, `C211_warns_partial`: C211, the warnings that are given. Indexing, `flatten`, `masked_select`, `scatter_add` and `scatter_reduce` give exactly one warning, a fallback warning, if they give a tensor without metadata, and none otherwise (also if they raise). Missing: functions that are decoupled and quantisation, which give a tensor without metadata and no warning (`C211_decoupled_partial`).
* **C214** (Files start in the order in which they are listed)
  * `C214_loader_false`: C214 is false of the loader even with batches of one file: `split` (stream_dataset.py:276 and `partition_by_sum`, 45) sorts the files by their number of chunks, so that of `a` with two chunks and `b` with one, `b` starts first.
  * `C214_order_false`: C214 is false of the code. Files `a` to `e` in batches of two, `b` with three chunks and the others with one, not shuffled: `e` starts before `d`, since every second file is read by the same lane.
  * holds, `C214_dataset_partial`: The same for a dataset: not shuffled (`order = d.files`), it starts the files as listed. Missing: see `C214_equal_partial`.
  * holds, `C214_equal_partial`: C214, where it holds: the files start in the order in which they are listed if the batch size is 1 or all files have the same number of chunks. Missing: other datasets (`C214_order_false`, `C214_order_partial`).
  * holds, `C214_order_partial`: C214, where it holds. Without drop_last every file starts once, and of two files the one whose lane has read fewer chunks before it starts first, or if they are equally many the one whose lane comes first in the batch; this determines the order. By C212 the synchronised batches start the files in this order too. Missing: the order in which the files are listed (`C214_order_false`).
* **C215** (Shuffling can bring any two files together)
  * `C215_meet_false`: C215 is false of the code. Three files, two workers, batches of two that overlap: `a` and `b` are given to the same worker, so that in no order of the files they are in a batch together. (`c` can be with either: the example below.)
  * holds, `C215_meet_partial`: C215, where it holds. Two files can be in the first batch together, for some orders of the files of the workers, exactly if they are given to different workers or every worker contributes at least two sequences to a batch. Which files share a worker is decided by `split`, before anything is shuffled. Missing: files of the same worker, if every worker contributes one sequence (`C215_meet_false`).
  * holds, `C215_never_partial`: C215, the other files. With overlapping batches and one sequence per worker in a batch, two files of the same worker are never in a batch together, however the files are shuffled. Missing: that they can meet.
* **C216** (A batch is delivered as soon as it has been read)
  * `C216_delivered_false`: C216 is false of the code. Two of the three chunks of `a`, all of `b` and all of `c` have been read, and the loader has given out nothing; the loader with overlapping batches has given out both batches.
  * holds, `C216_first_partial`: C216, the first batch. The loader without overlapping batches gives out its first batch exactly if all files in it were read to their ends; otherwise it has given out nothing. Missing: files with several chunks, of which the first has been read.
  * holds, `C216_overlapping_partial`: C216, with overlapping batches. Every batch that was read is given out, and then the exception of the source is raised. Missing: loaders without overlapping batches.
  * holds, `C216_read_partial`: C216, what is given out. Whatever the loader without overlapping batches gives out before its source stops belongs to files that were read to their ends by then. This holds of every stream of batches. Missing: chunks are held back until the whole file was read.
* **C217** (A damaged frame reaches only the outputs near it)
  * `C217_gap_false`: C217 is false of the code. Kernel 1, stride 3: frame 2 is in a gap and reaches no output of the ordinary convolution, but the first chunk ends in that gap, so that the convolution starts over with frame 2: output 1 changes with it.
  * holds, `C217_few_partial`: C217, how many outputs are damaged: `w` neighbouring frames reach at most `reachCount ls w` outputs, wherever they are in the stream and however long it is. Missing: what is missing from `C217_unpadded_partial` and `C217_padded_partial`, which say that only these outputs are damaged.
  * holds, `C217_padded_partial`: C217, complete streams of stacks with padding, followed by layers without padding: the frames of a stream are the same but for those that can see the damaged frames. Missing: empty first or last chunks next to other rows in front of a padded layer, chunks that end inside a gap (`C217_gap_false`).
  * holds, `C217_unpadded_partial`: C217, stacks without padding, with strides up to the kernel widths: a run on batches of the same shapes, of which stream `i` has other frames from `p` up to `q`, is accepted as well, and gives the same frames of `i` but for those that can see the damaged frames, however long the stream goes on; streams without damage are given as they were. Missing: padding (`C217_padded_partial`), strides above the kernel width (`C217_gap_false`).
* **C218** (Infinite frames reach only the outputs that see them)
  * `C218_mask_false`: C218 is false of the code. Where the first layer zeroes its padding, infinity times 0 gives NaN, which the second layer takes for the end padding of the shorter sequence: its last output is NaN instead of 0, and the one before that NaN instead of infinity. The model without infinities gives the ordinary outputs.
  * holds, `C218_call_partial`: C218, one call. For every module, every state of the buffers and every batch, a call raises exactly when the model without infinities raises, with the same exception, and otherwise gives the same metadata, width, buffers and valid frames. Missing: the content of the padding of the output, which later layers may read (`C218_mask_false`).
  * holds, `C218_padded_first_partial`: C218, padding in the first layer. If only the first layer has padding, every complete stream still gets the outputs of the ordinary stack. Missing: layers with padding after the first (`C218_mask_false`).
  * holds, `C218_unpadded_partial`: C218, stacks without padding. Whatever multiplication by 0 makes of the outputs in the padding, a stack of layers without padding accepts the same batches, and every stream gets the outputs of the ordinary stack on its frames. Missing: layers with padding after the first (`C218_mask_false`).
* **C219** (Results do not depend on memory outside the arrays)
  * `C219_outside_false`: C219 is false of the code. The start flag of `x[:, []]` is whatever the memory behind an empty array says.
  * holds, `C219_metadata_partial`: C219, `metadata[…]` with any index: ids, lengths, end flags and chunk indices, or the exception raised, do not depend on what is outside the arrays. Missing: the start flags.
  * holds, `C219_getitem_partial`: C219, `x[…]`: if no entry of the index is an empty list of positions or a mask without True, nothing depends on what is outside the arrays. Missing: indices that select nothing along length, where the start flags do depend on it.
  * holds, `C219_getitem_sos_partial`: C219, `x[…]` with any index: data, names, ids, lengths, end flags and chunk indices, or the exception raised, do not depend on what is outside the arrays. Missing: the start flags.
  * holds, `C219_index_select_partial`: C219, `index_select`: likewise, with at least one position. Missing: no positions.
* **C220** (A collected stream is marked as ended when its end has been collected)
  * `C220_late_false`: C220 is false of the code, the consequence: a chunk of that stream that comes after its end is not refused but appended.
  * `C220_marked_false`: C220 is false of the code. A stream of four frames goes through a convolution of width 3 and stride 2, in chunks of three frames and one. All batches are accepted by the module and by the collector, the entry holds the whole output, but it is not marked as ended and its id is not closed: the last output is empty and was skipped.
  * holds, `C220_batches_partial`: C220, batches: when a program has collected batches of streams without an exception, the entry of a stream is marked as ended, and its id closed, exactly if the last chunk collected is marked as end and is not empty. Missing: streams whose last chunk is empty.
* **C221** (The work of collecting is proportional to what is collected)
  * `C221_linear_false`: C221 is false of the code. Every chunk is appended by copying all that was collected before: whatever the factor `k`, some stream makes the collector write more than `k` times the frames collected.
  * holds, `C221_bound_partial`: C221, a bound: never more than the number of chunks times the frames collected. Missing: a bound proportional to the frames alone.
  * holds, `C221_exact_partial`: C221, exactly: collecting well-formed streams, interleaved as they may be, writes with every chunk that is not the first of its stream all frames of that stream so far. Missing: the bound claimed, see `C221_linear_false`.
* **C222** (Collating keeps every sample whole)
  * `C222_axis_false`: C222 is false of the code. An axis that no tensor has is not refused: `dim=-3` with tensors of two axes exchanges batch and length in the result.
  * `C222_ranks_false`: C222 is false of the code. Along the first axis, a tensor of one axis next to a tensor of two is accepted if it happens to be as long as the other is wide, and is repeated on every line.
  * `C222_refused_false`: C222 is false of the code. A file of one channel in a batch with a longer file of two channels is not refused: its only channel is delivered twice. In a batch with a shorter file of two channels it raises.
  * holds, `C222_axis_partial`: An axis behind the last, or before the first by more than the number of axes again, raises IndexError; so does no tensor at all for an axis counted from the end (for one counted from the front it raises RuntimeError). Missing: axes just before the first, see `C222_axis_false`.
  * holds, `C222_exact_partial`: C222. Tensors of the same number of axes, with the same sizes off axis `d`, come out as one tensor with a first axis for the batch, as wide on axis `d` as the widest of them. At place `i` of the batch is tensor `i`, and `pad` behind its end. More generally, a tensor may have size 1 on an axis on which the first tensor has another size; its entries are then repeated. Anything else raises RuntimeError. Missing: that all sizes off the axis must agree (`C222_refused_false`); tensors of different numbers of axes (`C222_ranks_partial`).
  * holds, `C222_ranks_partial`: C222, tensors of different numbers of axes along the last axis of the first (as `custom_collate` calls it): they are always refused, with IndexError if one of them has fewer axes than the first and with RuntimeError otherwise. Missing: other axes, for which see `C222_ranks_false`.
* **C223** (The metadata of a collated batch describe it)
  * `C223_default_false`: C223 is false of the code. With the default `names=None` no batch of a dataset has metadata that describe it: no axis has a name.
  * `C223_names_false`: C223 is false of the code. Names in another order are accepted and put on the wrong axes: with `names=["L", "F", "B"]` a batch of two samples of five frames is said to have five sequences.
  * holds, `C223_collated_partial`: C223, what holds. If the dataset has names for all axes with the batch in front and the length last, and the samples have the same sizes but for the last axis: collating gives a StreamTensor with metadata that describe it. Its rows are the samples by decreasing length, those of equal length in the order in which they came; each row holds the data and the metadata of its sample, and padding behind. Missing: other names, and no names (`C223_default_false`, `C223_names_false`); samples that differ on other axes (C222).
* **C225** (Each file is opened once per iteration)
  * `C225_headers_false`: C225 is false for a dataset that is given `file_lengths`: iterated by a loader, each of its files is opened twice, for its header by `split` and for its audio by the worker.
  * holds, `C225_headers_partial`: C225 (headers). Splitting a dataset for workers, as the loader does at each iteration, opens no file if the dataset has metadata. A dataset that was given `file_lengths` has none (`C225_given`), and then every file is opened once more, for its header. Missing: "each file is read only once per iteration" for such datasets, which is false (`C225_headers_false`).
* **C227** (Running iterators are not disturbed)
  * `C227_fixed_false`: C227 as stated is false: `chunk_seconds` is assigned while the dataset is iterated, and the file that is opened next is cut into chunks of the new size.
  * holds, `C227_iterators_partial`: C227 (iterators). A program makes an iterator of a dataset and then does anything: calls `next` on it, makes further iterators and calls `next` on these and earlier ones, assigns to the dataset's file list, batch size, `shuffle`, `drop_last` and the other attributes, and changes other files. Then the calls of `next` on the iterator give, one after the other, the batches of the dataset as it was when the iterator was made, then its end; afterwards always StopIteration. Missing: `chunk_seconds`, `transform` and the contents of the iterated files must stay as they are (see `C227_fixed_false`).
  * holds, `C227_whole_partial`: C227 (no mixtures). Whatever a program does after it has made an iterator without `drop_last` of distinct files, also if it assigns to `chunk_seconds` and `transform` or changes files: the samples of a file that the iterator yields are the first ones of the samples that the file gives with the attributes and files of one moment. Missing: with `drop_last` the samples of the last batch are marked as ending (`C227_whole_drop`).
* **C228** (Running iterators of a loader are not disturbed)
  * `C228_collate_false`: C228 is false: an assignment to `collate_fn` reaches an iterator that has begun; without one the next call raises TypeError, and the batches left are lost.
  * `C228_made_false`: C228 is false: an assignment between `iter(loader)` and the first `next` changes the batches of the iterator.
  * holds, `C228_delivers_partial`: C228, everything is delivered: without `drop_last`, for distinct files that can be read and are cut into chunks as `S` says, the results of an iterator are batches that hold every chunk of every file exactly once and in order, collated, and then StopIteration. Missing: as in `C228_started_partial`.
  * holds, `C228_loader_partial`: C228 (files). If the files can be read, an iterator of a loader gives, whatever a program does with it, with other iterators and with the loader after the first call of `next`, what a loader that iterates its datasets one after the other in the process itself (`loader`, which C75–C82, C160 and C161 are about) yields with the options and the dataset of that first call. Missing: as in `C228_started_partial`.
  * holds, `C228_started_partial`: C228 (started). A program makes an iterator of a loader, does anything but call `next` on it, calls `next` on it for the first time, and then does anything: uses this and other iterators, assigns to any attribute of the loader and of its dataset. If the loader can split its dataset at that first call, the iterator gives the batches of the loader as it was then, each collated with the `collate_fn` of the moment, and then their end; after an exception always StopIteration. If the split raises, the first call raises the same. Missing: the loader as it was when the iterator was made (`C228_made_false`) and its `collate_fn` (`C228_collate_false`).
  * holds, `C228_undisturbed_partial`: C228, an iterator that has begun is not disturbed: two programs that go on differently after the first call of `next`, but do not change `collate_fn`, get the same from it, call by call. Missing: as in `C228_started_partial`.
* **C229** (A patched model can be used for pass after pass)
  * `C229_dropped_false`: C229 is false of the code for streams cut off: if the last batches of a pass are dropped (C77), streams stay open and the next pass starts from what they left. Here `a` starts its second pass with the last frame of the first one in front: `[21, 12]` instead of `[12]`.
  * `C229_empty_false`: C229 is false of the code. If a stream ends with an empty chunk in a batch of several rows, its end is forgotten and its buffer survives the pass. In the next pass its frames are put in front of the stream: here the first chunk of `a`, too short for an output, gets one computed from frames of the previous pass.
  * holds, `C229_again_partial`: C229, state: when every stream of the batches has ended, a patched stack that was fresh before holds nothing: it is in its initial state again, whatever the batches are and however often ids are used. Missing: empty last chunks in batches of several rows (`C229_empty_false`); calls that raise (C149).
  * holds, `C229_epochs_partial`: C229. Any number of passes over data, each of which ends every stream it starts, through one patched stack: the results are those of a fresh stack for each pass, and if a pass raises, so does the whole, with the same exception. Missing: empty last chunks in batches of several rows (`C229_empty_false`).
  * holds, `C229_stack_partial`: C229 for streams of any number of chunks. A stack as in C114 and any number of passes, each a schedule in which every stream ends, with chunks as long as C114 asks (the first long enough for one output of the stack, the later ones as long as its total stride): no call raises in any pass, the outputs of every pass are those of the ordinary stack on the whole sequences, and the stack holds nothing at the end. Ids may be used again within a pass and in other passes. Missing: shorter chunks.
  * holds, `C229_loader_partial`: C229 for a loader. Files of one chunk each, without drop_last, any workers, and any number of epochs, each with an order of its own (`shuffle`): a patched stack as in C114 that is called on every batch of every epoch never raises, gives in every epoch for every file the output of the ordinary stack on the whole file, and holds no buffers at the end. Missing: files of several chunks, which the loader does not deliver right even in one epoch (`C161_stream_false`); for one convolution see `C229_convolution`.
  * holds, `C229_program_partial`: C229, the whole program. Files of one chunk each, without drop_last, any workers; any number of epochs in orders of their own, with one patched stack as in C114 and a new `OutputCollector` in every epoch: nothing raises, and at the end of every epoch the collector holds for every file the output of the ordinary stack on the whole file, and nothing else. Missing: files of several chunks, which the loader does not deliver right (`C161_stream_false`).
* **C230** (Streaming a dataset takes the memory of one batch)
  * `C230_leak_false`: C230 is false of the code. Two files at a time through two convolutions; the last chunk of a file gives no output in the first, so it is empty for the second, which forgets that the file has ended and keeps its buffer. After four batches the second convolution holds buffers of four files, three of which have ended; so it goes on with every further file (`C230_unbounded_false`).
  * `C230_unbounded_false`: C230 is false of the code, without bound. Files of six frames in chunks of five and one, every file beginning in the batch in which the file before it ends: never more than two files are in a batch and one is open after it, no chunk is empty and no call raises. Still the second of two convolutions holds, after `n` files have ended, a buffer for each of them.
  * holds, `C230_model_partial`: C230, the model. Batches in which no stream is interrupted, through any stack: every layer holds buffers for streams of the latest batch only, each shorter than its kernel. Missing: streams that end with a chunk which is empty for some layer, whose buffers stay for ever (`C230_leak_false`).
  * holds, `C230_drop_stack_partial`: C230 with drop_last. As `C230_stack_partial`, for the batches that are left by drop_last, whether or not all files are complete in them. Missing: layers that get an empty last chunk next to other sequences (`C230_leak_false`).
  * holds, `C230_stack_partial`: C230. Without drop_last, whatever the workers, batch size, shuffling and order: when any number of the loader's batches have been streamed through a stack, there are at most `batch_size` files for which any layer holds a buffer, and each buffer is shorter than the layer's kernel, however many files there are and however long they are. Missing: files that end with a chunk which is empty for some layer (`C230_leak_false`).
* **C232** (The batches of a loader are as wide as their chunks)
  * `C232_width_false`: C232 is false of the code. A file of three frames in chunks of one frame: each of the three batches has all three frames.
  * holds, `C232_drop_width_partial`: C232, exactly, with drop_last. Missing: as in `C232_width_partial`.
  * holds, `C232_total_partial`: C232, one file: however short the chunks, each of its batches is as wide as the file, so that all of them together have the square of the length of the file, divided by the length of the chunks. Missing: as in `C232_width_partial`.
  * holds, `C232_width_partial`: C232, exactly, without drop_last: a batch is as wide as the longest of the files it has samples of, whatever part of them it is at, and has one row per sample. Missing: that it be as wide as its longest chunk; so it is if every file is one chunk.
* **C233** (An epoch costs as much as its files)
  * `C233_total_false`: C233 is false of the code. A file of three frames in chunks of one frame, and a kernel of one frame: it is evaluated nine times; the ordinary convolution evaluates it three times.
  * holds, `C233_bound_partial`: C233, at most: in a loader's epoch without drop_last a call evaluates the kernel at most once for every sample of the batch and kernel position within the longest of the files of the batch and the padding. Missing: that it be within the chunks; for files of one chunk it is.
  * holds, `C233_total_partial`: C233, exactly, for one file and kernels of one frame. A dataset of one file, without drop_last, and a convolution whose kernel is one frame: no call raises, and the kernel is evaluated once for every stride-th frame of the whole file in every chunk, so in total as often as in the ordinary convolution of the file times the number of chunks. Missing: that it be as often as in the ordinary convolution; so it is if the file is one chunk.
<!-- /findings -->

### Side findings (in theorems of other properties or in model comments)

* A file without frames raises ZeroDivisionError in `process_data` (`Model/Dataset.processData`).
* `drop_last` with fewer files than slots raises RuntimeError (`C76_no_batch`); `make_streams_synchronous` of an empty stream raises RuntimeError (`C82_no_files`) and does not end if the first batch is empty (`C79_empty_first_batch`).
* A file that occurs twice in the first batch loses a sample (`Bufs.first` overwrites).
* Two index lists in one index tuple always raise; `x[()]` raises IndexError.

## 7. Mutation testing

`seeded/LOG.jsonl` has one line per attempt: the model was edited like a realistic bug in a scratch copy and everything was rebuilt; a theorem counts as failed if its proof
fails or rests on a lemma whose proof fails. Theorems that survived although their claim was broken were tightened.
