{"id": "C01", "title": "Batch indexing keeps every metadata column aligned", "statement": "Indexing StreamMetadata along the batch axis with an int, slice, list or 1-D tensor of ints, or 1-D bool tensor returns a metadata object whose k-th row (id, sos, eos, length, chunk index together) is exactly the row of the original that the k-th selected batch position names, in selection order; an out-of-range position (or a mask of the wrong size) raises IndexError and a non-positive slice step raises ValueError.", "quantifier": "every well-formed metadata object and every index of every supported kind", "why_tests_cant": "infinitely many batch sizes, index kinds and negative/out-of-range positions; a mismatch between the Python-list column and the tensor columns shows only for particular combinations", "anchors": ["dreamstream/tensor.py:StreamMetadata.index_batch", "dreamstream/tensor.py:StreamMetadata.__getitem__", "dreamstream/tensor.py:StreamMetadata.index"]}
{"id": "C02", "title": "A list of bools is a batch mask", "statement": "Indexing StreamMetadata (and a StreamTensor's batch axis) with a Python list of bools selects the rows marked True, ids included, as it does for the data.", "quantifier": "every metadata object and every list of bools of the batch size", "why_tests_cant": "needs all masks; an all-True list gives no exception, only wrong ids", "anchors": ["dreamstream/tensor.py:StreamMetadata.index_batch"]}
{"id": "C03", "title": "Dropping empty sequences removes exactly the empty rows", "statement": "StreamMetadata.drop_empty returns exactly the rows whose length is positive, in order, with all columns kept together.", "quantifier": "every well-formed metadata object", "why_tests_cant": "all patterns of empty and non-empty rows", "anchors": ["dreamstream/tensor.py:StreamMetadata.drop_empty"]}
{"id": "C04", "title": "StreamTensor.drop_empty never fails on a batch with content", "statement": "StreamTensor.drop_empty returns None exactly when every sequence is empty, and otherwise a StreamTensor holding exactly the non-empty sequences.", "quantifier": "every StreamTensor, every pattern of empty rows", "why_tests_cant": "the failing pattern (exactly one non-empty row) is one of exponentially many", "anchors": ["dreamstream/tensor.py:StreamTensor.drop_empty", "dreamstream/overrides.py:index_select"]}
{"id": "C05", "title": "Unit-step length slices give metadata that describes the kept frames", "statement": "For x[..., a:b] along length, when the normalised start does not exceed the normalised stop: the new length of each row is the number of its non-padding frames among the kept positions; sos survives iff frame 0 is kept; eos survives iff the row's last non-padding frame is kept.", "quantifier": "every metadata object, every start/stop (None, negative, out of range) with start <= stop after normalisation", "why_tests_cant": "unbounded lengths and slice bounds, ragged batches", "anchors": ["dreamstream/tensor.py:StreamMetadata._index_length_slice", "dreamstream/utils/numba.py:update_eos_from_slice"]}
{"id": "C06", "title": "Length slicing never produces negative lengths", "statement": "For every unit-step length slice, including empty ones with start beyond stop, every resulting length is the number of kept non-padding frames (hence never negative).", "quantifier": "every metadata object and every slice", "why_tests_cant": "needs the a > b corner for all a, b", "anchors": ["dreamstream/tensor.py:StreamMetadata._index_length_slice"]}
{"id": "C07", "title": "Strided length slices count the frames they keep", "statement": "For x[..., a:b:k] along length with k >= 2 the new length of each row is the number of its non-padding frames among positions a, a+k, ... below b, sos survives iff frame 0 is kept, and eos survives iff a kept position lies at or beyond the row's last non-padding frame and a kept position precedes its end.", "quantifier": "every metadata object and every a, b, k", "why_tests_cant": "unbounded lengths and strides", "anchors": ["dreamstream/tensor.py:StreamMetadata._index_length_slice"]}
{"id": "C08", "title": "Negative length strides are refused", "statement": "Slicing length with a negative step always raises NotImplementedError, with step 0 always ValueError, whatever the metadata.", "quantifier": "every non-empty metadata object and slice", "why_tests_cant": "all start/stop combinations", "anchors": ["dreamstream/tensor.py:StreamMetadata._index_length_slice"]}
{"id": "C09", "title": "Integer length indexing describes the picked frame", "statement": "Indexing length with an integer i in range gives length 1 to rows where frame i is data and 0 to rows where it is padding, keeps sos iff frame 0 was picked, and keeps eos iff frame i is the row's last data frame or lies in its padding.", "quantifier": "every metadata object and every in-range i, negative included", "why_tests_cant": "unbounded", "anchors": ["dreamstream/tensor.py:StreamMetadata._index_length_int", "dreamstream/utils/numba.py:update_eos_from_integer"]}
{"id": "C10", "title": "Coordinate-list length indexing counts the picked data frames", "statement": "Indexing length with a list, tuple or 1-D integer tensor of in-range positions (negative allowed) (at least one) succeeds iff the normalised positions are non-decreasing (IndexError otherwise); each row's new length is the number of picked positions holding data, which are then exactly the leading positions of the result, and sos survives iff frame 0 was picked.", "quantifier": "every metadata object and every non-empty list of positions", "why_tests_cant": "unbounded lists", "anchors": ["dreamstream/tensor.py:StreamMetadata._index_length_list", "dreamstream/utils/numba.py:minmax", "dreamstream/utils/numba.py:is_sorted_ascending", "dreamstream/utils/numba.py:make_indices_positive_", "dreamstream/utils/numba.py:update_lengths_from_list_of_indices"]}
{"id": "C11", "title": "Coordinate-list length indexing keeps eos when the last frame is picked", "statement": "Indexing length with a list/tensor/mask that picks a row's last data frame keeps that row's eos flag, as the equivalent slice does.", "quantifier": "every metadata object and list of positions", "why_tests_cant": "off-by-one visible only when the last picked position is exactly the last data frame", "anchors": ["dreamstream/tensor.py:StreamMetadata._index_length_list", "dreamstream/utils/numba.py:update_eos_from_slice"]}
{"id": "C12", "title": "A bool mask on length equals the list of its True positions", "statement": "Indexing length with a 1-D bool tensor gives the same metadata as indexing with the ascending list of its True positions, and never raises the sortedness error.", "quantifier": "every metadata object and mask with a True entry", "why_tests_cant": "exponentially many masks", "anchors": ["dreamstream/tensor.py:StreamMetadata._index_length_1d_booltensor"]}
{"id": "C13", "title": "Joint batch and length indexing describes the data that was selected", "statement": "x[b, ..., l] indexed on both axes gives metadata equal to: select the rows, then mark as valid exactly the kept positions that were data, where the length index is resolved against the tensor's own length axis.", "quantifier": "every metadata, batch index and length index (negative indices included)", "why_tests_cant": "ragged batches times index combinations", "anchors": ["dreamstream/tensor.py:StreamMetadata.index", "dreamstream/tensor.py:StreamMetadata._index_length_int", "dreamstream/tensor.py:StreamMetadata._index_length_slice"]}
{"id": "C14", "title": "Successive unit-step length slices compose", "statement": "Slicing length [a:b] and then [c:d] yields the same metadata as the single slice [a+c : min(b, a+d)].", "quantifier": "all metadata and all in-range non-negative a<=b, c<=d", "why_tests_cant": "unbounded", "anchors": ["dreamstream/tensor.py:StreamMetadata._index_length_slice"]}
{"id": "C15", "title": "A 2-D mask over batch and length", "statement": "StreamMetadata.index with a 2-D bool tensor keeps exactly the rows with some True entry; each kept row's length becomes the number of True entries at data positions, and sos survives iff the row's first position is kept.", "quantifier": "every metadata with positive lengths and no chunk indices and every mask of shape (batch, max length)", "why_tests_cant": "exponentially many masks", "anchors": ["dreamstream/tensor.py:StreamMetadata.index_batch_and_length"]}
{"id": "C16", "title": "cat_batch concatenates rows", "statement": "Concatenating metadata along batch gives exactly the rows of the operands in order (chunk indices survive iff all operands have them), so it is associative and its size is the sum of sizes.", "quantifier": "every non-empty list of metadata objects", "why_tests_cant": "unbounded lists", "anchors": ["dreamstream/tensor.py:StreamMetadata.cat_batch"]}
{"id": "C17", "title": "split_batch is inverted by cat_batch", "statement": "Splitting along batch by any positive chunk size, or by any non-negative sections summing to the batch size, and concatenating the pieces along batch gives back the original metadata; sections with any other sum raise ValueError, and sections with the right sum but a negative member RuntimeError.", "quantifier": "every non-empty metadata and every chunk size / section list", "why_tests_cant": "unbounded", "anchors": ["dreamstream/tensor.py:StreamMetadata.split_batch", "dreamstream/tensor.py:StreamMetadata.cat_batch"]}
{"id": "C18", "title": "unbind yields one single-row metadata per sequence", "statement": "unbind_batch returns as many objects as sequences, the i-th being exactly row i.", "quantifier": "every metadata", "why_tests_cant": "unbounded", "anchors": ["dreamstream/tensor.py:StreamMetadata.unbind_batch"]}
{"id": "C19", "title": "cat_length accepts exactly consecutive chunks", "statement": "Concatenating metadata along length succeeds iff all operands have the same ids, only the first may contain sos, only the last may contain eos (and chunk indices are all present or all absent); the result has the first's sos, the last's eos and the per-row sum of lengths.", "quantifier": "every list of at least two metadata objects", "why_tests_cant": "all placements of flags", "anchors": ["dreamstream/tensor.py:StreamMetadata.cat_length"]}
{"id": "C20", "title": "cat_length is associative", "statement": "Concatenating chunk metadata in any grouping gives the same result as concatenating them all at once.", "quantifier": "every list of concatenable metadata and every grouping into two consecutive groups", "why_tests_cant": "unbounded", "anchors": ["dreamstream/tensor.py:StreamMetadata.cat_length"]}
{"id": "C21", "title": "split_length partitions every row", "statement": "Splitting along length by any positive chunk size, or by non-negative sections covering the maximum length, yields pieces whose lengths add up per row to the original length; a starting row keeps sos in exactly one piece, the one holding frame 0; every ending row with data keeps eos in exactly one piece, the one holding its last data frame.", "quantifier": "every metadata with some data and every chunk size / section list", "why_tests_cant": "unbounded ragged batches", "anchors": ["dreamstream/tensor.py:StreamMetadata.split_length"]}
{"id": "C22", "title": "split_length is inverted by cat_length on equal-length batches", "statement": "When all rows have the same positive length, splitting along length by a positive chunk size or positive sections with that exact sum, and concatenating the pieces along length, gives back the original metadata.", "quantifier": "every such metadata and every chunking", "why_tests_cant": "unbounded", "anchors": ["dreamstream/tensor.py:StreamMetadata.split_length", "dreamstream/tensor.py:StreamMetadata.cat_length"]}
{"id": "C23", "title": "split_length is inverted by cat_length on ragged batches", "statement": "Splitting along length and concatenating the pieces along length gives back the original metadata for ragged batches too.", "quantifier": "every metadata and chunk size", "why_tests_cant": "needs a row ending in an earlier piece", "anchors": ["dreamstream/tensor.py:StreamMetadata.split_length", "dreamstream/tensor.py:StreamMetadata.cat_length"]}
{"id": "C24", "title": "Metadata equality is equality of contents", "statement": "m1 == m2 is a boolean that is True iff ids, sos, eos, lengths and chunk indices agree.", "quantifier": "every pair of metadata", "why_tests_cant": "both operands range over everything; the wrong branches depend on operator precedence", "anchors": ["dreamstream/tensor.py:StreamMetadata.__eq__"]}
{"id": "C25", "title": "Cached summaries are never stale", "statement": "After any sequence of assignments through the public attributes (sos, eos, lengths, starting_lengths, ending_lengths, in-place += on them) interleaved with reads, min_length, max_length, any_/all_starting, any_/all_ending and the combined flags equal what recomputation from the current columns gives.", "quantifier": "every history of assignments and reads", "why_tests_cant": "all interleavings of reads and writes", "anchors": ["dreamstream/tensor.py:StreamMetadata._update_lengths", "dreamstream/tensor.py:StreamMetadata._update_logicals", "dreamstream/tensor.py:StreamMetadata.starting_lengths"]}
{"id": "C26", "title": "Element writes into a column are reflected by the summaries", "statement": "meta.lengths[i] = v (writing into the tensor the attribute returns) is reflected by a later read of min_length/max_length.", "quantifier": "every metadata and write", "why_tests_cant": "depends on the read having happened before the write", "anchors": ["dreamstream/tensor.py:StreamMetadata.lengths", "dreamstream/tensor.py:StreamMetadata._update_lengths"]}
{"id": "C27", "title": "A clone is a snapshot", "statement": "After c = m.clone(), no later mutation of m's columns (in-place or by assignment) changes what c reports, and no mutation of c changes what m reports.", "quantifier": "every history of operations on m and c after the clone", "why_tests_cant": "depends on when the lazily created clone is first read", "anchors": ["dreamstream/tensor.py:StreamMetadata.__deepcopy__", "dreamstream/tensor.py:StreamMetadata.clone", "dreamstream/tensor.py:LazyProxy"]}
{"id": "C28", "title": "Invalid metadata is reported on every use", "statement": "Using metadata constructed from columns of different lengths raises ValueError, on the first and on every later use.", "quantifier": "every list of columns and every number of accesses", "why_tests_cant": "second access after a caught failure", "anchors": ["dreamstream/tensor.py:LazyProxy.__init_obj", "dreamstream/tensor.py:StreamMetadata.__init__"]}
{"id": "C29", "title": "Every metadata operation yields equally long columns", "statement": "From a metadata object whose columns have equal length, any sequence of batch indexing, length indexing, splitting and concatenation yields only objects whose columns have equal length.", "quantifier": "every history of metadata operations", "why_tests_cant": "unbounded histories", "anchors": ["dreamstream/tensor.py:StreamMetadata"]}
{"id": "C30", "title": "repr works for every batch", "statement": "repr(meta) never raises.", "quantifier": "every metadata object and every choice of id strings", "why_tests_cant": "depends on total id length and batch size", "anchors": ["dreamstream/tensor.py:StreamMetadata.__repr__"]}
{"id": "C31", "title": "Concatenating along length joins each sequence's frames", "statement": "torch.cat of StreamTensors (and plain tensors) along length, when it succeeds, yields for each row valid frames equal to the concatenation of the operands' valid frames; every operand but the last must be unpadded or NotImplementedError is raised.", "quantifier": "every list of operands", "why_tests_cant": "unbounded shapes", "anchors": ["dreamstream/overrides.py:cat"]}
{"id": "C32", "title": "Concatenating along a feature axis requires equal metadata", "statement": "torch.cat of StreamTensors along an axis that is neither batch nor length raises unless all operands have the same metadata.", "quantifier": "every list of operands", "why_tests_cant": "the unchecked operand is the last one", "anchors": ["dreamstream/overrides.py:cat"]}
{"id": "C33", "title": "Concatenating along batch keeps rows and metadata together", "statement": "torch.cat of StreamTensors along batch gives the operands' rows in order with their metadata rows in the same order, and refuses plain tensors among the operands.", "quantifier": "every list of operands with the same names and with sizes that agree off the batch axis (one operand alone is returned as it is)", "why_tests_cant": "unbounded", "anchors": ["dreamstream/overrides.py:cat"]}
{"id": "C34", "title": "permute moves names with axes", "statement": "x.permute(dims) gives an output whose axis j has the name and size of input axis dims[j] (negative dims included) and whose metadata is unchanged.", "quantifier": "every tensor rank, name tuple and permutation", "why_tests_cant": "all permutations of all ranks", "anchors": ["dreamstream/overrides.py:permute"]}
{"id": "C35", "title": "torch.transpose moves names with axes", "statement": "torch.transpose(x, i, j) and torch.adjoint(x) give an output in which each axis carries the name it had in the input.", "quantifier": "every tensor and axis pair", "why_tests_cant": "all ranks", "anchors": ["dreamstream/tensor.py:recouple", "dreamstream/func_coverage.py:RECOUPLE_FUNCTIONS", "dreamstream/tensor.py:StreamTensor.__torch_function__"]}
{"id": "C36", "title": "unsqueeze inserts an unnamed axis where the data gets one", "statement": "x.unsqueeze(d) keeps every existing axis's name on the same data axis and gives the new axis no name, for every legal d including negative ones.", "quantifier": "every rank and every d", "why_tests_cant": "all ranks and signs", "anchors": ["dreamstream/overrides.py:unqsqueeze"]}
{"id": "C37", "title": "squeeze removes names with axes", "statement": "x.squeeze(d) and x.squeeze() keep every surviving axis's name on the same data axis.", "quantifier": "every shape and name tuple", "why_tests_cant": "all shapes, repeated None names", "anchors": ["dreamstream/overrides.py:squeeze"]}
{"id": "C38", "title": "flatten falls back to a plain tensor exactly when batch or length is merged", "statement": "x.flatten(s, e) returns a plain tensor iff the merged range contains batch or length, and otherwise a StreamTensor with the merged axis named by joining and all other names in place, for all legal s, e including the defaults.", "quantifier": "every rank, names, s and e", "why_tests_cant": "negative axis arithmetic", "anchors": ["dreamstream/overrides.py:flatten"]}
{"id": "C39", "title": "narrow updates metadata like the equivalent slice", "statement": "x.narrow(d, start, n) on batch or length gives metadata describing exactly the kept rows/frames, for every start torch accepts (negative included).", "quantifier": "every tensor and argument", "why_tests_cant": "unbounded", "anchors": ["dreamstream/overrides.py:narrow"]}
{"id": "C40", "title": "index_select updates metadata for every spelling of the axis", "statement": "x.index_select(d, idx) on batch or length gives metadata describing the selected rows/frames, for negative d as for non-negative d.", "quantifier": "every tensor, axis and index", "why_tests_cant": "all spellings", "anchors": ["dreamstream/overrides.py:index_select"]}
{"id": "C41", "title": "select equals integer indexing at that axis", "statement": "x.select(d, i) is x[(:,)*d + (i,)] for every legal d, negative included: the axis disappears from the names and the metadata is that of the integer index.", "quantifier": "every tensor, axis and index", "why_tests_cant": "all ranks", "anchors": ["dreamstream/overrides.py:select"]}
{"id": "C42", "title": "Ellipsis expands to the missing full slices", "statement": "In x[idx], a single Ellipsis stands for exactly the full slices needed so that every axis is indexed, and the positions of all other indices are as in torch.", "quantifier": "every rank and index tuple", "why_tests_cant": "all ranks and placements", "anchors": ["dreamstream/overrides.py:replace_ellipsis", "dreamstream/overrides.py:number_of_indexed_dimensions"]}
{"id": "C43", "title": "Basic indexing keeps names on surviving axes and indexes the right metadata axis", "statement": "For an index tuple of ints, slices and Ellipsis, the result's names are the names of the axes not indexed by an int, in order, and the metadata is indexed by exactly the entries at the batch and length axes.", "quantifier": "every rank, placement of batch/length and index tuple", "why_tests_cant": "all tuples", "anchors": ["dreamstream/overrides.py:determine_dims_affected_by_indexing", "dreamstream/overrides.py:__getitem__"]}
{"id": "C44", "title": "New axes do not disturb metadata indexing", "statement": "Inserting None in an index tuple adds an unnamed axis and does not change which axes the other entries index, for names and metadata alike.", "quantifier": "every index tuple with None", "why_tests_cant": "all placements", "anchors": ["dreamstream/overrides.py:determine_dims_affected_by_indexing", "dreamstream/overrides.py:__getitem__"]}
{"id": "C45", "title": "gather/take_along_dim keep metadata consistent", "statement": "gather along a feature axis gives metadata for exactly the leading rows and frames kept by the index's shape; along batch or length it raises IndexError.", "quantifier": "every tensor, axis and index shape", "why_tests_cant": "unbounded", "anchors": ["dreamstream/overrides.py:_gather_and_take_along_dim"]}
{"id": "C46", "title": "Recoupled operations combine only equal metadata", "statement": "A recoupled torch function on several StreamTensors returns a StreamTensor with their common metadata and names, and raises RuntimeError if metadata or names differ.", "quantifier": "every list of StreamTensor arguments", "why_tests_cant": "all pairs of metadata", "anchors": ["dreamstream/tensor.py:recouple"]}
{"id": "C47", "title": "Dispatch passes keyword arguments through", "statement": "Every torch function called on a StreamTensor receives the keyword arguments the caller gave.", "quantifier": "every function category and keyword set", "why_tests_cant": "all functions", "anchors": ["dreamstream/tensor.py:StreamTensor.__torch_function__"]}
{"id": "C48", "title": "Unbind rejects the length axis and splits batch rows", "statement": "x.unbind(d) raises ValueError on the length axis, and on the batch axis returns one tensor per row with that row's metadata.", "quantifier": "every tensor", "why_tests_cant": "unbounded", "anchors": ["dreamstream/overrides.py:unbind"]}
{"id": "C49", "title": "unpad_sequence inverts padding", "statement": "Padding sequences with pad_full_sequence/pad_chunks/pad_stream_tensor and unpadding the result gives back the sequences, in order, with their ids and flags; every padding frame is zero and every length is the sequence's length.", "quantifier": "every non-empty list of sequences", "why_tests_cant": "unbounded", "anchors": ["dreamstream/nn/utils/pad_sequence.py:pad_chunks", "dreamstream/nn/utils/pad_sequence.py:pad_full_sequence", "dreamstream/nn/utils/pad_sequence.py:pad_stream_tensor", "dreamstream/tensor.py:StreamTensor.unpad_sequence"]}
{"id": "C50", "title": "sequence_mask marks exactly the valid steps", "statement": "sequence_mask(lens, T)[i][j] is True iff j < lens[i] (complemented when inverted), with T the largest length when max_len is None or 0.", "quantifier": "every list of lengths and max_len", "why_tests_cant": "unbounded", "anchors": ["dreamstream/utils/operations.py:sequence_mask"]}
{"id": "C51", "title": "Streaming a convolution equals the offline convolution", "statement": "Feeding a sequence (as a batch of one, without padding frames) through an online patched Conv1d in any chunking and concatenating the outputs equals the offline Conv1d output on the whole sequence, for every kernel size, dilation, padding and stride not exceeding the kernel width, whenever no call raises (see C58 for that).", "quantifier": "every sequence, chunking, kernel, dilation, padding, stride <= kernel width", "why_tests_cant": "infinitely many chunkings and parameters", "anchors": ["dreamstream/overrides.py:conv1d", "dreamstream/patches/conv.py:conv_1d_pre_hook", "dreamstream/patches/conv.py:conv_1d_post_hook"]}
{"id": "C52", "title": "Streaming equivalence for strides beyond the kernel width", "statement": "The same equivalence holds for strides larger than the kernel width.", "quantifier": "every stride > kernel width", "why_tests_cant": "alignment-dependent", "anchors": ["dreamstream/overrides.py:conv1d"]}
{"id": "C53", "title": "Batch schedule does not matter", "statement": "For any schedule that packs chunks of different sequences into batches (each chunk stream in order, starting with sos, ending with eos; each batch as wide as its longest chunk; empty first or last chunks in batches of their own), each sequence's collected online output equals its offline output, whatever it was batched with, whenever no call raises (see C58, C59 for that, C60 and C96 for the excluded batches).", "quantifier": "every schedule of batches over any number of interleaved streams", "why_tests_cant": "all interleavings and raggedness patterns", "anchors": ["dreamstream/patches/conv.py:conv_1d_pre_hook", "dreamstream/overrides.py:conv1d", "dreamstream/patches/conv.py:conv_1d_post_hook", "dreamstream/nn/utils/pad_sequence.py:pad_stream_tensor"]}
{"id": "C54", "title": "Outputs appear as early as possible", "statement": "After any prefix of a stream (in any schedule as in C53), the outputs emitted so far are exactly those offline outputs whose receptive field lies within the (left-padded) input received so far.", "quantifier": "every stream prefix and chunking", "why_tests_cant": "unbounded", "anchors": ["dreamstream/overrides.py:conv1d"]}
{"id": "C55", "title": "The stream buffer is small", "statement": "The buffer kept for a stream is always shorter than the kernel width.", "quantifier": "every history", "why_tests_cant": "unbounded histories", "anchors": ["dreamstream/overrides.py:conv1d", "dreamstream/patches/conv.py:conv_1d_post_hook"]}
{"id": "C56", "title": "The stream buffer holds exactly the open streams", "statement": "After any schedule of batches as in C53, a patched Conv1d with kernel width > 1 holds a buffer for exactly those ids that have been seen and whose latest chunk was not eos.", "quantifier": "every history", "why_tests_cant": "unbounded histories", "anchors": ["dreamstream/patches/conv.py:conv_1d_post_hook", "dreamstream/overrides.py:conv1d"]}
{"id": "C57", "title": "Output padding is zero and lengths count real outputs", "statement": "The online output at positions at or beyond a row's output length is zero, and the output length is the number of kernel positions that fit in the row's (padded, buffered) input.", "quantifier": "every batch for the zeros; for the lengths every batch of a schedule of complete sequences", "why_tests_cant": "unbounded", "anchors": ["dreamstream/overrides.py:conv1d", "dreamstream/utils/operations.py:sequence_mask"]}
{"id": "C58", "title": "Any chunk size is accepted", "statement": "An online Conv1d accepts chunks of any length, including ones shorter than the kernel.", "quantifier": "every chunk length", "why_tests_cant": "short chunks", "anchors": ["dreamstream/overrides.py:conv1d"]}
{"id": "C59", "title": "Mixed batches are accepted for every stride", "statement": "An online Conv1d accepts batches mixing starting and continuing streams for every stride up to the kernel width.", "quantifier": "every batch", "why_tests_cant": "needs zero-length buffers", "anchors": ["dreamstream/patches/conv.py:conv_1d_pre_hook"]}
{"id": "C60", "title": "Over-padded batches give the same result", "statement": "Trailing padding frames beyond the longest sequence of a batch do not change the online output of any sequence.", "quantifier": "every batch and amount of extra padding", "why_tests_cant": "needs all-starting batches with extra padding", "anchors": ["dreamstream/overrides.py:conv1d"]}
{"id": "C61", "title": "A forward pass leaves its input's metadata alone", "statement": "Calling an online module does not change the metadata of the StreamTensor passed in.", "quantifier": "every input", "why_tests_cant": "aliasing", "anchors": ["dreamstream/overrides.py:conv1d", "dreamstream/tensor.py:StreamTensor.decouple"]}
{"id": "C62", "title": "Stacked convolutions stream correctly", "statement": "A chain of online Conv1d layers with pointwise zero-preserving layers between them streams to the same output as the chain applied offline.", "quantifier": "every chain, every chunking", "why_tests_cant": "unbounded chains", "anchors": ["dreamstream/overrides.py:conv1d", "dreamstream/patches/conv.py:patch_conv_1d"]}
{"id": "C63", "title": "Mode matrix", "statement": "Online modules accept only StreamTensors, offline modules only plain tensors (RuntimeError otherwise), and an offline forward on a plain tensor is the unpatched computation and leaves the stream buffers alone.", "quantifier": "every module state and input", "why_tests_cant": "all histories of mode switches", "anchors": ["dreamstream/patches/conv.py:conv_1d_pre_hook", "dreamstream/patches/conv.py:conv_1d_post_hook"]}
{"id": "C64", "title": "online()/offline() reach every submodule", "statement": "After module.online(mode) (mode a bool) on a patched tree every module in the tree has streaming == mode; a non-bool raises ValueError and changes nothing.", "quantifier": "every module tree and mode history", "why_tests_cant": "all trees", "anchors": ["dreamstream/patches/modes.py:online", "dreamstream/patches/modes.py:offline", "dreamstream/patches/general.py:patch"]}
{"id": "C65", "title": "patch rejects unsupported modules", "statement": "patch(module) raises NotImplementedError iff the tree contains a module of an unsupported type, and otherwise equips every module; when it raises, exactly the modules visited up to and including the first unsupported one (children first) have been equipped and all later ones are as before.", "quantifier": "every module tree", "why_tests_cant": "all trees", "anchors": ["dreamstream/patches/general.py:patch", "dreamstream/patches/general.py:patch_module"]}
{"id": "C66", "title": "Patching twice is harmless", "statement": "patch(patch(m)) behaves like patch(m).", "quantifier": "every module", "why_tests_cant": "hook multiplicity", "anchors": ["dreamstream/patches/conv.py:patch_conv_1d", "dreamstream/patches/general.py:patch"]}
{"id": "C67", "title": "The collector reassembles every stream", "statement": "Feeding OutputCollector any interleaving of well-formed chunk streams (each beginning with a chunk that holds frames) leaves, for each id, exactly the concatenation of its chunks in order.", "quantifier": "every interleaving", "why_tests_cant": "unbounded", "anchors": ["dreamstream/data/data_objects.py:OutputCollector.update", "dreamstream/data/data_objects.py:OutputCollector._update_unary"]}
{"id": "C68", "title": "The collector refuses malformed streams", "statement": "A non-empty chunk for a closed id, a second first chunk for a known id, and a non-first chunk for an unknown id raise ValueError, as does a chunk with chunk indices for an entry without them or the other way round; every other chunk is accepted.", "quantifier": "every collector state and chunk", "why_tests_cant": "unbounded histories", "anchors": ["dreamstream/data/data_objects.py:OutputCollector._update_unary"]}
{"id": "C69", "title": "A refused chunk leaves the collector unchanged", "statement": "If collecting a chunk raises, the collector's state is unchanged.", "quantifier": "every collector state and chunk", "why_tests_cant": "state after failure", "anchors": ["dreamstream/data/data_objects.py:OutputCollector._update_unary"]}
{"id": "C70", "title": "A stream whose first output is empty is collected", "statement": "A stream whose first chunk has length 0 (with sos) is collected like any other.", "quantifier": "every such stream", "why_tests_cant": "zero-length chunk skipping", "anchors": ["dreamstream/data/data_objects.py:OutputCollector.update"]}
{"id": "C71", "title": "partition_by_sum is a partition", "statement": "partition_by_sum returns num_partitions lists whose indices together are a permutation of all indices, with values matching indices.", "quantifier": "every list of values and num_partitions >= 1", "why_tests_cant": "unbounded", "anchors": ["dreamstream/data/stream_dataset.py:partition_by_sum"]}
{"id": "C72", "title": "partition_by_sum is balanced", "statement": "For non-negative values the largest and smallest partition sums differ by at most the largest value.", "quantifier": "every list of values and num_partitions >= 1", "why_tests_cant": "unbounded", "anchors": ["dreamstream/data/stream_dataset.py:partition_by_sum"]}
{"id": "C73", "title": "Chunks tile the file", "statement": "process_data yields ceil(L/c) samples whose lengths are c except possibly a shorter positive last one and sum to L; chunk_index counts from 0; exactly the first has sos and exactly the last eos.", "quantifier": "every positive file length and chunk size >= 1", "why_tests_cant": "unbounded", "anchors": ["dreamstream/data/stream_dataset.py:AudioStreamDataset.process_data"]}
{"id": "C74", "title": "Samples carry their chunk of audio", "statement": "The data of the samples of a file, in order, concatenates to the file's audio.", "quantifier": "every file with audio", "why_tests_cant": "all lengths", "anchors": ["dreamstream/data/stream_dataset.py:AudioStreamDataset.process_data"]}
{"id": "C75", "title": "A dataset yields every sample exactly once, in file order", "statement": "Without drop_last, iterating a dataset yields batches that together contain each file's samples exactly once and in order, with no batch holding two samples of one file or more than batch_size samples, and batch sizes never increase.", "quantifier": "every list of distinct files, batch size and shuffle order", "why_tests_cant": "all shuffles and length patterns", "anchors": ["dreamstream/data/stream_dataset.py:AudioStreamDataset.get_streams", "dreamstream/data/stream_dataset.py:AudioStreamDataset.get_stream"]}
{"id": "C76", "title": "drop_last yields only full batches and ends every started file", "statement": "With drop_last, a single-worker dataset yields only batches of exactly batch_size samples, and every file that appears has an eos sample.", "quantifier": "every list of files, batch size and shuffle order with at least one batch", "why_tests_cant": "unbounded", "anchors": ["dreamstream/data/stream_dataset.py:AudioStreamDataset.get_streams", "dreamstream/data/stream_dataset.py:AudioStreamDataset.force_is_last_on_last_batch"]}
{"id": "C77", "title": "drop_last ends every started file with several workers", "statement": "With drop_last and any number of workers every file that appears in the loader's output has an eos sample.", "quantifier": "every dataset and number of workers", "why_tests_cant": "workers of different stream length", "anchors": ["dreamstream/data/stream_dataset.py:MultiStreamDataLoader.get_stream_loaders", "dreamstream/data/stream_dataset.py:AudioStreamDataset.force_is_last_on_last_batch"]}
{"id": "C78", "title": "split assigns every file to exactly one worker", "statement": "split(n, batch_size) raises ValueError iff n <= 0 or n does not divide batch_size, and otherwise returns n datasets whose file lists together are a permutation of the file list, with per-worker batch sizes adding up to batch_size.", "quantifier": "every file list with known lengths, every n and every batch_size >= 1", "why_tests_cant": "unbounded", "anchors": ["dreamstream/data/stream_dataset.py:AudioStreamDataset.split"]}
{"id": "C79", "title": "Synchronised batches lose and reorder nothing", "statement": "make_streams_synchronous on any finite stream of batches in which each file's samples come in order, sos first and eos last, terminates without error and outputs each file's samples exactly once and in order.", "quantifier": "every well-formed stream of batches whose first batch is non-empty and holds no file twice", "why_tests_cant": "all interleavings", "anchors": ["dreamstream/data/stream_dataset.py:make_streams_synchronous", "dreamstream/data/stream_dataset.py:continue_buffering"]}
{"id": "C80", "title": "Synchronised batches start together", "statement": "In the output of make_streams_synchronous, the samples of a batch are all first chunks or all non-first chunks, a batch of first chunks comes only after every earlier file has ended, other batches continue exactly the files of the previous batch that have not ended, and no batch exceeds the size of the first input batch or repeats a file.", "quantifier": "every such well-formed stream", "why_tests_cant": "all interleavings", "anchors": ["dreamstream/data/stream_dataset.py:make_streams_synchronous"]}
{"id": "C81", "title": "Synchronised groups are full", "statement": "Every group of simultaneously started files has the size of the first input batch, except possibly the last group.", "quantifier": "every such well-formed stream", "why_tests_cant": "all interleavings", "anchors": ["dreamstream/data/stream_dataset.py:continue_buffering", "dreamstream/data/stream_dataset.py:make_streams_synchronous"]}
{"id": "C82", "title": "The loader delivers every sample of every file", "statement": "MultiStreamDataLoader without drop_last delivers each file's samples exactly once and in order for every number of workers, batch size, shuffle, overlapping or not.", "quantifier": "every dataset with at least one file, all distinct and readable, and every loader configuration that split accepts", "why_tests_cant": "all configurations", "anchors": ["dreamstream/data/stream_dataset.py:MultiStreamDataLoader.get_stream_loaders"]}
{"id": "C83", "title": "Collation keeps samples and metadata together", "statement": "custom_collate orders samples by decreasing length (stably) and each metadata row is that of the sample whose data is in the same batch row.", "quantifier": "every non-empty batch", "why_tests_cant": "unbounded", "anchors": ["dreamstream/data/stream_dataset.py:AudioStreamDataset.custom_collate"]}
{"id": "C84", "title": "Without a collate function the loader uses the default", "statement": "A MultiStreamDataLoader created without collate_fn yields collated batches.", "quantifier": "every dataset", "why_tests_cant": "configuration path", "anchors": ["dreamstream/data/stream_dataset.py:MultiStreamDataLoader.__init__"]}
{"id": "C85", "title": "A tuple of ints is a batch selection", "statement": "StreamMetadata.index_batch accepts a tuple of ints (as its signature says) and selects the same rows as the list with the same entries.", "quantifier": "every metadata and every tuple of in-range positions", "why_tests_cant": "tuples and lists take the same path in the id column but not in the tensor columns", "anchors": ["dreamstream/tensor.py:StreamMetadata.index_batch"]}
{"id": "C86", "title": "An empty selection along length yields empty, inner rows", "statement": "Indexing length with an empty list, empty tensor or all-False mask gives rows of length 0 that are neither starting nor ending.", "quantifier": "every metadata", "why_tests_cant": "the result reads memory outside the array", "anchors": ["dreamstream/tensor.py:StreamMetadata._index_length_list", "dreamstream/utils/numba.py:minmax"]}
{"id": "C87", "title": "A 2-D mask keeps eos exactly when the end is kept, and keeps chunk indices", "statement": "StreamMetadata.index with a 2-D bool mask keeps a row's eos iff a kept position lies at or beyond its last data frame and one precedes its end, and carries the kept rows' chunk indices.", "quantifier": "every metadata with positive lengths and mask", "why_tests_cant": "exponentially many masks", "anchors": ["dreamstream/tensor.py:StreamMetadata.index_batch_and_length"]}
{"id": "C88", "title": "Batch-sliced metadata is independent of its source", "statement": "Mutating (in place or by assignment) metadata obtained by batch indexing never changes the metadata it was indexed from.", "quantifier": "every metadata, batch index and mutation history", "why_tests_cant": "aliasing of tensor storage", "anchors": ["dreamstream/tensor.py:StreamMetadata.index_batch"]}
{"id": "C89", "title": "Indexing can be continued after a batch row was selected", "statement": "x[i][rest] equals x[i, rest]: a StreamTensor whose batch axis was selected away can still be indexed along its other axes.", "quantifier": "every StreamTensor, row and further index", "why_tests_cant": "every second index", "anchors": ["dreamstream/overrides.py:__getitem__", "dreamstream/overrides.py:select", "dreamstream/overrides.py:index_select"]}
{"id": "C90", "title": "Chunk indices survive an online convolution", "statement": "The output of an online Conv1d carries chunk indices iff its input does.", "quantifier": "every batch and module state", "why_tests_cant": "depends on which buffering path the batch takes", "anchors": ["dreamstream/patches/conv.py:conv_1d_pre_hook", "dreamstream/nn/utils/pad_sequence.py:pad_stream_tensor"]}
{"id": "C91", "title": "A StreamTensor can be combined with itself", "statement": "A recoupled or default-valid binary operation on x and x (or on two tensors with equal metadata) succeeds with that metadata.", "quantifier": "every StreamTensor", "why_tests_cant": "every metadata, with and without chunk indices", "anchors": ["dreamstream/tensor.py:recouple", "dreamstream/tensor.py:StreamTensor.default_valid", "dreamstream/tensor.py:StreamMetadata.__eq__"]}
{"id": "C92", "title": "take_along_dim broadcasts metadata like data", "statement": "take_along_dim along a feature axis returns as many metadata rows as data rows, for every index shape torch can broadcast.", "quantifier": "every index shape", "why_tests_cant": "broadcast shapes", "anchors": ["dreamstream/overrides.py:take_along_dim", "dreamstream/overrides.py:_gather_and_take_along_dim"]}
{"id": "C93", "title": "scatter_add on batch or length falls back to a plain tensor", "statement": "scatter_add/scatter_reduce along batch or length return a plain tensor, for every spelling of the axis; otherwise they return a StreamTensor iff all StreamTensor arguments have equal metadata.", "quantifier": "every tensor, axis and arguments", "why_tests_cant": "all spellings", "anchors": ["dreamstream/overrides.py:scatter_add", "dreamstream/overrides.py:scatter_reduce"]}
{"id": "C94", "title": "split keeps the dataset's configuration", "statement": "The datasets returned by split have the original's chunk_seconds, transform, names and file lengths.", "quantifier": "every dataset", "why_tests_cant": "all configurations", "anchors": ["dreamstream/data/stream_dataset.py:AudioStreamDataset.split", "dreamstream/data/stream_dataset.py:AudioStreamDataset.__init__"]}
{"id": "C95", "title": "Unpadding keeps the flags of empty sequences", "statement": "unpad_sequence returns for every row a tensor whose id, sos and eos are those of the row, also for rows of length 0.", "quantifier": "every StreamTensor", "why_tests_cant": "zero-length rows", "anchors": ["dreamstream/tensor.py:StreamTensor.unpad_sequence", "dreamstream/overrides.py:narrow"]}
{"id": "C96", "title": "An empty last chunk flushes the stream", "statement": "A chunk of length 0 marked eos makes an online Conv1d emit the stream's remaining outputs and forget its buffer, whatever the batch contains.", "quantifier": "every batch", "why_tests_cant": "needs a ragged batch with an empty row", "anchors": ["dreamstream/patches/conv.py:conv_1d_pre_hook", "dreamstream/tensor.py:StreamTensor.unpad_sequence"]}
{"id": "C97", "title": "Collected online outputs equal the offline output", "statement": "Running an online Conv1d over any schedule of chunk batches and feeding the outputs to an OutputCollector leaves, for each stream, its offline output.", "quantifier": "every schedule", "why_tests_cant": "composition over all histories", "anchors": ["dreamstream/overrides.py:conv1d", "dreamstream/patches/conv.py:conv_1d_pre_hook", "dreamstream/data/data_objects.py:OutputCollector"]}
{"id": "C98", "title": "Splitting a StreamTensor along length keeps every valid frame", "statement": "The valid frames of the pieces of x.split(size, length axis), concatenated in order, are the valid frames of x, for every row, also when x is padded beyond its longest sequence.", "quantifier": "every StreamTensor and chunk size or sections", "why_tests_cant": "unbounded", "anchors": ["dreamstream/overrides.py:split", "dreamstream/tensor.py:StreamMetadata.split_length"]}
{"id": "C99", "title": "Worker ids are distinct and complete", "statement": "With n workers, worker_init_fn is called with each of 0..n-1 exactly once per iteration.", "quantifier": "every number of workers", "why_tests_cant": "all n", "anchors": ["dreamstream/data/stream_dataset.py:MultiStreamDataLoader._get_worker_init_fn", "dreamstream/data/stream_dataset.py:MultiStreamDataLoader.get_stream_loaders"]}
{"id": "C100", "title": "Subclasses of Conv1d stream like Conv1d", "statement": "Any module that is a Conv1d (isinstance) and is accepted by patch buffers its input between online calls.", "quantifier": "every module tree", "why_tests_cant": "depends on exact types", "anchors": ["dreamstream/patches/general.py:patch_module", "dreamstream/patches/conv.py:patch_conv_1d"]}
{"id": "C101", "title": "A Conv1d used in several places can be patched", "statement": "After patch(model), every Conv1d object of the model, also one that is registered under several parents, works online.", "quantifier": "every module graph", "why_tests_cant": "needs shared submodules", "anchors": ["dreamstream/patches/general.py:patch", "dreamstream/patches/conv.py:patch_conv_1d"]}
{"id": "C102", "title": "Parallel branches see the same input", "statement": "Calling one or two patched Conv1d modules twice on the same StreamTensor object gives the outputs of two calls on separate copies (a model with two branches, or with a shortcut, behaves in each branch as if alone).", "quantifier": "every configuration, buffer state and batch", "why_tests_cant": "depends on in-place changes of shared metadata, for all patterns of sos and eos", "anchors": ["dreamstream/overrides.py:conv1d", "dreamstream/patches/conv.py:conv_1d_pre_hook"]}
{"id": "C103", "title": "A convolution leaves the frames of its input alone", "statement": "Calling a patched Conv1d online does not change the frames of the StreamTensor it was given.", "quantifier": "every configuration and batch", "why_tests_cant": "the in-place shift happens only for particular combinations of sos, padding, kernel and width", "anchors": ["dreamstream/overrides.py:conv1d"]}
{"id": "C104", "title": "Chunk memory can be reused", "statement": "A program may write the next chunk into the tensor it passed to the previous online call: the outputs are those of separate tensors with the contents at the times of the calls.", "quantifier": "every history of writes and calls", "why_tests_cant": "needs interleavings of writes and calls; no test writes into a chunk", "anchors": ["dreamstream/overrides.py:conv1d", "dreamstream/patches/conv.py:conv_1d_post_hook"]}
{"id": "C105", "title": "Offline calls between online calls do not disturb running streams", "statement": "Calls in offline mode made between online calls change neither the outputs nor the buffers of the streams in progress.", "quantifier": "every history of calls in changing modes", "why_tests_cant": "all interleavings", "anchors": ["dreamstream/overrides.py:conv1d", "dreamstream/patches/conv.py:conv_1d_pre_hook", "dreamstream/patches/conv.py:conv_1d_post_hook"]}
{"id": "C106", "title": "A stream id can be restarted", "statement": "A chunk with sos set begins its stream afresh, also when frames of an earlier unfinished stream with the same id are still buffered.", "quantifier": "every buffer state and batch", "why_tests_cant": "needs stale buffer contents together with a ragged mix of starting and running rows", "anchors": ["dreamstream/patches/conv.py:conv_1d_pre_hook"]}
{"id": "C107", "title": "A refused call has no side effects", "statement": "An online call that raises an exception leaves the buffer and the given StreamTensor (frames and metadata) as they were.", "quantifier": "every configuration, buffer state and batch", "why_tests_cant": "all failing calls", "anchors": ["dreamstream/overrides.py:conv1d", "dreamstream/patches/conv.py:conv_1d_pre_hook"]}
{"id": "C108", "title": "Elementwise results with plain operands are described by their metadata", "statement": "An elementwise function of a StreamTensor and plain tensors or numbers that returns a StreamTensor returns one whose batch axis has one entry per metadata row and whose length axis is as long as the lengths require.", "quantifier": "every StreamTensor and operand shape", "why_tests_cant": "broadcasting shapes", "anchors": ["dreamstream/tensor.py:StreamTensor.default_valid", "dreamstream/tensor.py:recouple"]}
{"id": "C109", "title": "Elementwise functions of two StreamTensors with equal metadata", "statement": "A recoupled or default-valid elementwise function of two described StreamTensors with the same metadata and names has that metadata, and describes its result.", "quantifier": "every pair of StreamTensors", "why_tests_cant": "broadcasting over the feature axes", "anchors": ["dreamstream/tensor.py:StreamTensor.default_valid", "dreamstream/tensor.py:recouple"]}
{"id": "C110", "title": "In-place functions refuse operands with other metadata", "statement": "x.add_(y) and the like raise when x and y are StreamTensors with different metadata.", "quantifier": "every pair of StreamTensors", "why_tests_cant": "depends on the dispatch table an overload is listed in", "anchors": ["dreamstream/tensor.py:StreamTensor.default_valid", "dreamstream/tensor.py:recouple"]}
{"id": "C111", "title": "A refused in-place addition leaves the tensor unchanged", "statement": "When x += y raises because of different metadata, the data of x are as before.", "quantifier": "every pair of StreamTensors", "why_tests_cant": "the comparison happens after the computation", "anchors": ["dreamstream/tensor.py:recouple"]}
{"id": "C112", "title": "The content of the padding has no influence", "statement": "Two batches that differ only in the frames beyond the sequence lengths give the same result of an online convolution.", "quantifier": "every configuration, buffer state and batch", "why_tests_cant": "needs ragged batches with garbage in the padding", "anchors": ["dreamstream/overrides.py:conv1d", "dreamstream/patches/conv.py:conv_1d_pre_hook", "dreamstream/patches/conv.py:conv_1d_post_hook"]}
{"id": "C113", "title": "Pointwise functions between convolutions keep streaming exact", "statement": "A stack of online convolutions with any pointwise functions between them (also functions with f(0) != 0, such as sigmoid) gives each stream its offline output.", "quantifier": "every stack and schedule", "why_tests_cant": "composition over all histories, with non-zero padding between the layers", "anchors": ["dreamstream/overrides.py:conv1d", "dreamstream/patches/conv.py:conv_1d_pre_hook", "dreamstream/patches/conv.py:conv_1d_post_hook"]}
{"id": "C114", "title": "Chunks of at least the receptive field stream exactly", "statement": "For every stack of Conv1d layers whose strides are below their kernel widths, with pointwise functions between them (those with f(0) != 0 not directly before a padded convolution), and every schedule in which the first chunk of each sequence is long enough for one output of the whole stack and every later chunk has at least as many frames as the product of the strides (in particular: every schedule whose chunks have at least as many frames as the receptive field): no online call raises, no output chunk is empty, and each stream's outputs are its offline output.", "quantifier": "every stack and schedule of long enough chunks", "why_tests_cant": "induction over layers and over histories", "anchors": ["dreamstream/overrides.py:conv1d", "dreamstream/patches/conv.py:conv_1d_pre_hook", "dreamstream/patches/conv.py:conv_1d_post_hook"]}
{"id": "C115", "title": "Dealing pieces into batches gives a valid stream schedule", "statement": "Cutting whole sequences with distinct ids into non-empty pieces and dealing them in any order into ragged padded batches, one piece per sequence and batch, loses and reorders nothing: every batch is well formed with distinct ids, the pieces of each sequence come in order with sos on the first and eos on the last one only, and together they are the sequence.", "quantifier": "all sequences, piece sizes and dealing orders", "why_tests_cant": "the whole pipeline of padding, splitting, unpadding and re-padding", "anchors": ["dreamstream/nn/utils/pad_sequence.py:pad_full_sequence", "dreamstream/nn/utils/pad_sequence.py:pad_stream_tensor", "dreamstream/overrides.py:split", "dreamstream/tensor.py:StreamTensor.unpad_sequence", "examples/wav2letter.py:run"]}
{"id": "C116", "title": "Split, batch, stream and collect equals offline", "statement": "The program of the example (cut the sequences into pieces, deal them into batches, run a stack of online convolutions on each batch, feed the results to an OutputCollector) ends with exactly the offline outputs of the whole sequences under their ids.", "quantifier": "all stacks, sequences, piece sizes and dealing orders", "why_tests_cant": "composition of the whole library; the tests compare two sequences with one random seed", "anchors": ["dreamstream/overrides.py:conv1d", "dreamstream/patches/conv.py:conv_1d_pre_hook", "dreamstream/patches/conv.py:conv_1d_post_hook", "dreamstream/data/data_objects.py:OutputCollector.update", "examples/wav2letter.py:run"]}
{"id": "C117", "title": "Decoupling and rebuilding a StreamTensor", "statement": "as_stream_tensor and stream_tensor put together what decouple takes apart; given names only fill in unnamed axes, conflicting names are refused, and plain data without metadata are refused.", "quantifier": "every tensor, metadata and name list", "why_tests_cant": "named and unnamed axes, StreamTensors and plain tensors as input", "anchors": ["dreamstream/tensor.py:as_stream_tensor", "dreamstream/tensor.py:stream_tensor", "dreamstream/tensor.py:StreamTensor.decouple"]}
{"id": "C118", "title": "x.T reverses the axes", "statement": "x.T reverses the axes together with their names, is its own inverse, keeps the metadata, and the metadata describe the result.", "quantifier": "every StreamTensor", "why_tests_cant": "any number of axes", "anchors": ["dreamstream/tensor.py:StreamTensor.T", "dreamstream/overrides.py:permute"]}
{"id": "C119", "title": "decouple_recursive reaches every StreamTensor", "statement": "decouple_recursive replaces every StreamTensor in a nested structure by its plain data, keeps the structure and everything else, and returns the metadata and names from left to right.", "quantifier": "every nesting of containers", "why_tests_cant": "structural induction over arbitrary nesting and container types", "anchors": ["dreamstream/tensor.py:decouple_recursive"]}
{"id": "C120", "title": "rand_stream_tensor gives described tensors", "statement": "Whatever is drawn, rand_stream_tensor returns a tensor of the given size and names whose metadata describe it, with distinct ids.", "quantifier": "every size, names and draws", "why_tests_cant": "all draws", "anchors": ["dreamstream/random.py:rand_stream_tensor"]}
{"id": "C121", "title": "The metadata constructor accepts exactly consistent columns", "statement": "StreamMetadata(ids, sos, eos, lengths, chunk_indices) raises unless all columns are one-dimensional with one entry per id, and stores the given entries as one-dimensional columns.", "quantifier": "every combination of argument forms", "why_tests_cant": "scalars, lists and tensors of any number of axes", "anchors": ["dreamstream/tensor.py:StreamMetadata.__init__"]}
{"id": "C122", "title": "Masks over several axes", "statement": "x[mask] with a mask over the first two or more named axes merges them into one axis under the joined names, holding the entries where the mask is True in row-major order; the metadata are those of the sequences, or of the frames, with a True; if the mask covers both batch and length the result is a plain tensor.", "quantifier": "every StreamTensor and mask", "why_tests_cant": "all mask shapes and contents and positions of the batch and length axes", "anchors": ["dreamstream/overrides.py:__getitem__", "dreamstream/overrides.py:determine_dims_affected_by_indexing", "dreamstream/overrides.py:any_along_dims"]}
{"id": "C123", "title": "Masks over several axes in an index tuple", "statement": "x[..., i, mask, j] with a mask over several axes and other entries gives every axis its name and indexes the metadata with the entries that torch applies to the batch and length axes.", "quantifier": "every StreamTensor and index tuple", "why_tests_cant": "the axis an entry applies to differs from its place in the tuple", "anchors": ["dreamstream/overrides.py:__getitem__", "dreamstream/overrides.py:determine_dims_affected_by_indexing", "dreamstream/overrides.py:replace_ellipsis"]}
{"id": "C124", "title": "Integer tensors with several axes as index", "statement": "x[idx] and x[..., idx] with an integer tensor of two or more axes are refused if idx gathers along batch or length; otherwise the new axes are unnamed, the last one keeps the name, and the metadata stay.", "quantifier": "every StreamTensor and integer tensor", "why_tests_cant": "all index shapes and positions of the batch and length axes", "anchors": ["dreamstream/overrides.py:__getitem__", "dreamstream/overrides.py:determine_dims_affected_by_indexing"]}
{"id": "C125", "title": "take keeps names and metadata of what was taken", "statement": "x.take(i) returns the entries at the given row-major positions; its axis is named after the axes along which the entries vary, and its metadata are those of the sequences and frames that occur, in order of first occurrence.", "quantifier": "every StreamTensor and every list of positions torch accepts", "why_tests_cant": "all position lists, axis orders and batch sizes", "anchors": ["dreamstream/overrides.py:take"]}
{"id": "C126", "title": "masked_select gives the selected entries as a plain tensor", "statement": "torch.masked_select(x, mask) is a plain one-dimensional tensor of the entries where the mask is True, in row-major order.", "quantifier": "every StreamTensor and mask over its last axes", "why_tests_cant": "all shapes and masks", "anchors": ["dreamstream/overrides.py:masked_select"]}
{"id": "C127", "title": "Index and mask arguments may be StreamTensors", "statement": "gather, take_along_dim, take, index_select, masked_select, scatter_add and scatter_reduce accept an index or mask that is a StreamTensor with the same metadata.", "quantifier": "every StreamTensor and index", "why_tests_cant": "whether the inner torch call dispatches again depends on the type of the index", "anchors": ["dreamstream/overrides.py:_gather_and_take_along_dim", "dreamstream/overrides.py:take", "dreamstream/overrides.py:index_select", "dreamstream/overrides.py:masked_select", "dreamstream/overrides.py:scatter_add", "dreamstream/overrides.py:scatter_reduce"]}
{"id": "C128", "title": "frexp keeps names and metadata", "statement": "torch.frexp(x) returns mantissa and exponent with the names and metadata of x.", "quantifier": "every StreamTensor", "why_tests_cant": "all shapes, names and metadata", "anchors": ["dreamstream/overrides.py:frexp"]}
{"id": "C129", "title": "In-place scatters update and return the stream", "statement": "x.scatter_add_(...) and x.scatter_reduce_(...) write the new data into x and return a StreamTensor with the new data and x's names and metadata.", "quantifier": "every StreamTensor, axis and arguments", "why_tests_cant": "all axes and metadata", "anchors": ["dreamstream/overrides.py:scatter_add_", "dreamstream/overrides.py:scatter_reduce_"]}
{"id": "C130", "title": "Reductions give described streams", "statement": "If torch.sum, mean, max, ... of a StreamTensor along an axis is a StreamTensor, its metadata describe it.", "quantifier": "every StreamTensor, axis and keepdim", "why_tests_cant": "all shapes, every axis", "anchors": ["dreamstream/tensor.py:StreamTensor.default_valid"]}
{"id": "C131", "title": "Every StreamTensor returned has metadata", "statement": "Every StreamTensor returned by a torch function of StreamTensors has metadata.", "quantifier": "every torch function", "why_tests_cant": "all functions, also those that return tuples", "anchors": ["dreamstream/tensor.py:StreamTensor.default_valid"]}
{"id": "C132", "title": "Padding does not influence functions along an axis", "statement": "On the frames that hold data, the result of a reduction or of a function such as softmax or cumsum along an axis does not depend on the content of the padding.", "quantifier": "every StreamTensor, function and axis", "why_tests_cant": "all contents of the padding", "anchors": ["dreamstream/tensor.py:StreamTensor.default_valid"]}
{"id": "C133", "title": "Loader options are checked by the constructor", "statement": "MultiStreamDataLoader accepts num_workers (without effect) with a list of datasets, and accepts drop_last exactly with overlapping batches.", "quantifier": "every combination of constructor arguments", "why_tests_cant": "all option values, single dataset or list of any length", "anchors": ["dreamstream/data/stream_dataset.py:MultiStreamDataLoader.__init__"]}
{"id": "C134", "title": "A constructed loader can be iterated with its options", "statement": "Iterating a constructed MultiStreamDataLoader starts its DataLoaders without an argument error, with the prefetch factor, timeout and persistence it was given.", "quantifier": "every combination of constructor arguments", "why_tests_cant": "all option values, single dataset or list of any length", "anchors": ["dreamstream/data/stream_dataset.py:MultiStreamDataLoader.__init__", "dreamstream/data/stream_dataset.py:MultiStreamDataLoader.get_stream_loaders"]}
{"id": "C135", "title": "The one-process loader delivers what the plain loader delivers", "statement": "MultiStreamOneProcessDataLoader with zero or one worker yields the batches that MultiStreamDataLoader without workers yields for the same arguments.", "quantifier": "every dataset, list of datasets and combination of options", "why_tests_cant": "all option values, files and orders", "anchors": ["dreamstream/data/stream_dataset.py:MultiStreamOneProcessDataLoader.__init__", "dreamstream/data/stream_dataset.py:MultiStreamOneProcessDataLoader.__iter__"]}
{"id": "C136", "title": "A constructed dataset can be split", "statement": "If AudioStreamDataset was constructed with a positive chunk duration, split(n, batch_size) with n dividing batch_size succeeds; each file is weighed with its own length.", "quantifier": "every file list, list of lengths and metadata dictionary", "why_tests_cant": "all lists, including lists of different sizes and repeated files", "anchors": ["dreamstream/data/stream_dataset.py:AudioStreamDataset.__init__", "dreamstream/data/stream_dataset.py:AudioStreamDataset.split"]}
{"id": "C137", "title": "The demo splits its data over the largest fitting number of workers", "statement": "split_datasets(data, batch_size, max_workers) returns n datasets with different names, where n is the largest divisor of batch_size up to max_workers; together they hold every item once and their batch sizes add up to batch_size.", "quantifier": "every data list and positive sizes", "why_tests_cant": "all data, batch sizes and numbers of workers", "anchors": ["dreamstream/data/stream_dataset_demo.py:MyIterableDataset.split_datasets"]}
{"id": "C138", "title": "The demo loader delivers every chunk once", "statement": "Iterating the demo loader over the datasets of split_datasets yields the chunks of every item exactly once and in order, in non-empty batches of at most batch_size that hold no item twice and that the collate function accepts.", "quantifier": "every data list and positive sizes for which split_datasets returns", "why_tests_cant": "all data, batch sizes and numbers of workers", "anchors": ["dreamstream/data/stream_dataset_demo.py:MyIterableDataset.get_streams", "dreamstream/data/stream_dataset_demo.py:MultiStreamDataLoader.__iter__"]}
{"id": "C139", "title": "Streams survive pickling", "statement": "pickle.loads(pickle.dumps(x)) of a StreamTensor or of StreamMetadata gives an equal object.", "quantifier": "every StreamTensor and metadata object", "why_tests_cant": "all contents, used or not yet used metadata, all Python versions", "anchors": ["dreamstream/tensor.py:StreamTensor.__getstate__", "dreamstream/tensor.py:StreamTensor.__setstate__", "dreamstream/tensor.py:LazyProxy"]}
{"id": "C140", "title": "A copy of metadata equals the original and is independent of it", "statement": "copy.copy(meta) reports the columns of meta, and later uses of one do not change what the other reports.", "quantifier": "every metadata object and history of uses", "why_tests_cant": "all sequences of reads, assignments and in-place writes to either object", "anchors": ["dreamstream/tensor.py:StreamMetadata.__copy__", "dreamstream/tensor.py:LazyProxy.__copy__"]}
{"id": "C141", "title": "Every torch function has one treatment", "statement": "No torch function is in two of the tables VALID, CUSTOMIZED, DECOUPLE, RECOUPLE, INPLACE_RECOUPLE and DEFAULT_VALID; a function is treated as its table says, and warned about iff it is in none.", "quantifier": "every torch function, tensor method and property getter", "why_tests_cant": "all 340 entries of the tables and everything that is in none", "anchors": ["dreamstream/func_coverage.py:VALID_FUNCTIONS", "dreamstream/func_coverage.py:RECOUPLE_FUNCTIONS", "dreamstream/func_coverage.py:DEFAULT_VALID_FUNCTIONS", "dreamstream/tensor.py:StreamTensor.__torch_function__"]}
{"id": "C142", "title": "A method is treated like the function of the same name", "statement": "If torch.f is in one of the tables and torch.Tensor.f exists, x.f(...) is treated like torch.f(x, ...).", "quantifier": "every torch function, every StreamTensor and mask for the consequence", "why_tests_cant": "all functions in the tables, all tensors", "anchors": ["dreamstream/func_coverage.py:CUSTOMIZED_FUNCTIONS", "dreamstream/func_coverage.py:DECOUPLE_FUNCTIONS", "dreamstream/tensor.py:StreamTensor.__torch_function__"]}
{"id": "C143", "title": "In-place methods return the tensor they were called on", "statement": "A tensor method whose name ends in an underscore returns the StreamTensor it was called on.", "quantifier": "every in-place method in the tables", "why_tests_cant": "all in-place methods", "anchors": ["dreamstream/func_coverage.py:INPLACE_RECOUPLE_FUNCTIONS", "dreamstream/tensor.py:StreamTensor.__torch_function__", "dreamstream/tensor.py:inplace_recouple"]}
{"id": "C144", "title": "Overrides take their arguments as torch does", "statement": "Every call that the signature of a torch function accepts is accepted by its override, and each parameter gets the same value.", "quantifier": "every override and every list of positional and keyword arguments", "why_tests_cant": "all ways to pass arguments", "anchors": ["dreamstream/overrides.py:take", "dreamstream/overrides.py:permute", "dreamstream/overrides.py:unbind", "dreamstream/overrides.py:scatter_reduce_", "dreamstream/tensor.py:StreamTensor.__torch_function__"]}
{"id": "C145", "title": "An axis may be given by name", "statement": "Functions that accept an axis by name on named tensors accept it on StreamTensors and do what they do with its position.", "quantifier": "every StreamTensor, axis and name", "why_tests_cant": "all tensors and names", "anchors": ["dreamstream/overrides.py:cat", "dreamstream/overrides.py:unbind", "dreamstream/overrides.py:select", "dreamstream/overrides.py:index_select", "dreamstream/overrides.py:gather", "dreamstream/overrides.py:squeeze"]}
{"id": "C146", "title": "Several axes may be given as one tuple", "statement": "x.permute((i, j, ...)) is x.permute(i, j, ...), and x.squeeze((i, j, ...)) removes these axes.", "quantifier": "every StreamTensor and tuple of axes", "why_tests_cant": "all ranks and tuples", "anchors": ["dreamstream/overrides.py:tensor_permute", "dreamstream/overrides.py:permute", "dreamstream/overrides.py:squeeze"]}
{"id": "C147", "title": "torch.conv1d accepts the argument forms of torch", "statement": "torch.conv1d on a StreamTensor accepts ints, tuples and lists for stride, padding and dilation, and the default values, and means the same by them.", "quantifier": "every input, kernel and spelling of the arguments", "why_tests_cant": "all inputs and spellings", "anchors": ["dreamstream/overrides.py:conv1d"]}
{"id": "C148", "title": "Streams in different batches do not influence each other", "statement": "In any history of calls, accepted or refused, the outcomes for the batches of one set of streams are those obtained when the calls for all other streams are left out.", "quantifier": "every stack of convolutions and pointwise functions, every history of calls on batches that lie within or outside a set of ids", "why_tests_cant": "all stacks and histories", "anchors": ["dreamstream/patches/conv.py:conv_1d_pre_hook", "dreamstream/patches/conv.py:conv_1d_post_hook", "dreamstream/overrides.py:conv1d"]}
{"id": "C149", "title": "A refused call of a stack has no effect on its streams", "statement": "When a call of a stack of convolutions raises, later calls give what they give had the call not been made.", "quantifier": "every stack, batch and state", "why_tests_cant": "all stacks and batches", "anchors": ["dreamstream/patches/conv.py:conv_1d_pre_hook", "dreamstream/patches/conv.py:conv_1d_post_hook", "dreamstream/overrides.py:conv1d"]}
{"id": "C150", "title": "Strided length slices are exact for sequences of any length", "statement": "The lengths after slicing along length with a step are those of exact integer arithmetic, however long the sequences are.", "quantifier": "every metadata object and slice", "why_tests_cant": "all lengths and steps; the division is done in float32", "anchors": ["dreamstream/tensor.py:StreamMetadata._index_length_slice"]}
{"id": "C151", "title": "Lengths of concatenated chunks are the sums of their lengths, however long the stream", "statement": "Concatenating consecutive chunks along length gives every row the sum of its lengths.", "quantifier": "every list of metadata objects", "why_tests_cant": "all lengths; the sums are 32-bit", "anchors": ["dreamstream/tensor.py:StreamMetadata.cat_length"]}
{"id": "C152", "title": "suppress_warnings silences all warnings of the package", "statement": "After suppress_warnings(True) no warning of dreamstream is shown or raised until the filters are changed again, whatever happened before, and other warnings are treated as before.", "quantifier": "every history of warnings, filter changes and calls of suppress_warnings", "why_tests_cant": "all histories", "anchors": ["dreamstream/warnings.py:suppress_warnings", "dreamstream/warnings.py:fallback_operation_warning", "dreamstream/warnings.py:warn"]}
{"id": "C153", "title": "suppress_warnings(False) restores the warnings", "statement": "suppress_warnings(True) followed by suppress_warnings(False) leaves the treatment of dreamstream's warnings as it was before.", "quantifier": "every history of warnings, filter changes and calls of suppress_warnings", "why_tests_cant": "all histories", "anchors": ["dreamstream/warnings.py:suppress_warnings"]}
{"id": "C154", "title": "Indexing metadata gives metadata or raises", "statement": "metadata[index] is a metadata object or an exception for every index: one entry is a batch index, two are batch and length.", "quantifier": "every metadata object and everything that can be put between the brackets", "why_tests_cant": "all indices", "anchors": ["dreamstream/tensor.py:StreamMetadata.index", "dreamstream/tensor.py:StreamMetadata.__getitem__"]}
{"id": "C155", "title": "Training chunk by chunk works", "statement": "When a stack of patched convolutions is called online in train mode on chunk after chunk, with the backward pass of each output run before the next call, no call raises, as the README promises for chunk-wise training.", "quantifier": "every stack of convolutions and pointwise functions, every history of batches", "why_tests_cant": "all stacks and histories", "anchors": ["dreamstream/patches/conv.py:conv_1d_pre_hook", "dreamstream/patches/conv.py:conv_1d_post_hook", "dreamstream/overrides.py:conv1d"]}
{"id": "C156", "title": "The memory kept for an open stream does not grow with its chunks when gradients are recorded", "statement": "Without torch.no_grad() too, what the buffers of an open stream keep alive does not depend on the number of chunks processed so far.", "quantifier": "every stack of convolutions and pointwise functions, every history of batches", "why_tests_cant": "all stacks and histories", "anchors": ["dreamstream/patches/conv.py:conv_1d_post_hook", "dreamstream/overrides.py:conv1d"]}
{"id": "C157", "title": "Rounding errors do not change the chunks of a file", "statement": "A file is cut into chunks of chunk_seconds times the sample rate (after the transform), rounded to an integer, as in exact arithmetic, unless the product lies within 1/1000 of a half, whatever decimal number chunk_seconds was written as.", "quantifier": "every file, sample rate, transform and chunk length of at most 2^40 frames", "why_tests_cant": "all numbers; three float operations are involved", "anchors": ["dreamstream/data/stream_dataset.py:AudioStreamDataset.process_data"]}
{"id": "C158", "title": "Several Ellipses mean what torch means by them", "statement": "An index tuple with several Ellipses that torch accepts gives torch's selection, with the names and the metadata of the selected axes.", "quantifier": "every stream tensor and index tuple", "why_tests_cant": "all indices", "anchors": ["dreamstream/overrides.py:replace_ellipsis", "dreamstream/overrides.py:determine_dims_affected_by_indexing"]}
{"id": "C159", "title": "Residual connections stream like offline", "statement": "conv(x) + x around a patched convolution that keeps the length gives, chunk by chunk, the frames that it gives for the whole sequence.", "quantifier": "every such convolution, every elementwise function in the place of +, every schedule of batches of chunks", "why_tests_cant": "all schedules and kernels", "anchors": ["dreamstream/patches/conv.py:conv_1d_pre_hook", "dreamstream/overrides.py:conv1d", "dreamstream/tensor.py:StreamTensor.default_valid"]}
{"id": "C160", "title": "The batches of a loader are a valid schedule of streams", "statement": "Without drop_last, whatever the workers, batch size, shuffling and order, the collated batches of the loader satisfy what the online modules expect: no batch is empty or holds a stream twice, no chunk is empty, and every file is exactly one complete sequence, its chunks in order with the first marked as start and the last as end. With drop_last the same holds of the batches; what is delivered of a file are its first chunks in order, unchanged except that the last one delivered may be marked as the end, and with one worker it always is.", "quantifier": "every dataset of readable files without duplicates and every loader configuration that can be split over the workers, except drop_last with overlapping_batches=False and several workers (C169)", "why_tests_cant": "all files, workers, orders", "anchors": ["dreamstream/data/stream_dataset.py:MultiStreamDataLoader.__iter__", "dreamstream/data/stream_dataset.py:AudioStreamDataset.process_data", "dreamstream/data/stream_dataset.py:AudioStreamDataset.custom_collate"]}
{"id": "C161", "title": "Streaming the files of a dataset through a convolution gives the offline output of each file", "statement": "The outputs that a patched online convolution gives for the batches of a loader are, put together file by file, the offline outputs of the (transformed) files; with drop_last, of what is delivered of them.", "quantifier": "every dataset, loader configuration (with drop_last: overlapping batches) and convolution", "why_tests_cant": "all files, chunk sizes, kernels", "anchors": ["dreamstream/data/stream_dataset.py:AudioStreamDataset.process_data", "dreamstream/data/stream_dataset.py:AudioStreamDataset.custom_collate", "dreamstream/patches/conv.py:conv_1d_pre_hook", "dreamstream/overrides.py:conv1d"]}
{"id": "C162", "title": "A formatted time has at most seven characters", "statement": "format_time with the default arguments returns a string of at most 7 characters, as its docstring says.", "quantifier": "every time", "why_tests_cant": "all numbers", "anchors": ["dreamstream/utils/timing.py:format_time"]}
{"id": "C163", "title": "A formatted time denotes the time to the given precision", "statement": "The string that format_time returns is a decimal numeral followed by a unit, and the numeral times the unit differs from the time by at most half a unit of the last significant digit.", "quantifier": "every positive time and precision", "why_tests_cant": "all numbers; rounding can carry into a new digit or switch the notation", "anchors": ["dreamstream/utils/timing.py:format_time"]}
{"id": "C164", "title": "timeit runs its inner loop for at least the requested duration", "statement": "Without an explicit number, the number of iterations is the smallest multiple of the calibrated number that, at the speed measured, takes longer than inner_duration; an explicit number is used as it is.", "quantifier": "every sequence of measurements and every inner_duration", "why_tests_cant": "all measurements", "anchors": ["dreamstream/utils/timing.py:timeit"]}
{"id": "C165", "title": "The results of timeit summarise its measurements", "statement": "min, max, mean and median are those of the per-iteration times of the repeats, min <= mean <= max and min <= median <= max, and a warning is given exactly if the largest is at least four times the smallest.", "quantifier": "every sequence of measurements and number of repeats", "why_tests_cant": "all measurements", "anchors": ["dreamstream/utils/timing.py:timeit"]}
{"id": "C166", "title": "The columns of timing reports line up", "statement": "All lines printed by report_timings without prefix and suffix have the same length.", "quantifier": "all results", "why_tests_cant": "all numbers", "anchors": ["dreamstream/utils/timing.py:report_timings", "dreamstream/utils/timing.py:format_time"]}
{"id": "C167", "title": "Computing a tensor leaves all other tensors as they are", "statement": "A statement that computes a StreamTensor from others (elementwise functions, online convolutions) changes neither frames nor metadata of any StreamTensor that is not its argument.", "quantifier": "every program state and statement", "why_tests_cant": "all programs; results share the metadata object of their argument", "anchors": ["dreamstream/tensor.py:StreamTensor.default_valid", "dreamstream/overrides.py:conv1d", "dreamstream/patches/conv.py:conv_1d_pre_hook"]}
{"id": "C168", "title": "Programs on StreamTensors mean what they mean for immutable values", "statement": "A program of elementwise functions and online convolutions computes for every variable what it computes if every StreamTensor keeps the frames and metadata it was created with.", "quantifier": "every program, modules and inputs", "why_tests_cant": "all programs", "anchors": ["dreamstream/tensor.py:StreamTensor.default_valid", "dreamstream/overrides.py:conv1d", "dreamstream/patches/conv.py:conv_1d_pre_hook"]}
{"id": "C169", "title": "A stream that ends within a file is reported", "statement": "If the stream of samples ends before the last chunk of a file, make_streams_synchronous raises.", "quantifier": "every stream with a truncated file", "why_tests_cant": "all streams", "anchors": ["dreamstream/data/stream_dataset.py:make_streams_synchronous"]}
{"id": "C170", "title": "Convolution finds the length axis by its name", "statement": "torch.conv1d on a StreamTensor convolves along the axis named L, wherever it stands, or refuses tensors whose axes are not in the order batch, channels, length.", "quantifier": "every tensor, layer and order of the axes", "why_tests_cant": "all tensors", "anchors": ["dreamstream/overrides.py:conv1d"]}
{"id": "C171", "title": "Streaming a convolution with channels gives the offline output in every channel", "statement": "For named tensors with axes (batch, channels, length), weights, bias and groups, the outputs of a patched online Conv1d for a complete stream, put together, are in every output channel those of an ordinary Conv1d for the whole stream.", "quantifier": "every weight, bias, groups, stride, dilation, padding, number of channels and schedule of batches", "why_tests_cant": "all layers, tensors and schedules", "anchors": ["dreamstream/overrides.py:conv1d", "dreamstream/patches/conv.py:conv_1d_pre_hook", "dreamstream/patches/conv.py:conv_1d_post_hook"]}
{"id": "C172", "title": "An axis out of range is refused", "statement": "Every override that takes an axis raises IndexError if the tensor has no such axis, as torch does.", "quantifier": "every tensor, override and axis", "why_tests_cant": "all integers", "anchors": ["dreamstream/overrides.py:select", "dreamstream/overrides.py:split", "dreamstream/overrides.py:unbind", "dreamstream/overrides.py:narrow", "dreamstream/overrides.py:index_select", "dreamstream/overrides.py:permute", "dreamstream/overrides.py:flatten", "dreamstream/overrides.py:squeeze", "dreamstream/overrides.py:unqsqueeze", "dreamstream/overrides.py:cat"]}
{"id": "C173", "title": "Sections may be given as a tuple", "statement": "x.split(sections, dim) means the same for a tuple of sections as for the list of them, as in torch.", "quantifier": "every stream tensor, sections and axis", "why_tests_cant": "all sections", "anchors": ["dreamstream/overrides.py:split", "dreamstream/tensor.py:StreamMetadata.split_batch", "dreamstream/tensor.py:StreamMetadata.split_length"]}
{"id": "C174", "title": "Functions of lists of StreamTensors give a stream or refuse different streams", "statement": "A torch function without an override that takes its tensors in a list gives a StreamTensor with their metadata if these are equal, and raises RuntimeError if they are not.", "quantifier": "every function, arguments and result", "why_tests_cant": "all arguments", "anchors": ["dreamstream/tensor.py:StreamTensor.default_valid", "dreamstream/tensor.py:StreamTensor.__torch_function__"]}
{"id": "C175", "title": "Streaming a model of layers with channels gives the output of the ordinary model", "statement": "A patched stack of Conv1d layers with any numbers of channels, entrywise functions and functions along the channels (the form of Wav2Letter), run online on named tensors, gives for each complete stream what the ordinary model gives for the whole sequence.", "quantifier": "every stack whose channels fit, and every schedule of batches", "why_tests_cant": "all stacks, tensors and schedules", "anchors": ["dreamstream/overrides.py:conv1d", "dreamstream/patches/conv.py:conv_1d_pre_hook", "dreamstream/patches/conv.py:conv_1d_post_hook", "dreamstream/patches/general.py:patch", "examples/wav2letter.py:run"]}
{"id": "C176", "title": "The example program collects what the ordinary model gives", "statement": "The program of examples/wav2letter.py (pad_full_sequence, align_to, unpad_sequence, split, pad_stream_tensor, the online model, OutputCollector) ends, for every id, with a tensor with axes (F, L) that has the size and the entries of the ordinary model's output on the whole sequence.", "quantifier": "every model whose channels fit, sequences, piece sizes and order of the pieces", "why_tests_cant": "all models, sequences and sizes", "anchors": ["examples/wav2letter.py:run", "dreamstream/nn/utils/pad_sequence.py:pad_full_sequence", "dreamstream/nn/utils/pad_sequence.py:pad_stream_tensor", "dreamstream/data/data_objects.py:OutputCollector.update", "dreamstream/data/data_objects.py:OutputCollector._update_unary", "dreamstream/overrides.py:split", "dreamstream/overrides.py:cat", "dreamstream/overrides.py:conv1d"]}
{"id": "C177", "title": "The batches of a loader have the requested size", "statement": "No batch of MultiStreamDataLoader is larger than its batch_size, and with drop_last every batch has exactly batch_size samples, for a single dataset and for a list of datasets.", "quantifier": "every combination of loader arguments, datasets, files and orders", "why_tests_cant": "all datasets, numbers of workers and orders; both ways of batching", "anchors": ["dreamstream/data/stream_dataset.py:MultiStreamDataLoader.get_stream_loaders", "dreamstream/data/stream_dataset.py:AudioStreamDataset.get_streams", "dreamstream/data/stream_dataset.py:AudioStreamDataset.split", "dreamstream/data/stream_dataset.py:make_streams_synchronous"]}
{"id": "C178", "title": "The batch size of a dataset can be set later", "statement": "The batch_size of an AudioStreamDataset may be None at first and assigned any number of times: assignments of sizes that are not positive are refused, iterating without a size raises AttributeError, and otherwise the dataset behaves as one made with the last size; splitting does not depend on it.", "quantifier": "every dataset and sequence of assignments", "why_tests_cant": "all sequences of assignments", "anchors": ["dreamstream/data/stream_dataset.py:AudioStreamDataset.batch_size", "dreamstream/data/stream_dataset.py:AudioStreamDataset.__init__", "dreamstream/data/stream_dataset.py:AudioStreamDataset.get_streams"]}
{"id": "C179", "title": "join_dim_names and split_dim_names are inverse to each other", "statement": "As their documentation says, joining the parts of a name gives the name and splitting a joined name gives the names that were joined.", "quantifier": "every name and every sequence of names", "why_tests_cant": "all strings", "anchors": ["dreamstream/overrides.py:join_dim_names", "dreamstream/overrides.py:split_dim_names"]}
{"id": "C180", "title": "The axis accessors agree with names, data and metadata", "statement": "has_batch_dim, batch_dim, is_batch_dim and batch_size(), and the same for length, agree with each other for axes counted from either end; batch_size() is the number of sequences in the metadata and max_length() is at least the longest of them; without the axis ValueError is raised.", "quantifier": "every StreamTensor and axis", "why_tests_cant": "all shapes, names and axes", "anchors": ["dreamstream/tensor.py:StreamTensor.has_batch_dim", "dreamstream/tensor.py:StreamTensor.batch_dim", "dreamstream/tensor.py:StreamTensor.is_batch_dim", "dreamstream/tensor.py:StreamTensor.batch_size", "dreamstream/tensor.py:StreamTensor.max_length"]}
{"id": "C181", "title": "Quantising a StreamTensor keeps the stream", "statement": "torch.fake_quantize_per_tensor_affine, torch.quantize_per_tensor and torch.quantize_per_tensor_dynamic round a StreamTensor entry by entry and, as other entrywise functions do, keep its names and metadata; tuples of tensors, with StreamTensors among them, are accepted as torch accepts them.", "quantifier": "every StreamTensor and tuple of tensors", "why_tests_cant": "all shapes, names and tuples", "anchors": ["dreamstream/overrides.py:fake_quantize_per_tensor_affine", "dreamstream/overrides.py:quantize_per_tensor", "dreamstream/overrides.py:quantize_per_tensor_dynamic"]}
{"id": "C182", "title": "implements registers overrides and documents them", "statement": "A stack of implements decorators registers the function for each of the torch functions, the last definition wins, and the documentation of the function is its own followed by that of each of the torch functions once.", "quantifier": "every sequence of definitions and decorators", "why_tests_cant": "all stacks of decorators and orders of definitions", "anchors": ["dreamstream/overrides.py:implements", "dreamstream/overrides.py:augment_documentation"]}
{"id": "C183", "title": "The lists of functions written by the scraper are read back by the package", "statement": "Importing the package reads, from each list that doc_scrape/pointwise-ops.py has written, exactly the torch functions that the script has put into it.", "quantifier": "every outcome of the trials of the script", "why_tests_cant": "all documentations, attributes of torch and outcomes", "anchors": ["dreamstream/utils/listloaders.py:get_tensor_attr", "dreamstream/utils/listloaders.py:load_default_valid_pointwise_ops", "dreamstream/utils/listloaders.py:load_valid_pointwise_ops", "dreamstream/utils/listloaders.py:load_recouple_pointwise_ops", "dreamstream/utils/listloaders.py:load_inplace_recouple_pointwise_ops"]}
{"id": "C184", "title": "The scraper puts every function into one list", "statement": "Each function tried by doc_scrape/pointwise-ops.py and not left out is put into exactly one list; the lists for in-place functions hold only those, and a function is in a list only if its trial gave the expected result.", "quantifier": "every outcome of the trials of the script", "why_tests_cant": "all documentations, attributes of torch and outcomes", "anchors": ["doc_scrape/pointwise-ops.py", "dreamstream/utils/listloaders.py:get_tensor_attr"]}
{"id": "C185", "title": "A model patched as in the README can be set online", "statement": "After ds.patch_module(model), model.online() succeeds and sets the mode of every module of the model.", "quantifier": "every model", "why_tests_cant": "all trees of modules", "anchors": ["dreamstream/patches/general.py:patch_module", "dreamstream/patches/modes.py:online", "dreamstream/patches/modes.py:add_streaming_modes"]}
{"id": "C186", "title": "Whole files online give the output of the ordinary module", "statement": "If all sequences of a batch start and end in it, an online Conv1d gives for each of them what the ordinary Conv1d gives, and raises what it raises (README: the online train mode behaves like the standard offline mode).", "quantifier": "every convolution, buffer and zero-padded batch of whole files", "why_tests_cant": "all parameters, buffers and batches", "anchors": ["dreamstream/overrides.py:conv1d", "dreamstream/patches/conv.py:conv_1d_pre_hook", "dreamstream/patches/conv.py:conv_1d_post_hook"]}
{"id": "C187", "title": "Assigning to a part of a StreamTensor", "statement": "x[index] = value replaces exactly the entries that x[index] selects by the value, expanded as torch does, and keeps shape, names, metadata and all other entries; if it raises an exception, x is as before.", "quantifier": "every StreamTensor, index and value", "why_tests_cant": "all shapes, indices and values", "anchors": ["dreamstream/tensor.py:StreamTensor.default_valid", "dreamstream/tensor.py:StreamMetadata.__eq__"]}
{"id": "C188", "title": "Integer tensors without axes are indices like ints", "statement": "x[torch.tensor(i)], alone or in a tuple, gives what x[i] gives, as for ordinary tensors.", "quantifier": "every StreamTensor and index", "why_tests_cant": "all shapes and indices", "anchors": ["dreamstream/overrides.py:determine_dims_affected_by_indexing", "dreamstream/overrides.py:__getitem__"]}
{"id": "C189", "title": "Iterating over a StreamTensor", "statement": "for y in x gives x[0], x[1], ... with their names, metadata and entries.", "quantifier": "every StreamTensor", "why_tests_cant": "all shapes and metadata", "anchors": ["dreamstream/overrides.py:unbind", "dreamstream/overrides.py:__getitem__"]}
{"id": "C190", "title": "A running model can be copied", "statement": "copy.deepcopy of a patched model gives, at any time, a model with the same state, which continues the open streams as the original does.", "quantifier": "every model and history of calls", "why_tests_cant": "needs gradients, open streams and several layers", "anchors": ["dreamstream/patches/conv.py:patch_conv_1d", "dreamstream/patches/conv.py:conv_1d_post_hook", "dreamstream/patches/modes.py:add_streaming_modes", "dreamstream/overrides.py:conv1d"]}
{"id": "C191", "title": "A patched model can be saved as a whole and loaded", "statement": "torch.load after torch.save(model) (or pickle) gives back a patched model.", "quantifier": "every model", "why_tests_cant": "all trees of modules, patched as a whole or in parts", "anchors": ["dreamstream/patches/modes.py:add_streaming_modes", "dreamstream/patches/general.py:patch"]}
{"id": "C192", "title": "A running model can be moved to another device or precision", "statement": "After model.to(...), .half() or .double() between two online calls, the model accepts the next chunks of the open streams, given at the new device and precision.", "quantifier": "every model and history of calls and moves", "why_tests_cant": "needs several devices and streams that were last called before a move", "anchors": ["dreamstream/patches/conv.py:patch_conv_1d", "dreamstream/patches/conv.py:conv_1d_pre_hook", "dreamstream/overrides.py:conv1d"]}
{"id": "C193", "title": "Outputs can be taken out of the collector", "statement": "After a collected output has been taken out of an OutputCollector (pop, del or clear), nothing of it is left: a new stream with its id is collected as the first one was, and chunks that do not start are refused.", "quantifier": "every history of collected chunks and outputs taken out", "why_tests_cant": "all interleavings of chunks and removals", "anchors": ["dreamstream/data/data_objects.py:OutputCollector"]}
{"id": "C194", "title": "Threads with different streams do not disturb each other", "statement": "Several threads may call one online model at the same time, each with its own streams: for every interleaving, the calls of each thread have the outcomes, and leave the buffers of its streams, that they have when the thread runs alone.", "quantifier": "every stack of layers, number of threads, batches and interleaving", "why_tests_cant": "all interleavings of the operations on the buffers", "anchors": ["dreamstream/patches/conv.py:conv_1d_pre_hook", "dreamstream/patches/conv.py:conv_1d_post_hook", "dreamstream/overrides.py:conv1d"]}
{"id": "C195", "title": "Threads may collect different streams into one collector", "statement": "Several threads may update one OutputCollector at the same time, each with its own streams: for every interleaving, the calls of each thread have the outcomes, and the collector holds for its streams, what they have when the thread runs alone.", "quantifier": "every collector, number of threads, outputs and interleaving", "why_tests_cant": "all interleavings of the operations on the dictionary and the set of closed ids", "anchors": ["dreamstream/data/data_objects.py:OutputCollector"]}
{"id": "C196", "title": "A chunk that continues an unknown stream is refused", "statement": "An online Conv1d refuses a batch with a chunk that does not start, of a stream of which the module has seen nothing or which has ended.", "quantifier": "every convolution, buffer and batch", "why_tests_cant": "all buffers and batches with rows in different states", "anchors": ["dreamstream/patches/conv.py:conv_1d_pre_hook"]}
{"id": "C197", "title": "A checkpoint of a running model can be resumed", "statement": "A newly patched model with the state_dict of a running online model continues the streams as that model does.", "quantifier": "every model, history and batch", "why_tests_cant": "needs open streams at the time of saving", "anchors": ["dreamstream/patches/conv.py:patch_conv_1d", "dreamstream/patches/conv.py:conv_1d_pre_hook"]}
{"id": "C198", "title": "The numbers in a stream decide nothing but numbers", "statement": "Whether an online model raises an exception, and the metadata and sizes of its outputs, do not depend on the values in the frames and kernels; a map of frames that commutes with every layer (a gain, a sign) may be applied to the inputs or to the outputs.", "quantifier": "every stack of layers, buffers and batches", "why_tests_cant": "all frames and kernels", "anchors": ["dreamstream/overrides.py:conv1d", "dreamstream/patches/conv.py:conv_1d_pre_hook", "dreamstream/patches/conv.py:conv_1d_post_hook"]}
{"id": "C199", "title": "Convolutions on parts of the channels", "statement": "A module that splits the channels of its input, gives each part to a patched Conv1d of the same configuration and concatenates the results along channels gives, for every stream in chunks, what the ordinary module gives for the whole stream.", "quantifier": "every pair of convolutions and schedule", "why_tests_cant": "all schedules; parts with shared or own metadata", "anchors": ["dreamstream/overrides.py:conv1d", "dreamstream/overrides.py:split", "dreamstream/overrides.py:narrow", "dreamstream/overrides.py:cat", "dreamstream/patches/conv.py:conv_1d_pre_hook"]}
{"id": "C200", "title": "Branches with kernels of different widths", "statement": "Branches whose ordinary convolutions keep the length of every sequence, but have kernels of different widths, can be concatenated online as in the ordinary module (inception blocks).", "quantifier": "every pair of convolutions and schedule", "why_tests_cant": "needs streams in several chunks", "anchors": ["dreamstream/overrides.py:conv1d", "dreamstream/overrides.py:cat", "dreamstream/patches/conv.py:conv_1d_pre_hook"]}
{"id": "C201", "title": "align_to orders the axes by name and keeps the stream", "statement": "x.align_to(*names) gives the axes of x in the given order, an axis of size 1 for every other name, the entries at the same coordinates and the metadata of x; its batch and length axes hold the sequences of the metadata if those of x do.", "quantifier": "every StreamTensor and list of distinct names", "why_tests_cant": "all shapes, names and orders", "anchors": ["dreamstream/tensor.py:StreamTensor.default_valid", "dreamstream/func_coverage.py"]}
{"id": "C202", "title": "A stack gives every output as early as possible", "statement": "After any part of a stream, a stack of online Conv1d layers and pointwise functions has given exactly those outputs that depend on no later frame, with the values that they have however the stream goes on.", "quantifier": "every stack, schedule and continuation", "why_tests_cant": "composition over all layers and histories, quantified over the continuation", "anchors": ["dreamstream/overrides.py:conv1d", "dreamstream/patches/conv.py:conv_1d_pre_hook", "dreamstream/patches/conv.py:conv_1d_post_hook"]}
{"id": "C203", "title": "The order of the sequences in a batch does not matter", "statement": "If the rows of batches without repeated ids are reordered, an online model raises the same exceptions, gives the same rows in the given order, and has the same buffers afterwards.", "quantifier": "every stack of layers, buffers and schedule of batches with distinct ids", "why_tests_cant": "all orders and histories; compared for whole models with open streams", "anchors": ["dreamstream/overrides.py:conv1d", "dreamstream/patches/conv.py:conv_1d_pre_hook", "dreamstream/patches/conv.py:conv_1d_post_hook"]}
{"id": "C204", "title": "Ids only tell streams apart", "statement": "If the ids of all streams are renamed such that different ids stay different, and the chunk indices are changed in any way, an online model raises the same exceptions and gives the same frames under the new names.", "quantifier": "every stack of layers, injective renaming and schedule of batches with distinct ids", "why_tests_cant": "all renamings, chunk indices and histories", "anchors": ["dreamstream/overrides.py:conv1d", "dreamstream/patches/conv.py:conv_1d_pre_hook", "dreamstream/patches/conv.py:conv_1d_post_hook"]}
{"id": "C205", "title": "Superposition of streams", "statement": "A stack of online layers that respect an operation on frames, such as convolutions without bias and addition, gives for the streams combined frame by frame the outputs combined frame by frame, and raises the same exceptions.", "quantifier": "every operation with op(0, 0) = 0, stack of layers that respect it, and schedules of the same shape", "why_tests_cant": "all frames, histories and chunkings", "anchors": ["dreamstream/overrides.py:conv1d", "dreamstream/patches/conv.py:conv_1d_pre_hook", "dreamstream/patches/conv.py:conv_1d_post_hook"]}
{"id": "C206", "title": "A file that cannot be read costs only itself", "statement": "If reading a file raises an exception, the loader raises it, and everything that was read before, and all other files, are delivered.", "quantifier": "every dataset, order, batch size, drop_last, number of workers and overlapping_batches", "why_tests_cant": "all interleavings of files and positions of bad ones; generators that raise midway", "anchors": ["dreamstream/data/stream_dataset.py:AudioStreamDataset.process_data", "dreamstream/data/stream_dataset.py:AudioStreamDataset.get_streams", "dreamstream/data/stream_dataset.py:force_is_last_on_last_batch", "dreamstream/data/stream_dataset.py:make_streams_synchronous", "dreamstream/data/stream_dataset.py:MultiStreamDataLoader"]}
{"id": "C207", "title": "A file may be listed several times", "statement": "Batches consist only of different files (docstring of get_streams), and every file is delivered as often as it is listed, one copy after the other, with and without overlapping batches.", "quantifier": "every dataset, order with repetitions, batch size and overlapping_batches", "why_tests_cant": "all interleavings of copies of a file", "anchors": ["dreamstream/data/stream_dataset.py:AudioStreamDataset.get_streams", "dreamstream/data/stream_dataset.py:make_streams_synchronous"]}
{"id": "C208", "title": "The memory of collected outputs can be reused", "statement": "What an OutputCollector holds for a stream are the values that its chunks had when they were collected, whatever is written into their memory afterwards.", "quantifier": "every program of writes into memory and updates, with and without batch axis", "why_tests_cant": "all programs that reuse memory; views and copies made by the collector", "anchors": ["dreamstream/data/data_objects.py:OutputCollector.update", "dreamstream/data/data_objects.py:OutputCollector._update_unary", "dreamstream/tensor.py:StreamTensor.unpad_sequence"]}
{"id": "C209", "title": "The synchroniser's memory is bounded", "statement": "However many files a dataset has, make_streams_synchronous never holds more than (2B - 1) N samples in its buffers, where B is the batch size and N the largest number of chunks of a file.", "quantifier": "every dataset, order, number of workers and batch size; every stream whose files stay in consecutive batches", "why_tests_cant": "an invariant over all interleavings of files; the bound is attained", "anchors": ["dreamstream/data/stream_dataset.py:make_streams_synchronous", "dreamstream/data/stream_dataset.py:continue_buffering", "dreamstream/data/stream_dataset.py:MultiStreamDataLoader"]}
{"id": "C210", "title": "Functions that undo each other give the StreamTensor back", "statement": "permute and the inverse permutation, transpose twice, unsqueeze and squeeze, and split and torch.cat give back the shape, names, entries and metadata of a StreamTensor.", "quantifier": "every StreamTensor, permutation, axis (also negative) and split size", "why_tests_cant": "all shapes, names and positions; compositions of two overrides", "anchors": ["dreamstream/overrides.py:cat", "dreamstream/overrides.py:permute", "dreamstream/overrides.py:split", "dreamstream/overrides.py:squeeze", "dreamstream/overrides.py:unsqueeze"]}
{"id": "C211", "title": "A stream is not lost silently", "statement": "Whenever a function of a StreamTensor gives a tensor without metadata, the user gets to see a fallback warning, and only then.", "quantifier": "every program of calls of indexing, flatten, masked_select, scatter_add, scatter_reduce and decoupled functions, and every setting of the warning filters", "why_tests_cant": "all programs; what is shown depends on the whole history of warnings", "anchors": ["dreamstream/overrides.py:__getitem__", "dreamstream/overrides.py:flatten", "dreamstream/overrides.py:masked_select", "dreamstream/overrides.py:scatter_add", "dreamstream/overrides.py:scatter_reduce", "dreamstream/warnings.py:fallback_operation_warning", "dreamstream/tensor.py:decouple"]}
{"id": "C212", "title": "Files start in the order in which they arrive", "statement": "make_streams_synchronous delivers the first chunks of the files in the order in which they come in its stream: at any time the files that were started are the first ones that arrive, and in the end all were started.", "quantifier": "every well-formed stream of batches and number of steps", "why_tests_cant": "an invariant over the order of the dictionary of buffers, for all interleavings of files and also for runs that are stopped", "anchors": ["dreamstream/data/stream_dataset.py:make_streams_synchronous", "dreamstream/data/stream_dataset.py:continue_buffering"]}
{"id": "C213", "title": "A batch without sequences changes nothing", "statement": "A StreamTensor with no sequences passes through an online model whenever an ordinary tensor of its width passes through the ordinary model; the output has no sequences either, the streams that are open go on as if it had not been there, and collecting it changes nothing.", "quantifier": "every stack of layers, state of its buffers, width, schedule of batches and position in it", "why_tests_cant": "all models and histories; an edge case at any point of a schedule", "anchors": ["dreamstream/overrides.py:conv1d", "dreamstream/patches/conv.py:conv_1d_pre_hook", "dreamstream/patches/conv.py:conv_1d_post_hook", "dreamstream/data/data_objects.py:OutputCollector.update"]}
{"id": "C214", "title": "Files start in the order in which they are listed", "statement": "Without shuffling, the files of a dataset start in the order in which they are listed, from the dataset and from the loader.", "quantifier": "every dataset, list of files, batch size and numbers of chunks", "why_tests_cant": "all lists of files and interleavings of lanes", "anchors": ["dreamstream/data/stream_dataset.py:AudioStreamDataset.get_streams", "dreamstream/data/stream_dataset.py:AudioStreamDataset.split", "dreamstream/data/stream_dataset.py:partition_by_sum"]}
{"id": "C215", "title": "Shuffling can bring any two files together", "statement": "With shuffling and batches of at least two sequences, any two files of a dataset are in the first batch together for some shuffles.", "quantifier": "every dataset, pair of files, number of workers and batch size, and all shuffles", "why_tests_cant": "quantifies over all orders of the files; which files share a worker is decided before shuffling", "anchors": ["dreamstream/data/stream_dataset.py:AudioStreamDataset.split", "dreamstream/data/stream_dataset.py:AudioStreamDataset.get_streams", "dreamstream/data/stream_dataset.py:MultiStreamDataLoader"]}
{"id": "C216", "title": "A batch is delivered as soon as it has been read", "statement": "The loader without overlapping batches gives out its first batch when it has read the chunks in it, and every chunk it gives out can come from a file that is still being read.", "quantifier": "every stream of batches and every point at which reading it stops", "why_tests_cant": "all interleavings of files and all points of interruption; an invariant over the buffers", "anchors": ["dreamstream/data/stream_dataset.py:make_streams_synchronous", "dreamstream/data/stream_dataset.py:continue_buffering"]}
{"id": "C217", "title": "A damaged frame reaches only the outputs near it", "statement": "If two runs of an online model get the same chunks but for the values of some neighbouring frames of one stream, both are accepted, the outputs of this stream are equal but for those whose receptive field meets the damaged frames, and the outputs of all other streams are equal.", "quantifier": "every stack of layers, schedule of batches, and position and extent of the damage", "why_tests_cant": "all streams and histories: nothing of the damage may remain in a buffer or be lost with a restart", "anchors": ["dreamstream/overrides.py:conv1d", "dreamstream/patches/conv.py:conv_1d_pre_hook", "dreamstream/patches/conv.py:conv_1d_post_hook"]}
{"id": "C218", "title": "Infinite frames reach only the outputs that see them", "statement": "When frames are infinite, or a layer gives infinite outputs, an online model still accepts the same batches and gives for every stream the outputs of the ordinary model: zeroing the padding by multiplication, which makes NaN of infinities, does no harm.", "quantifier": "every stack of layers, schedule of batches and multiplication by zero", "why_tests_cant": "all models and histories; padding that is not zero travels through all later layers", "anchors": ["dreamstream/overrides.py:conv1d", "dreamstream/patches/conv.py:conv_1d_pre_hook", "dreamstream/patches/conv.py:conv_1d_post_hook"]}
{"id": "C219", "title": "Results do not depend on memory outside the arrays", "statement": "Indexing, selecting, narrowing, gathering, dropping empty sequences and unpadding give the same result whatever is stored in memory beside the arrays they work on.", "quantifier": "every StreamTensor or metadata, every index and every two contents of the memory beside the arrays", "why_tests_cant": "depends on the content of memory", "anchors": ["dreamstream/utils/numba.py:minmax", "dreamstream/tensor.py:StreamMetadata._index_length_list", "dreamstream/overrides.py:__getitem__", "dreamstream/overrides.py:index_select", "dreamstream/overrides.py:narrow", "dreamstream/overrides.py:select"]}
{"id": "C220", "title": "A collected stream is marked as ended when its end has been collected", "statement": "After the outputs of a stream have been collected, its entry is marked as end of sequence and its id is closed exactly if the last output collected was marked as end; chunks that come later are refused.", "quantifier": "every collection of streams without exceptions, in batches or one by one", "why_tests_cant": "all streams, batches and interleavings", "anchors": ["dreamstream/data/data_objects.py:OutputCollector.update", "dreamstream/data/data_objects.py:OutputCollector._update_unary"]}
{"id": "C221", "title": "The work of collecting is proportional to what is collected", "statement": "There is a constant such that collecting the chunks of any streams writes at most that many times the number of frames collected.", "quantifier": "every interleaving of well-formed streams", "why_tests_cant": "all streams and chunkings; a statement about growth", "anchors": ["dreamstream/data/data_objects.py:OutputCollector._update_unary"]}
{"id": "C222", "title": "Collating keeps every sample whole", "statement": "concatenate_ragged puts tensors that differ in size on one axis into one tensor with a batch axis in front, every tensor at its place with padding behind it; tensors that differ on another axis, and an axis that the tensors do not have, are refused.", "quantifier": "every list of tensors of any rank, sizes and entries, every axis counted from either end and every pad value", "why_tests_cant": "all ranks, sizes and axes; two transpositions have to undo each other around the padding", "anchors": ["dreamstream/data/stream_dataset.py:concatenate_ragged", "dreamstream/data/stream_dataset.py:StreamDataset.custom_collate"]}
{"id": "C223", "title": "The metadata of a collated batch describe it", "statement": "custom_collate gives a StreamTensor with a batch axis that has one position per sample and a length axis on which no sequence is longer than the data; each row holds the data and the metadata of its sample.", "quantifier": "every batch of samples of any rank and sizes, and any names of the dataset", "why_tests_cant": "all batches, ranks and names; sorting, padding and metadata have to agree on the order", "anchors": ["dreamstream/data/stream_dataset.py:AudioStreamDataset.custom_collate", "dreamstream/data/stream_dataset.py:concatenate_ragged", "dreamstream/tensor.py:as_stream_tensor"]}
{"id": "C224", "title": "Collected outputs are listed in the order in which their streams began", "statement": "Iterating over a collector gives every stream once, in the order in which their first chunks were collected, each with all of its frames; collecting more never moves an output that is listed, and taking one out keeps the order of the others.", "quantifier": "every sequence of updates, batches and single chunks, refused or not, and of outputs taken out", "why_tests_cant": "all interleavings; the order of the dictionary has to be kept through replacement of its values", "anchors": ["dreamstream/data/data_objects.py:OutputCollector.update", "dreamstream/data/data_objects.py:OutputCollector._update_unary"]}
{"id": "C225", "title": "Each file is opened once per iteration", "statement": "Iterating a dataset, alone or split among workers by the loader, opens each of its files exactly once, not before the first of its samples is about to be yielded; no file is opened twice even if iterating is given up or an exception is raised.", "quantifier": "every list of files, their contents, batch size and number of workers, with and without drop_last", "why_tests_cant": "all datasets and prefixes of iterations; files are read lazily in interleaved streams", "anchors": ["dreamstream/data/stream_dataset.py:AudioStreamDataset", "dreamstream/data/stream_dataset.py:AudioStreamDataset.process_data", "dreamstream/data/stream_dataset.py:AudioStreamDataset.split", "dreamstream/data/stream_dataset.py:MultiStreamDataLoader.__iter__"]}
{"id": "C226", "title": "Batches do not depend on how fast the workers are", "statement": "However the worker processes and the process that iterates take turns, the loader yields the same batches in the same order and ends in the same way; it never deadlocks, takes boundedly many steps, and no worker reads further ahead than prefetch_factor.", "quantifier": "every number of workers, what their datasets yield or raise, every prefetch factor of at least 1 and every schedule of the processes", "why_tests_cant": "all interleavings of concurrent processes", "anchors": ["dreamstream/data/stream_dataset.py:MultiStreamDataLoader.get_stream_loaders", "dreamstream/data/stream_dataset.py:MultiStreamDataLoader.__init__"]}
{"id": "C227", "title": "Running iterators are not disturbed", "statement": "An iterator of a dataset yields the batches of the dataset as it was when the iterator was made, whatever else is done meanwhile: using other iterators of the same dataset, or assigning to the dataset's attributes. The samples of one file are always cut with the same settings.", "quantifier": "every dataset and every program that makes iterators, calls next on them, assigns to attributes and changes files, in any order", "why_tests_cant": "all interleavings of iterators and assignments", "anchors": ["dreamstream/data/stream_dataset.py:AudioStreamDataset.get_streams", "dreamstream/data/stream_dataset.py:AudioStreamDataset.process_data", "dreamstream/data/stream_dataset.py:AudioStreamDataset.force_is_last_on_last_batch", "dreamstream/data/stream_dataset.py:AudioStreamDataset.__iter__"]}
{"id": "C228", "title": "Running iterators of a loader are not disturbed", "statement": "An iterator of a loader yields the batches that the loader would yield when the iterator was made, whatever is done meanwhile: using other iterators of the loader, assigning to attributes of the loader or of its dataset.", "quantifier": "every loader of one dataset and every program that makes iterators, calls next on them and assigns to attributes, in any order", "why_tests_cant": "all interleavings of iterators and assignments", "anchors": ["dreamstream/data/stream_dataset.py:MultiStreamDataLoader.get_stream_loaders", "dreamstream/data/stream_dataset.py:MultiStreamDataLoader.__iter__", "dreamstream/data/stream_dataset.py:MultiStreamDataLoader.__init__", "dreamstream/data/stream_dataset.py:AudioStreamDataset.split"]}
{"id": "C229", "title": "A patched model can be used for pass after pass", "statement": "After a pass in which every stream has ended, a patched model is as new: a second pass gives what a new model gives, and raises exactly what it raises. A collector, in contrast, is for one pass: it refuses a stream that it has seen.", "quantifier": "every stack of convolutions and pointwise functions, any number of passes, any batches and any reuse of ids within a pass", "why_tests_cant": "all stacks and histories of passes; buffers have to be released in every layer when streams end", "anchors": ["dreamstream/patches/conv.py:conv_1d_pre_hook", "dreamstream/patches/conv.py:conv_1d_post_hook", "dreamstream/data/data_objects.py:OutputCollector.update"]}
{"id": "C230", "title": "Streaming a dataset takes the memory of one batch", "statement": "While the batches of a loader are streamed through a patched model, its layers hold buffers for at most batch_size files, each shorter than the kernel of the layer, however many files there are and however long they are.", "quantifier": "every dataset, with or without drop_last, every number of workers, overlapping or not, every order of files, every stack of layers, after any number of batches", "why_tests_cant": "needs the loader's interleaving and the release of buffers in every layer, for datasets of any size", "anchors": ["dreamstream/patches/conv.py:conv_1d_pre_hook", "dreamstream/patches/conv.py:conv_1d_post_hook", "dreamstream/data/stream_dataset.py:MultiStreamDataLoader.get_stream_loaders"]}
{"id": "C231", "title": "The work of streaming does not grow with the stream", "statement": "A call of an online Conv1d evaluates its kernel, for each sequence of the batch, at most once per kernel position that starts within the width of the batch and the padding on both sides, however long its streams are already; so does every layer of a stack. A stream that is alone in its batches takes in total exactly as many evaluations as the ordinary convolution of the whole sequence.", "quantifier": "every valid configuration (stride up to the kernel width for the total), all batches before, every stack of convolutions and pointwise functions", "why_tests_cant": "needs the bound on the buffers as an invariant of all calls and the exactness of streaming", "anchors": ["dreamstream/patches/conv.py:conv_1d_pre_hook", "dreamstream/overrides.py:conv1d"]}
{"id": "C232", "title": "The batches of a loader are as wide as their chunks", "statement": "The data of a batch of a loader have as many frames as the longest chunk in it, so that its size depends on chunk_seconds and batch_size, not on the lengths of the files.", "quantifier": "every dataset and loader configuration", "why_tests_cant": "all files, chunk sizes, workers and orders", "anchors": ["dreamstream/data/stream_dataset.py:AudioStreamDataset.process_data", "dreamstream/data/stream_dataset.py:AudioStreamDataset.custom_collate", "dreamstream/data/stream_dataset.py:concatenate_ragged"]}
{"id": "C233", "title": "An epoch costs as much as its files", "statement": "Streaming the files of a dataset once through an online Conv1d evaluates its kernel in total as often as the ordinary convolution of the files; only the rows of a batch that are shorter than its longest chunk add to it.", "quantifier": "every dataset, chunk size, loader configuration without drop_last, and valid convolution", "why_tests_cant": "depends on the widths of all batches of an epoch, for all files and chunk sizes", "anchors": ["dreamstream/data/stream_dataset.py:AudioStreamDataset.process_data", "dreamstream/data/stream_dataset.py:AudioStreamDataset.custom_collate", "dreamstream/patches/conv.py:conv_1d_pre_hook", "dreamstream/overrides.py:conv1d"]}
