{
 "claims": [
  {
   "property": "C01",
   "status": "proved",
   "theorems": [
    "DS.Meta.C01_index_batch"
   ],
   "note": "C01_index_batch: C01. For every well-formed metadata object and every batch index of a supported kind, indexing raises exactly the required exception or returns exactly the selected rows, all columns together, in selection order."
  },
  {
   "property": "C02",
   "status": "partial",
   "theorems": [
    "DS.Meta.C02_bool_list_false",
    "DS.Meta.C02_bool_list_partial"
   ],
   "note": "C02_bool_list_false: C02 is false of the code. A list of bools of the batch size either raises or, when it is all `True`, silently returns wrong ids: every id of the result is the *second* id of the batch. || C02_bool_list_partial: C02, the error branch: with at least one `False` the constructor's length check fails (ValueError), or the id lookup (IndexError); such an index never succeeds. Missing: lists with a `False`, which are refused instead of selecting."
  },
  {
   "property": "C03",
   "status": "proved",
   "theorems": [
    "DS.Meta.C03_drop_empty"
   ],
   "note": "C03_drop_empty: C03. `drop_empty` keeps exactly the rows with positive length, in order."
  },
  {
   "property": "C04",
   "status": "partial",
   "theorems": [
    "DS.Tn.C04_drop_empty_one_false",
    "DS.Tn.C04_drop_empty_partial"
   ],
   "note": "C04_drop_empty_one_false: C04 is false of the code. If exactly one of two or more sequences holds data, `drop_empty` raises TypeError: `nonzero().squeeze()` is 0-d. || C04_drop_empty_partial: C04, the part that holds. For a batch with rows: `None` exactly if every sequence is empty; otherwise, unless exactly one of several sequences holds data, a StreamTensor with exactly the sequences that hold data, in order, with their metadata and data. Missing: exactly one non-empty sequence among several."
  },
  {
   "property": "C05",
   "status": "proved",
   "theorems": [
    "DS.Meta.C05_length_slice"
   ],
   "note": "C05_length_slice: C05. Unit-step length slices whose normalised bounds are in order: each row keeps the count of its data frames among the kept positions, sos iff frame 0 is kept, eos iff its last data frame is kept."
  },
  {
   "property": "C06",
   "status": "partial",
   "theorems": [
    "DS.Meta.C06_negative_length_false",
    "DS.Meta.C06_negative_length_partial"
   ],
   "note": "C06_negative_length_false: C06 is false of the code. An empty slice whose start lies beyond its stop gives negative lengths. || C06_negative_length_partial: C06, exact description: with normalised start beyond stop every row gets length `stop - start`, which is negative, whatever data it had. Missing: that lengths are never negative, which fails exactly here."
  },
  {
   "property": "C07",
   "status": "partial",
   "theorems": [
    "DS.Meta.C07_no_stop_partial",
    "DS.Meta.C07_strided_false",
    "DS.Meta.C07_strided_partial"
   ],
   "note": "C07_strided_false: C07 is false of the code. The stop of a strided slice is ignored: `x[..., 0:2:2]` of a row with five frames keeps frame 0 only but reports length 3. || C07_no_stop_partial: C07, exactly what the code does with every strided slice: rows are described as if the slice had no stop bound. Missing: the stop bound. || C07_strided_partial: C07 when the stop bound cuts nothing off (it is absent, or at or beyond the last position that the start and the step reach): lengths, sos and eos are as the property demands. Missing: any stop that excludes a position (what the code does then is `C07_no_stop_partial`)."
  },
  {
   "property": "C08",
   "status": "proved",
   "theorems": [
    "DS.Meta.C08_negative_step"
   ],
   "note": "C08_negative_step: C08. Negative steps along length raise NotImplementedError and step 0 raises ValueError, for every metadata object with at least one row."
  },
  {
   "property": "C09",
   "status": "proved",
   "theorems": [
    "DS.Meta.C09_length_int"
   ],
   "note": "C09_length_int: C09. An in-range integer `i` along length (negative counted from the longest row's end), naming frame `p`."
  },
  {
   "property": "C10",
   "status": "proved",
   "theorems": [
    "DS.Meta.C10_length_list"
   ],
   "note": "C10_length_list: C10. A non-empty list of in-range positions along length. If the positions (negative ones counted from the end) are non-decreasing, each row's length is its number of picked data positions, these are the leading positions of the result, and sos survives iff frame 0 was picked; otherwise IndexError i"
  },
  {
   "property": "C11",
   "status": "partial",
   "theorems": [
    "DS.Meta.C11_list_eos_false",
    "DS.Meta.C11_list_eos_partial"
   ],
   "note": "C11_list_eos_false: C11 is false of the code. Picking all three frames of an ending row of three frames loses its eos flag. || C11_list_eos_partial: C11, exact description of what the code keeps: eos survives iff some picked position holds data of the row and some picked position lies in the row's padding. So the last frame of the longest row never keeps its eos. Missing: the eos of rows without padding among the picked positions (`C11_list_eos_false`)."
  },
  {
   "property": "C12",
   "status": "proved",
   "theorems": [
    "DS.Meta.C12_length_mask"
   ],
   "note": "C12_length_mask: C12. A 1-D bool mask along length with a True entry is the ascending list of its True positions: same metadata, never an error. Lengths count the True positions that hold data, sos survives iff position 0 is True."
  },
  {
   "property": "C13",
   "status": "partial",
   "theorems": [
    "DS.Meta.C13_joint_false",
    "DS.Meta.C13_joint_full_partial",
    "DS.Meta.C13_joint_int_partial",
    "DS.Meta.C13_joint_list_partial",
    "DS.Meta.C13_joint_negative_partial",
    "DS.Meta.C13_joint_slice_partial"
   ],
   "note": "C13_joint_false: C13 is false of the code. `x[1:, -1]`: the negative index is resolved against the longest *selected* row (2 frames) while the data uses the tensor's length axis (4 frames), so padding is reported as data. || C13_joint_full_partial: C13, every spelling, when some selected row fills the length axis of `T` frames: integers, lists of positions in ascending order and unit-step slices with bounds in order, negative ones included. (For eos under a list see C11.) Missing: negative spellings when all selected rows are padded. || C13_joint_int_partial: C13 for a non-negative integer within the tensor's length axis. Missing: negative integers (`C13_joint_negative_partial`, `C13_joint_full_partial`). || C13_joint_list_partial: C13 for a sorted non-empty list of non-negative positions: lengths and sos (for eos see C11). Missing: negative positions (`C13_joint_full_partial`). || C13_joint_negative_partial: C13, negative integers, exactly: `i` is resolved against the longest selected row, of `n'` frames, and each row is described at position `n' + i`, wherever the data have it. So the rows are described right if the longest selected row fills the length axis. With `n' + i` before the first frame, every row, also an empty one, is said to have one frame. Missing: rows are not described at the position  || C13_joint_slice_partial: C13 for unit-step slices with non-negative bounds in order, on a tensor of `T` frames (possibly padded beyond its longest row), when some selected row has data: rows are selected and each keeps exactly what the positions kept by the slice say. Missing: negative bounds (`C13_joint_full_partial`), selections of empty rows only."
  },
  {
   "property": "C14",
   "status": "proved",
   "theorems": [
    "DS.Meta.C14_slices_compose"
   ],
   "note": "C14_slices_compose: C14. Successive unit-step slices with non-negative bounds compose, with equal metadata as result."
  },
  {
   "property": "C15",
   "status": "proved",
   "theorems": [
    "DS.Meta.C15_mask2d"
   ],
   "note": "C15_mask2d: C15. A 2-D mask of shape (batch, longest length) on metadata with positive lengths and no chunk indices keeps exactly the rows whose mask row has some `True`, in order; ids are kept, the new length is the number of `True` at data positions, and sos survives iff position 0 is kept."
  },
  {
   "property": "C16",
   "status": "proved",
   "theorems": [
    "DS.Meta.C16_cat_batch",
    "DS.Meta.C16_cat_batch_assoc"
   ],
   "note": "C16_cat_batch: C16. Concatenating along batch gives exactly the rows of the operands in order; chunk indices survive iff all operands have them. || C16_cat_batch_assoc: C16, associativity: concatenating the concatenations of two groups is concatenating everything."
  },
  {
   "property": "C17",
   "status": "proved",
   "theorems": [
    "DS.Meta.C17_split_batch_refuses",
    "DS.Meta.C17_split_batch_sections",
    "DS.Meta.C17_split_batch_size",
    "DS.Meta.C17_split_no_rows"
   ],
   "note": "C17_split_batch_refuses: C17. Sizes that are not positive are refused: 0 with ValueError, negative ones with RuntimeError. || C17_split_batch_sections: C17. Splitting by non-negative sections with the right sum: each piece has the size of its section and concatenating the pieces gives back the original. Sections with any other sum raise ValueError; a negative section with the right sum is an error of torch. || C17_split_batch_size: C17. Splitting by a positive chunk size: the pieces are consecutive runs of `k` rows (the last one possibly shorter, none empty), and concatenating them gives back the original. || C17_split_no_rows: C17, batches without rows: however large the pieces, there are none (where `torch.split` gives one without rows)."
  },
  {
   "property": "C18",
   "status": "proved",
   "theorems": [
    "DS.Meta.C18_unbind"
   ],
   "note": "C18_unbind: C18. Unbinding gives one object per sequence, the `i`-th consisting of row `i` alone; no object for metadata without sequences."
  },
  {
   "property": "C19",
   "status": "proved",
   "theorems": [
    "DS.Meta.C19_cat_length"
   ],
   "note": "C19_cat_length: C19. Concatenating two or more metadata objects along length succeeds exactly for consecutive chunks (ValueError otherwise); the result has the first's ids and sos, the last's eos, and the sum of lengths per row."
  },
  {
   "property": "C20",
   "status": "proved",
   "theorems": [
    "DS.Meta.C20_cat_length_assoc"
   ],
   "note": "C20_cat_length_assoc: C20. For concatenable chunks `as ++ bs`, concatenating the two groups separately and then together gives the same result as concatenating all at once."
  },
  {
   "property": "C21",
   "status": "proved",
   "theorems": [
    "DS.Meta.C21_split_length"
   ],
   "note": "C21_split_length: C21. Splitting along length by a positive chunk size, or by non-negative sections that cover the longest row. For every row: the pieces have the row's id and chunk index; their lengths are non-negative and add up; a piece is ending iff the row is and the piece holds the row's last data frame (it has"
  },
  {
   "property": "C22",
   "status": "proved",
   "theorems": [
    "DS.Meta.C22_split_cat"
   ],
   "note": "C22_split_cat: C22. When all rows have the same positive length, splitting by a positive chunk size (or positive sections with that sum) and concatenating the pieces along length gives back the original metadata."
  },
  {
   "property": "C23",
   "status": "partial",
   "theorems": [
    "DS.Meta.C23_ragged_false",
    "DS.Meta.C23_ragged_partial"
   ],
   "note": "C23_ragged_false: C23 is false of the code. Splitting a ragged batch puts the end of its short row into an earlier piece, which `cat_length` refuses. || C23_ragged_partial: C23, exactly when it holds: splitting and concatenating gives back the original iff every ending row reaches into the last piece. Missing: ending rows that do not reach into the last piece (`C23_ragged_false`)."
  },
  {
   "property": "C24",
   "status": "partial",
   "theorems": [
    "DS.Meta.C24_eq_false",
    "DS.Meta.C24_eq_partial"
   ],
   "note": "C24_eq_false: C24 is false of the code: comparing metadata that differ raises AttributeError when the left has no chunk indices; metadata with chunk indices are not equal to themselves; and unrelated metadata are \"equal\" when the chunk indices of one are the lengths of the other. || C24_eq_partial: C24, what holds, and the complete decision table: without chunk indices on either side, `==` is `True` for equal metadata and raises AttributeError otherwise (it never returns `False`); with no chunk indices on the left only, it raises; with chunk indices on the left, it is `True` iff these are the right side's lengths. Missing: chunk indices, which are compared with the wrong column or not at all"
  },
  {
   "property": "C25",
   "status": "proved",
   "theorems": [
    "DS.Cache.C25_caches",
    "DS.Cache.C25_columns",
    "DS.Cache.C25_masked"
   ],
   "note": "C25_caches: C25. After any history of assignments through the public attributes interleaved with reads, every summary read equals what the current columns say (RuntimeError for the minimum and maximum of an empty batch). || C25_columns: C25, the columns themselves: assignments store what they are given, `meta.starting_lengths += k` adds `k` to exactly the starting rows (`ending_lengths` likewise), each leaves the other columns alone, and reads change no column. || C25_masked: C25, assigning to `starting_lengths` and `ending_lengths`: one value goes to every row with the flag and to no other; as many values as there are such rows are read back from those rows in order, the others keeping theirs; any other number of values changes nothing."
  },
  {
   "property": "C26",
   "status": "partial",
   "theorems": [
    "DS.Cache.C26_element_write_false",
    "DS.Cache.C26_element_write_partial"
   ],
   "note": "C26_element_write_false: C26 is false of the code. After a read of `max_length`, an element write is not seen by the next read. || C26_element_write_partial: C26, what holds: element writes are reflected if the lengths were (re)assigned, or the object created, after the last read of a summary: for any history `pre`, an assignment of the whole column, then any operations except reads, the next reads are right. Missing: element writes after a read; see `C26_element_write_false`."
  },
  {
   "property": "C27",
   "status": "partial",
   "theorems": [
    "DS.Heap.C27_clone_false",
    "DS.Heap.C27_clone_partial"
   ],
   "note": "C27_clone_false: C27 is false of the code. A clone that has not been used yet reports later in-place changes of the original; and chunk indices are shared even after the clone was used. || C27_clone_partial: C27, what holds: (1) if the clone is used once before anything else happens, it reports the original's columns, and from then on, after any history of uses of both objects (in-place writes and assignments included), a use of one changes no sos, eos or length reported by the other. (2) Even before its first use, the clone is not affected by assignments to the original's attributes. Missing: in-plac"
  },
  {
   "property": "C28",
   "status": "partial",
   "theorems": [
    "DS.Lazy.C28_invalid_false",
    "DS.Lazy.C28_invalid_partial",
    "DS.Lazy.C28_valid_partial"
   ],
   "note": "C28_invalid_false: C28 is false of the code: the second use raises AttributeError, and assigning to an attribute succeeds the second time. || C28_invalid_partial: C28, what holds: the first use of invalid metadata raises ValueError and every later read raises (AttributeError) until something is assigned. Missing: the exception class on later uses and assignments; see `C28_invalid_false`. || C28_valid_partial: C28, the other half: valid metadata report exactly the columns they were given. Missing: invalid metadata, which are reported only on the first use (`C28_invalid_false`)."
  },
  {
   "property": "C29",
   "status": "proved",
   "theorems": [
    "DS.Meta.C29_closure"
   ],
   "note": "C29_closure: C29. From well-formed objects, every object produced by any history of indexing (by batch, by length, jointly, by 2-D mask), dropping empty rows, splitting, unbinding and concatenation has equally long columns (chunk indices included)."
  },
  {
   "property": "C30",
   "status": "partial",
   "theorems": [
    "DS.Repr.C30_repr_false",
    "DS.Repr.C30_repr_partial"
   ],
   "note": "C30_repr_false: C30 is false of the code: a batch with a single id of more than 80 characters cannot be printed. || C30_repr_partial: C30, exactly when `repr` works: it raises (IndexError) iff the batch is a single id of more than 80 characters. `rep` is any function that never shortens its argument, as Python's `repr` of a string. Missing: a single long id (`C30_repr_false`)."
  },
  {
   "property": "C31",
   "status": "proved",
   "theorems": [
    "DS.Tn.C31_cat_length",
    "DS.Tn.C31_cat_length_accepts"
   ],
   "note": "C31_cat_length: C31. Concatenation of two or more operands along length, at least one of them a StreamTensor (with rows), length being the same axis `l` of all of them and batch the same axis `b`: (1) if a StreamTensor other than the last operand is padded, NotImplementedError; (2) if the call succeeds, the result  || C31_cat_length_accepts: C31, when it succeeds: torch accepts the data, no operand but the last is padded, and the StreamTensors are consecutive chunks (or there is just one). If there are several that are not consecutive, ValueError."
  },
  {
   "property": "C32",
   "status": "partial",
   "theorems": [
    "DS.Tn.C32_cat_feature_exact_partial",
    "DS.Tn.C32_cat_feature_false",
    "DS.Tn.C32_cat_feature_partial",
    "DS.Tn.C32_cat_feature_self_false"
   ],
   "note": "C32_cat_feature_false: C32 is false of the code. The last operand is never compared: with two operands, completely different metadata are accepted. || C32_cat_feature_self_false: With chunk indices that differ from the lengths, equal metadata are refused. || C32_cat_feature_exact_partial: C32, exactly, for StreamTensors with or without chunk indices. All operands but the last, the first included, are compared with the first: if all pass (`Looks`) the call is torch's concatenation with the first's metadata; otherwise the first one that does not pass decides: AttributeError without chunk indices, ValueError with. Missing: the last operand is not compared; with chunk indices, passing  || C32_cat_feature_partial: C32, the part that holds. Two or more StreamTensors without chunk indices, along an axis that is batch or length of none of them: if some operand other than the last has other metadata than the first, AttributeError is raised (before the data are touched); otherwise the call is torch's concatenation with the first's metadata. Missing: the last operand's metadata are not checked; chunk indices (`C3"
  },
  {
   "property": "C33",
   "status": "proved",
   "theorems": [
    "DS.Tn.C33_cat_batch",
    "DS.Tn.C33_cat_batch_plain",
    "DS.Tn.C33_cat_single"
   ],
   "note": "C33_cat_batch: C33. Two or more StreamTensors with equal names and equal sizes on all axes but batch, concatenated along batch (any spelling of the axis): the result has the operands' metadata rows in order, the operands' names, a batch axis of the summed sizes, and the data of each operand at its offset. || C33_cat_batch_plain: C33, plain operands: a plain tensor among the operands raises ValueError when some StreamTensor operand has batch on the axis. || C33_cat_single: C33, a single operand: the operand itself, along any axis."
  },
  {
   "property": "C34",
   "status": "proved",
   "theorems": [
    "DS.Tn.C34_permute"
   ],
   "note": "C34_permute: C34. Permuting with any spelling of a permutation of the axes (`ds` are the axes that `dims` name): output axis `j` has name and size of input axis `dims[j]`, the entry at the permuted multi-index is the input's entry, metadata are unchanged."
  },
  {
   "property": "C35",
   "status": "partial",
   "theorems": [
    "DS.Tn.C35_adjoint_partial",
    "DS.Tn.C35_adjoint_refused",
    "DS.Tn.C35_method_partial",
    "DS.Tn.C35_torch_transpose_false",
    "DS.Tn.C35_torch_transpose_partial"
   ],
   "note": "C35_torch_transpose_false: C35 is false of the code. `torch.transpose` swaps the data of the axes and leaves the names where they were: a batch of two sequences of three frames comes out with three rows named `B`, carrying the metadata of two. || C35_adjoint_partial: C35, adjoint. `torch.adjoint` is `torch.transpose` of the last two axes, names and all. Missing: `torch.transpose` itself moves the names wrongly on most tensors (`C35_torch_transpose_false`), hence `torch.adjoint` too. || C35_method_partial: The method `x.transpose(i, j)` (not `torch.transpose`) carries names along with axes. Missing: the function `torch.transpose` (`C35_torch_transpose_false`). || C35_torch_transpose_partial: C35, the part that holds. `torch.transpose` moves sizes and data, keeps names in their old positions and metadata unchanged. So the names are right exactly if the two axes have the same name, that is, if they are the same axis or both unnamed. Missing: all other cases, where the names are wrong. (`torch.adjoint` is the case of the last two axes, see `C35_adjoint_partial`.)"
  },
  {
   "property": "C36",
   "status": "partial",
   "theorems": [
    "DS.Tn.C36_unsqueeze_false",
    "DS.Tn.C36_unsqueeze_partial",
    "DS.Tn.C36_unsqueeze_wrong_partial"
   ],
   "note": "C36_unsqueeze_false: C36 is false of the code. A negative axis puts the unnamed axis one place too early in the names: `x.unsqueeze(-1)` of a `(B, L)` tensor names the length axis `None` and the new axis `L`. || C36_unsqueeze_partial: C36, the part that holds. `a` is the position of the new axis among the axes of the result; `d` is its spelling. If `d` is not negative, or names the very first position, the new axis is unnamed and every other axis keeps its name, size and data. Missing: the other negative spellings, where the names are `C36_unsqueeze_wrong_partial`. || C36_unsqueeze_wrong_partial: What a negative spelling does when it does not name the first position: the new axis is put at position `a` of the data and at position `a - 1` of the names, so the names are right only if the axis before it was unnamed as well. Missing: nothing for these axes; it describes what is wrong."
  },
  {
   "property": "C37",
   "status": "partial",
   "theorems": [
    "DS.Tn.C37_squeeze_all_partial",
    "DS.Tn.C37_squeeze_all_raises_partial",
    "DS.Tn.C37_squeeze_dim_partial",
    "DS.Tn.C37_squeeze_false"
   ],
   "note": "C37_squeeze_false: C37 is false of the code. `x.squeeze()` removes every unnamed axis from the names as soon as one unnamed axis has size 1, and then fails. || C37_squeeze_all_partial: C37 without an axis, the part that holds. If no unnamed axis of size 1 stands beside an unnamed axis of another size, `x.squeeze()` removes exactly the axes of size 1, each with its own name. Missing: the other tensors, for which the call raises RuntimeError (`C37_squeeze_all_raises_partial`). || C37_squeeze_all_raises_partial: The remaining tensors: an unnamed axis of size 1 beside an unnamed axis of another size always raises RuntimeError. Missing: the names that the property asks for; the call raises instead. || C37_squeeze_dim_partial: C37 for a given axis (`a` is the axis that `d` names): an axis of size 1 disappears with its name, all others keep name, size and data; an axis of another size is left alone. Missing: squeezing all axes at once (`C37_squeeze_false`)."
  },
  {
   "property": "C38",
   "status": "partial",
   "theorems": [
    "DS.Tn.C38_flatten_clash_partial",
    "DS.Tn.C38_flatten_fallback_partial",
    "DS.Tn.C38_flatten_last_false",
    "DS.Tn.C38_flatten_stream_partial",
    "DS.Tn.C38_flatten_unnamed_partial"
   ],
   "note": "C38_flatten_last_false: C38 is false of the code. With `end_dim=-1`, the default, flatten of any tensor with at least one axis raises RuntimeError, whatever `start_dim`. || C38_flatten_clash_partial: C38, a joined name that is taken. If the name joined from the merged axes is that of another axis, flatten raises RuntimeError. Missing: a result; torch itself raises only for a name that the caller has chosen. || C38_flatten_fallback_partial: C38, the part that holds (fallback). For every other spelling of `end_dim`: if the merged range contains batch or length the result is a plain, unnamed tensor with the entries in row-major order. Missing: `end_dim=-1`. || C38_flatten_stream_partial: C38, the part that holds (stream). For every other spelling of `end_dim`: if the merged range contains neither batch nor length, its axes are all named `ns` and the joined name is new, the result is a StreamTensor whose merged axis has the joined name, all other names, sizes and the metadata being in place, and whose data are merged in row-major order. Missing: `end_dim=-1`; unnamed axes in the ra || C38_flatten_unnamed_partial: An unnamed axis in a merged range without batch or length raises TypeError (`\"_\".join` of `None`). Missing: a result; torch itself flattens such axes."
  },
  {
   "property": "C39",
   "status": "partial",
   "theorems": [
    "DS.Tn.C39_narrow_batch_partial",
    "DS.Tn.C39_narrow_length_negative_partial",
    "DS.Tn.C39_narrow_length_partial",
    "DS.Tn.C39_narrow_negative_false",
    "DS.Tn.C39_narrow_other_partial"
   ],
   "note": "C39_narrow_negative_false: C39 is false of the code. Narrowing the batch to its last `n` rows with a negative start (`x.narrow(batch, -n, n)`) returns `n` rows of data with no metadata rows at all: the metadata are sliced by `[-n:0]`. || C39_narrow_batch_partial: C39, batch, the part that holds. A non-negative start, or a negative start whose end is before the end of the batch: exactly the kept rows, with their metadata. `s` is the first kept row. Missing: a negative start with the range reaching the end (`C39_narrow_negative_false`). || C39_narrow_length_negative_partial: C39, length, negative starts, exactly. `w` is the size of the axis, `n` the longest sequence. The range is looked for `n` frames from the end instead of `w`; if it ends at the last frame, `[start:0]` is taken, and the lengths are not positive. Missing: for such starts the lengths are right only if the range ends before the axis does and `n = w`. || C39_narrow_length_partial: C39, length, the part that holds. A non-negative start, or a negative start whose end is before the end of an axis without padding beyond the longest sequence (`n = w`): every row's valid frames are the kept ones among its valid frames; ids and chunk indices stay; a row with data keeps sos iff its first frame is kept and eos iff its last frame is. `s` is the first kept frame, `w` the size of the a || C39_narrow_other_partial: C39, any other axis: the metadata stay. Missing: negative spellings of batch and length (`C39_narrow_negative_false`)."
  },
  {
   "property": "C40",
   "status": "partial",
   "theorems": [
    "DS.Tn.C40_index_select_batch_partial",
    "DS.Tn.C40_index_select_length_partial",
    "DS.Tn.C40_index_select_negative_false",
    "DS.Tn.C40_index_select_other_partial",
    "DS.Tn.C40_index_select_zero_partial",
    "DS.Tn.C40_out_of_range_partial"
   ],
   "note": "C40_index_select_negative_false: C40 is false of the code. For every negative spelling of the axis the metadata are those of the whole tensor, also on batch and length: the axis is compared with the non-negative positions of batch and length. || C40_index_select_batch_partial: C40, batch, the part that holds. The non-negative spelling of the batch axis with a 1-D index: the selected rows with their metadata. Missing: negative spellings (`C40_index_select_negative_false`) and 0-d indices (`C40_index_select_zero_partial`). || C40_index_select_length_partial: C40, length, the part that holds. The non-negative spelling of the length axis with a non-empty 1-D index: if its positions are in ascending order, every row's valid frames are the picked ones among its valid frames, ids and chunk indices stay, sos survives iff frame 0 was picked, and eos survives iff a valid frame and a frame of the padding were picked (C11); otherwise IndexError. (For the empty  || C40_index_select_other_partial: C40, any other axis: the metadata stay. Missing: negative spellings of batch and length (`C40_index_select_negative_false`). || C40_index_select_zero_partial: C40, 0-d indices: torch accepts them, the override raises TypeError on batch and IndexError on length. Missing: a result; the call is refused. || C40_out_of_range_partial: C40: positions outside the axis (also negative ones, which `torch.index_select` does not count from the end) are refused with an IndexError, whatever the axis and its spelling. Missing: negative spellings of the axes batch and length for indices in range (`C40_index_select_negative_false`)."
  },
  {
   "property": "C41",
   "status": "proved",
   "theorems": [
    "DS.Tn.C41_select",
    "DS.Tn.C41_select_result"
   ],
   "note": "C41_select: C41. `select` on either spelling of an axis is the integer index at that axis. || C41_select_result: C41, spelled out: the axis disappears from names and shape, the data are those at position `p`, and the metadata are those of the integer index on batch or length, unchanged for another axis."
  },
  {
   "property": "C42",
   "status": "proved",
   "theorems": [
    "DS.Tn.C42_ellipsis"
   ],
   "note": "C42_ellipsis: C42. One Ellipsis in an index tuple means: as many full slices as it takes to index every axis. Whatever else is in the tuple (ints, slices, lists, `None`), the two spellings give the same result or the same exception."
  },
  {
   "property": "C43",
   "status": "proved",
   "theorems": [
    "DS.Tn.C43_getitem",
    "DS.Tn.C43_getitem_bare",
    "DS.Tn.C43_getitem_refuses"
   ],
   "note": "C43_getitem: C43. An index tuple of ints, slices and at most one index list, tensor or mask, as far as torch accepts it (`t'` is torch's result): the result's names are the names of the axes not indexed by an int, in order, and the metadata are indexed by exactly the entries at the batch and length axes (an axis || C43_getitem_bare: C43, a single index is a tuple of one. || C43_getitem_refuses: C43, what torch refuses is refused with torch's exception."
  },
  {
   "property": "C44",
   "status": "partial",
   "theorems": [
    "DS.Tn.C44_none_bare_partial",
    "DS.Tn.C44_none_false",
    "DS.Tn.C44_none_names_false",
    "DS.Tn.C44_none_partial"
   ],
   "note": "C44_none_false: C44 is false of the code. `x[:, None, 0]` takes feature 0 of a `(B, F, L)` tensor and adds an axis; the metadata are indexed at frame 0 of the length axis instead: every sequence is now said to be one frame long while the data keep all frames. || C44_none_names_false: C44 is false of the code, names: a new axis before a full slice makes the indexing fail, `x[:, None, :]`. || C44_none_bare_partial: C44, the part that holds. `x[None]`. Missing: `None` together with other entries (`C44_none_false`). || C44_none_partial: C44, the part that holds. `None`s after all other entries of the tuple: unnamed axes appear after the indexed ones, the other names and the metadata are those without the `None`s. Missing: `None`s before other entries (`C44_none_false`)."
  },
  {
   "property": "C45",
   "status": "partial",
   "theorems": [
    "DS.Tn.C45_gather_empty_false",
    "DS.Tn.C45_gather_empty_partial",
    "DS.Tn.C45_gather_partial",
    "DS.Tn.C45_gather_refuses_partial"
   ],
   "note": "C45_gather_empty_false: C45 is false of the code. An index with no rows and fewer frames than the tensor: torch returns an empty tensor, the override raises RuntimeError, because the longest of no sequences is asked for. || C45_gather_empty_partial: C45, the remaining indices: without rows and narrower than the tensor, RuntimeError. Missing: an empty StreamTensor. || C45_gather_partial: C45, the part that holds. Gathering along an axis other than batch and length, with an index that has at least one row or the full width: the data are torch's, the metadata are those of the leading rows, each cut to the leading frames (`LeadRow`). `rb`, `wl` are the index's sizes on batch and length. Missing: an index without rows that is narrower than the tensor (`C45_gather_empty_false`, `C45_ga || C45_gather_refuses_partial: C45, the refusal: along batch or length IndexError, for either spelling of the axis. Missing: a result with metadata along these axes."
  },
  {
   "property": "C46",
   "status": "partial",
   "theorems": [
    "DS.Tn.C46_recouple_accepts_false",
    "DS.Tn.C46_recouple_exact_partial",
    "DS.Tn.C46_recouple_partial",
    "DS.Tn.C46_recouple_torch_error",
    "DS.Tn.C46_recouple_unequal_false"
   ],
   "note": "C46_recouple_accepts_false: C46 is false of the code. Metadata of different sequences are taken for equal when the chunk indices of the second equal the lengths of the first: the result silently has the first's metadata. || C46_recouple_unequal_false: C46 is false of the code. Different metadata without chunk indices raise AttributeError, not RuntimeError. || C46_recouple_exact_partial: C46, exactly, for all StreamTensors. If the metadata of all others pass for the first's (`Looks`), the result has the first's metadata, and RuntimeError is raised if names differ. Otherwise the first one whose metadata do not pass decides: AttributeError if it has no chunk indices, RuntimeError if it has. In default-valid functions the same holds with the names that torch gives. Missing: with chun || C46_recouple_partial: C46, the part that holds. For StreamTensors without chunk indices (the first may have them): if metadata and names are all equal, the result is what the torch function returns, with the common names and metadata; if the metadata are equal but some names differ, RuntimeError; if some metadata differ, AttributeError (the property asks for RuntimeError). Missing: chunk indices (`C46_recouple_exact_pa"
  },
  {
   "property": "C47",
   "status": "partial",
   "theorems": [
    "DS.Tn.C47_kwargs_false",
    "DS.Tn.C47_kwargs_partial"
   ],
   "note": "C47_kwargs_false: C47 is false of the code. Functions in `VALID_FUNCTIONS` never receive keyword arguments. || C47_kwargs_partial: C47, the part that holds. In every other category the function receives every keyword argument given, in order, its value unchanged or decoupled. Missing: valid functions."
  },
  {
   "property": "C48",
   "status": "proved",
   "theorems": [
    "DS.Tn.C48_unbind_batch",
    "DS.Tn.C48_unbind_length",
    "DS.Tn.C48_unbind_other"
   ],
   "note": "C48_unbind_batch: C48, batch axis: one tensor per row, in order, holding that row's metadata and that row's data; the batch axis is gone from the names. || C48_unbind_length: C48, length axis: ValueError, for every spelling of the axis. || C48_unbind_other: C48, any other axis: one tensor per position, each with the whole metadata."
  },
  {
   "property": "C49",
   "status": "partial",
   "theorems": [
    "DS.Tn.C49_no_axes",
    "DS.Tn.C49_pad_empty_false",
    "DS.Tn.C49_pad_full_partial",
    "DS.Tn.C49_pad_stream_names_false",
    "DS.Tn.C49_pad_stream_partial",
    "DS.Tn.C49_pad_unpad_partial"
   ],
   "note": "C49_pad_empty_false: C49 is false of the code. An empty sequence padded as a full sequence (starting and ending) comes back neither starting nor ending. || C49_pad_stream_names_false: C49 is false of the code, `pad_stream_tensor`: only the names of the first sequence are looked at. Of two sequences with the same sizes and the axes in different order, the second comes back with its features as frames: entry (frame 0, feature 1) of the second sequence, which is `[0, 1]` in it, comes back as `[1, 0]`. || C49_pad_full_partial: C49, the part that holds, `pad_full_sequence`: it is `pad_chunks` with every sequence starting and ending, and `pad_chunks` refuses names with a batch axis or without a length axis. Missing: empty lists (`C49_pad_empty_false`). || C49_pad_stream_partial: C49, the part that holds, `pad_stream_tensor`: StreamTensors without batch axis, each with one row of metadata, all with the same names, is `pad_chunks` of their data with their ids and flags. Chunk indices are not passed on. Missing: sequences whose axes are in different order (`C49_pad_stream_names_false`). || C49_pad_unpad_partial: C49, the part that holds. Sequences of one rank with a length axis `a` and equal sizes on the other axes: padding succeeds, every frame of the result beyond a sequence's length is zero, the lengths are the sequences' lengths; unpadding the result gives the sequences back, in order, with the length axis moved to the front, with their ids and, for sequences that have frames, the flags. Missing: the "
  },
  {
   "property": "C50",
   "status": "proved",
   "theorems": [
    "DS.Tn.C50_refused",
    "DS.Tn.C50_sequence_mask"
   ],
   "note": "C50_refused: C50, what is refused. A mask of negative width, be it given or the largest length, and a mask for no lengths at all without a width are RuntimeErrors. || C50_sequence_mask: C50. For a batch of lengths whose largest is `n`, with `max_len` a number of frames or `None`: the mask has one row per length and `T` columns, `T` being `max_len` or, if that is `None` or 0, the largest length; entry `(i, j)` is `j < lens[i]`, complemented when inverted."
  },
  {
   "property": "C51",
   "status": "proved",
   "theorems": [
    "DS.Conv.C51_streaming"
   ],
   "note": "C51_streaming: C51. A sequence fed to an online `Conv1d` in any chunking (no call raising) gives, concatenated, exactly what the same module gives in offline mode for the whole sequence."
  },
  {
   "property": "C52",
   "status": "partial",
   "theorems": [
    "DS.Conv.C52_clear_partial",
    "DS.Conv.C52_gap_partial",
    "DS.Conv.C52_large_stride_false",
    "DS.Conv.C52_large_stride_partial"
   ],
   "note": "C52_large_stride_false: C52 is false of the code. With a stride beyond the kernel width (kernel 1, stride 2) feeding two frames one at a time gives two outputs, offline gives one. || C52_clear_partial: C52, where it holds: for every stride, a complete sequence none of whose chunks (but the last) ends inside a gap gives its offline output; in particular one that arrives in a single chunk, and every sequence if the stride is at most the kernel width. Missing: sequences with a chunk that ends inside a gap. || C52_gap_partial: C52, the failure in closed form: when the one chunk that ends inside a gap is followed by the rest of the sequence, the outputs after it are those of the rest alone, while offline the frames up to the next kernel position are skipped first. Missing: the equality with the offline output, which fails as described. || C52_large_stride_partial: C52, exactly: for every stride and schedule (no call raising), the outputs of each complete sequence are those of a convolution that starts over after every chunk that ends inside a gap between two kernel positions; likewise for a sequence in progress. Missing: the offline output, which would skip the frames from such a boundary to the next kernel position."
  },
  {
   "property": "C53",
   "status": "proved",
   "theorems": [
    "DS.Conv.C53_schedule",
    "DS.Conv.C53_unpadded"
   ],
   "note": "C53_schedule: C53. Whatever the streams are batched with: if no call raises, then each stream's outputs are, chunk by chunk with the same flags, the offline outputs of its complete sequences, followed by the outputs due for a sequence in progress. || C53_unpadded: C53, without padding and with strides up to the kernel width: batches of any kind, in particular with empty first or last chunks next to other rows, as long as no id is used for a second sequence. The frames emitted for a stream are what the ordinary convolution gives for the frames received, whethe"
  },
  {
   "property": "C54",
   "status": "proved",
   "theorems": [
    "DS.Conv.C54_earliest"
   ],
   "note": "C54_earliest: C54. After any prefix of a stream the outputs emitted so far are exactly the offline outputs (of the sequence however it continues) at those kernel positions that lie within the start padding and the frames received so far."
  },
  {
   "property": "C55",
   "status": "proved",
   "theorems": [
    "DS.Conv.C55_buffer_small"
   ],
   "note": "C55_buffer_small: C55. Whatever an online convolution is fed with, each buffer is shorter than the kernel."
  },
  {
   "property": "C56",
   "status": "proved",
   "theorems": [
    "DS.Conv.C56_open_streams"
   ],
   "note": "C56_open_streams: C56. After any schedule a `Conv1d` with kernel width > 1 holds a buffer for exactly those ids whose latest chunk was not the last one of its sequence."
  },
  {
   "property": "C57",
   "status": "proved",
   "theorems": [
    "DS.Conv.C57_lengths",
    "DS.Conv.C57_zero"
   ],
   "note": "C57_lengths: C57, lengths: for a zero-padded batch in any schedule, each row's output length is the number of kernel positions that fit in what the kernel sees of it (start padding or buffered frames, the chunk, end padding), and its valid outputs are the kernel at these positions. || C57_zero: C57, zeros: at and beyond a row's output length the output is zero, for every input and module state."
  },
  {
   "property": "C58",
   "status": "partial",
   "theorems": [
    "DS.Conv.C58_no_raise_partial",
    "DS.Conv.C58_short_chunk_false",
    "DS.Conv.C58_short_chunk_partial",
    "DS.Conv.C58_stack_lengths_partial",
    "DS.Conv.C58_stack_needed_partial",
    "DS.Conv.C58_stack_partial",
    "DS.Conv.C58_starts_partial",
    "DS.Conv.C58_tail_false"
   ],
   "note": "C58_short_chunk_false: C58 is false of the code. A first chunk of one frame for a kernel of three raises RuntimeError (from torch). || C58_tail_false: C58 is false of the code, also behind a first chunk in which the kernel fits: with a stride of two, a kernel of three frames leaves one frame of the first three, and a last chunk of one frame raises RuntimeError (with a stride of one it is accepted: `C58_starts_partial`). || C58_no_raise_partial: C58 and C59, a whole run: if every batch holds a chunk at least as long as the kernel and no chunk is empty, no call raises. Missing: batches all of whose chunks are shorter than the kernel (`C58_short_chunk_false`). || C58_short_chunk_partial: C58, exactly: after any schedule and with stride below the kernel width, the next batch is accepted iff the kernel fits in what it sees of at least one row. Missing from C58: batches where it fits in none (they raise RuntimeError); strides equal to the kernel width (C59). || C58_stack_lengths_partial: C58, stacks without padding, by the lengths of the chunks. If every stream starts with a chunk long enough for one output of the stack, and each later chunk has at least as many frames as the stack takes for one more output, no call raises, whatever the batches are and hold besides. Missing: shorter chunks (conditions on the calls are in `C58_stack_partial` and `C58_stack_needed_partial`); strides || C58_stack_needed_partial: C58, stacks without padding, calls that raise. If the stack has a convolution and the batches are no wider than their longest chunks, a sequence of calls in which some call has no new output for any of its streams raises: whatever runs through gives a new output in every call. Missing: acceptance of such calls. || C58_stack_partial: C58, stacks without padding. For strides below the kernel widths and streams of one sequence each, in batches of any kind and with chunks of any length: no call raises if in every call the ordinary stack has a new output for at least one stream of the batch, and all streams of the batch start, or none is new, or one of them has already given the last layer a frame. The outputs are then right by `C || C58_starts_partial: C58 and C59, chunks shorter than the kernel: they do no harm behind the first chunk of their sequence. If the kernel fits in the first chunk of every sequence with the padding before it, and every chunk has at least a stride of frames, no call raises. Missing: first chunks in which the kernel does not fit (`C58_short_chunk_false`); chunks shorter than a stride; strides equal to the kernel width (C"
  },
  {
   "property": "C59",
   "status": "partial",
   "theorems": [
    "DS.Conv.C59_exact_partial",
    "DS.Conv.C59_mixed_false",
    "DS.Conv.C59_mixed_partial",
    "DS.Conv.C59_stack_false"
   ],
   "note": "C59_mixed_false: C59 is false of the code. With kernel 2 and stride 2 the buffer of `a` is present but empty; next to the starting `b`, which has none, all lengths are 0, so the hook stacks and `torch.stack` meets `None`: TypeError. || C59_stack_false: C59 is false of the code, in stacks with strides below the kernel widths too. The second call raises TypeError, in the second convolution, although there are new outputs: nothing is held for `b`, and there is no entry for `c`. || C59_exact_partial: C58 and C59, exactly: for every stride and after any schedule, the next batch raises TypeError iff (for a kernel wider than one frame) it holds a chunk that starts and chunks that continue, all of the latter with an empty buffer. Otherwise it is accepted iff the kernel fits in what it sees of at least one row, and raises RuntimeError if not. Missing from C58 and C59: both cases in which it raises. || C59_mixed_partial: C59, what holds: with a stride below the kernel width and no empty chunks, no batch raises TypeError. Missing: stride equal to the kernel width."
  },
  {
   "property": "C60",
   "status": "partial",
   "theorems": [
    "DS.Conv.C60_lost_partial",
    "DS.Conv.C60_overpadded_false",
    "DS.Conv.C60_overpadded_partial"
   ],
   "note": "C60_overpadded_false: C60 is false of the code. All rows start, none ends, one more padding frame than needed: with padding 1 nothing is added on the left, so the start padding is missing and the outputs differ. With padding 2 the call even raises AssertionError. || C60_lost_partial: C60, the case that is missing: the module pads, all rows start, not all end, and the batch is wider than each row with its end padding. If some row would be longer than the batch with its start padding too, the call raises AssertionError. Otherwise the start padding is put behind the frames instead of in front, in the outputs and in the buffer. Missing: the result of the batch without padding, whi || C60_overpadded_partial: C60, what holds: extra padding frames change neither any row's output nor any buffer, unless the module pads, all rows of the batch start, not all end, and the batch is wider than each row (with its end padding if it ends). Missing: that case (see `C60_lost_partial`)."
  },
  {
   "property": "C61",
   "status": "partial",
   "theorems": [
    "DS.Conv.C61_metadata_false",
    "DS.Conv.C61_metadata_partial"
   ],
   "note": "C61_metadata_false: C61 is false of the code. The lengths of the caller's StreamTensor become the output lengths. || C61_metadata_partial: C61, what holds, for every input and module state: ids, start and end flags and chunk indices of the argument never change; if the kernel is wider than 1 and some row does not start its stream, nothing changes. In all other cases (missing) the argument has the metadata of the output afterwards. Missing: the other cases (`C61_metadata_false`)."
  },
  {
   "property": "C62",
   "status": "partial",
   "theorems": [
    "DS.Conv.C62_chain_false",
    "DS.Conv.C62_chain_partial",
    "DS.Conv.C62_chain_single_partial",
    "DS.Conv.C62_padded_first_partial",
    "DS.Conv.C62_unpadded_again_false",
    "DS.Conv.C62_unpadded_partial"
   ],
   "note": "C62_chain_false: C62 is false of the code. The first layer has no output yet for the first chunk of `b`, so the second layer receives an empty row marked as start next to a row of `a`; the mark is lost and with it the second layer's start padding. || C62_unpadded_again_false: C62 is false of the code, also without padding, if an id is used again. The end of the first sequence of `a` is not seen, so that its last frames stay in the buffer and are put in front of the second sequence. || C62_chain_partial: C62 for every schedule in which no layer gets an empty first or last chunk next to other rows, and no chunk that ends inside a gap (there are gaps only if the stride exceeds the kernel width; see C52). Missing: such batches (see `C62_chain_false`); calls that raise (C58, C59). || C62_chain_single_partial: C62 for strides up to the kernel widths and batches of one chunk each, any number of streams taking turns in any order: no further condition. Missing: several chunks in a batch (`C62_chain_false`). || C62_padded_first_partial: C62, padded layers first. If the layers up to some point get only batches in which empty first or last chunks come alone, and the layers after it have no padding and strides up to their kernel widths, every stream, whose id is used for one sequence, becomes what the ordinary stack gives. Missing: empty first or last chunks next to other rows in front of a padded layer (`C62_chain_false`). || C62_unpadded_partial: C62, stacks without padding, with strides up to the kernel widths and any pointwise functions between them (also with `f 0 ≠ 0`, C113): batches of any kind, so that any layer may get empty first or last chunks next to other rows, as long as no id is used for a second sequence. At every moment the frames emitted for a stream are what the ordinary stack gives for the frames received. Missing: paddin"
  },
  {
   "property": "C63",
   "status": "proved",
   "theorems": [
    "DS.Conv.C63_modes"
   ],
   "note": "C63_modes: C63. Online modules reject plain tensors and offline modules StreamTensors, with RuntimeError; an offline call on a plain tensor is torch's convolution with torch's padding and leaves the buffers alone; a call that raises leaves them alone too (there is no new state)."
  },
  {
   "property": "C64",
   "status": "proved",
   "theorems": [
    "DS.Modes.C64_history",
    "DS.Modes.C64_online"
   ],
   "note": "C64_history: C64, histories: after any history of mode switches (including refused ones) and a last accepted one, every module has that mode. || C64_online: C64. On a tree whose modules all have the methods, `online(mode)` with a bool raises nothing, sets `streaming` of every module in the tree, and changes nothing else; `offline()` is `online(False)`; a non-bool raises ValueError and changes nothing."
  },
  {
   "property": "C65",
   "status": "proved",
   "theorems": [
    "DS.Modes.C65_patch",
    "DS.Modes.C65_refused"
   ],
   "note": "C65_patch: C65. `patch` raises NotImplementedError iff some module of the tree has an unsupported type, and nothing else. If it does not raise, every module in the tree has the mode methods and is offline, every `Conv1d` has empty stream buffers and one more hook pair for each place in the tree where it occurs || C65_refused: C65. What a refused `patch` leaves behind. The modules are visited children first. All modules before the first unsupported one, and that one too, have the mode methods and are offline, and their `Conv1d` modules have empty stream buffers and one more hook pair for each visit. Every other object, so"
  },
  {
   "property": "C66",
   "status": "partial",
   "theorems": [
    "DS.Modes.C66_twice_false",
    "DS.Modes.C66_twice_partial"
   ],
   "note": "C66_twice_false: C66 is false of the code. Patching twice registers the hooks twice; then an online call that works after one `patch` raises TypeError. || C66_twice_partial: C66, what holds: the second `patch` changes only the number of hooks of `Conv1d` modules (it also empties their buffers, as the first does), and offline calls do not depend on that number. Missing: online calls, which always raise with two hook pairs."
  },
  {
   "property": "C67",
   "status": "proved",
   "theorems": [
    "DS.Coll.C67_reassemble"
   ],
   "note": "C67_reassemble: C67. Any interleaving of well-formed chunk streams, in batches or one by one, is collected without an exception; afterwards the collector holds, for exactly the ids that occurred, all frames of the stream in order. If no chunk of a stream was empty, its entry has the metadata of the chunks put toget"
  },
  {
   "property": "C68",
   "status": "proved",
   "theorems": [
    "DS.Coll.C68_batch",
    "DS.Coll.C68_refuse",
    "DS.Coll.C68_streams"
   ],
   "note": "C68_batch: C68, batches: the rows of a batch that have frames are collected one by one as above, stopping at the first refusal; in particular a batch of one non-empty row is treated like that row alone. || C68_refuse: C68, single chunks: in every reachable state, a chunk for a closed id, a first chunk for a known id, a further chunk for an unknown id, and a chunk with (without) index for an entry without (with) index raise ValueError; every other chunk is accepted. || C68_streams: C68 (streams). Any zero-padded batches at all, with or without chunk indices, fed to a new collector one after the other: it accepts all of them if and only if for every id the chunks that have frames are a stream (the first of them and no other has the start flag, only the last may have the end fla"
  },
  {
   "property": "C69",
   "status": "partial",
   "theorems": [
    "DS.Coll.C69_no_batch_axis",
    "DS.Coll.C69_unchanged_false",
    "DS.Coll.C69_unchanged_partial"
   ],
   "note": "C69_unchanged_false: C69 is false of the code. A refused chunk that claims to be first (for a known id) and last closes the id all the same, so the stream's real next chunk is refused too. || C69_unchanged_partial: C69, what holds, in every state (reachable or not): a refused chunk changes no entry, closes no other id, and changes nothing at all unless it is marked as end. Missing: refused chunks marked as end close their id."
  },
  {
   "property": "C70",
   "status": "partial",
   "theorems": [
    "DS.Coll.C70_empty_first_false",
    "DS.Coll.C70_empty_first_partial",
    "DS.Coll.C70_exact_partial"
   ],
   "note": "C70_empty_first_false: C70 is false of the code. The empty first chunk is skipped, so the next one is refused as not being the first. || C70_empty_first_partial: C70, what holds: chunks without a batch axis are never skipped, so any streams of such chunks, empty or not, are collected. Missing: empty first rows of batches. || C70_exact_partial: C70, exactly: zero-padded batches of well-formed streams are collected if and only if the first chunk of every stream has frames or none of its chunks has; otherwise a ValueError is raised. What is collected are all frames of every stream that has any, and nothing for the streams without frames. Missing: streams with frames whose first chunk has none, for which the property fails."
  },
  {
   "property": "C71",
   "status": "proved",
   "theorems": [
    "DS.Data.C71_exclusive",
    "DS.Data.C71_none",
    "DS.Data.C71_partition"
   ],
   "note": "C71_exclusive: `partition_by_sum` refuses to shuffle and sort (C71 excludes it). || C71_none: `partition_by_sum` raises for no partitions and at least one value (C71 needs `n ≥ 1`). || C71_partition: C71: the indices of the `n` partitions together are a permutation of all positions, and the values are those at the indices (whatever order the indices are visited in)."
  },
  {
   "property": "C72",
   "status": "proved",
   "theorems": [
    "DS.Data.C72_balanced",
    "DS.Data.C72_largest"
   ],
   "note": "C72_balanced: C72: for non-negative values, none larger than `M`, the sums of any two partitions differ by at most `M`, for every visiting order. || C72_largest: C72: the largest value itself bounds the difference as soon as there is a value."
  },
  {
   "property": "C73",
   "status": "proved",
   "theorems": [
    "DS.Data.C73_empty_file",
    "DS.Data.C73_process",
    "DS.Data.C73_process_plain",
    "DS.Data.C73_round",
    "DS.Data.C73_tiles"
   ],
   "note": "C73_empty_file: An empty file raises ZeroDivisionError (C73 needs a positive file length). || C73_process: C73 for `process_data`: whenever the frames after the transform exist and the rounded chunk size is positive. || C73_process_plain: C73 without a transform: the chunk size is `round(chunk_seconds * sample_rate)`. || C73_round: C73, rounding: the chunk size is the nearest integer, the even one if there are two. || C73_tiles: C73: a file of `L ≥ 1` frames cut into chunks of `c ≥ 1` frames gives ⌈L/c⌉ samples; the `k`-th has chunk index `k` and covers the frames `k*c .. min((k+1)*c, L)`, which are at least one; only the first starts, only the last ends; the lengths add up to `L`."
  },
  {
   "property": "C74",
   "status": "partial",
   "theorems": [
    "DS.Data.C74_false",
    "DS.Data.C74_partial"
   ],
   "note": "C74_false: C74 is false: every sample carries the whole file (`data=audio`), so a file of two chunks is delivered twice. || C74_partial: C74, what holds: every sample's data is the whole audio (so the concatenation is right exactly for files of one chunk); the recorded lengths do delimit the chunks (C73). Missing: the samples do not carry their own chunk."
  },
  {
   "property": "C75",
   "status": "proved",
   "theorems": [
    "DS.Data.C75_dataset",
    "DS.Data.C75_exactly_once"
   ],
   "note": "C75_dataset: C75 for datasets: whenever `process_data` succeeds on every file with positive chunk size. || C75_exactly_once: C75: without `drop_last`, for distinct files in any (shuffled) order and any batch size, the batches together hold every file's samples exactly once and in order and nothing else; no batch is empty, exceeds the batch size or holds a file twice; batches never grow."
  },
  {
   "property": "C76",
   "status": "proved",
   "theorems": [
    "DS.Data.C76_full_and_ended",
    "DS.Data.C76_no_batch"
   ],
   "note": "C76_full_and_ended: C76: with `drop_last`, every batch that is delivered has exactly `b` samples, and every file of which a sample is delivered has a sample that ends it. (Files may repeat.) || C76_no_batch: With `drop_last`, iterating raises RuntimeError exactly when there is no full batch, i.e. when there are fewer files than batch elements."
  },
  {
   "property": "C77",
   "status": "partial",
   "theorems": [
    "DS.Data.C77_exact_partial",
    "DS.Data.C77_false",
    "DS.Data.C77_one_worker_partial",
    "DS.Data.C77_partial"
   ],
   "note": "C77_false: C77 is false with two workers: the worker with more batches is cut off without an end of stream. || C77_exact_partial: C77, exactly when it holds. For workers with different files: every file in the output of the loader is ended iff the first batches of every worker, as many as the worker with the fewest has, end the files they start. Missing: an end for the files that a worker with more batches has not ended by then. || C77_one_worker_partial: C77 for one worker: the loader's output is the dataset's stream, in which every file is ended. Missing: several workers (`C77_false`). || C77_partial: C77, what holds: if every worker's stream ends all its files (C76) and all streams have the same number of batches, in particular with one worker, then every file in the merged output is ended. Missing: workers with different numbers of batches (`C77_exact_partial`)."
  },
  {
   "property": "C78",
   "status": "proved",
   "theorems": [
    "DS.Data.C78_split",
    "DS.Data.C78_zero_batch"
   ],
   "note": "C78_split: C78: `split(n, batch_size)` raises ValueError iff `n ≤ 0` or `n` does not divide `batch_size`; otherwise it returns `n` datasets whose file lists together are a permutation of the files and whose batch sizes add up to `batch_size`. || C78_zero_batch: The hypothesis `batch_size ≥ 1` of C78 matters: a batch size of 0 passes the divisibility check and fails an assertion."
  },
  {
   "property": "C79",
   "status": "proved",
   "theorems": [
    "DS.Data.C79_duplicate_in_first_batch",
    "DS.Data.C79_empty",
    "DS.Data.C79_empty_first_batch",
    "DS.Data.C79_loses_nothing"
   ],
   "note": "C79_duplicate_in_first_batch: The hypothesis that the first batch holds no file twice matters: one of two samples of a file in the first batch is lost. || C79_empty: C79: an empty stream raises RuntimeError (`StopIteration` inside a generator). || C79_empty_first_batch: The hypothesis on the first batch matters: if it is empty the generator loops for ever without yielding. || C79_loses_nothing: C79: on every well-formed stream the generator terminates without error and yields every file's samples exactly once and in order."
  },
  {
   "property": "C80",
   "status": "proved",
   "theorems": [
    "DS.Data.C80_synchronous"
   ],
   "note": "C80_synchronous: C80: whatever a completed run yields is synchronous, with batches no larger than the first input batch."
  },
  {
   "property": "C81",
   "status": "proved",
   "theorems": [
    "DS.Data.C81_groups_full"
   ],
   "note": "C81_groups_full: C81: all groups but possibly the last have the size of the first input batch."
  },
  {
   "property": "C82",
   "status": "proved",
   "theorems": [
    "DS.Data.C82_delivers_all",
    "DS.Data.C82_no_files"
   ],
   "note": "C82_delivers_all: C82: without `drop_last` the loader delivers every file's samples exactly once and in order and nothing else, for every number of workers that divides the batch size, every argsort and shuffle order, with overlapping batches or without. || C82_no_files: The hypothesis of C82 that there is a file matters: with no files the synchronising loader raises RuntimeError, the overlapping one yields nothing."
  },
  {
   "property": "C83",
   "status": "proved",
   "theorems": [
    "DS.Data.C83_collate",
    "DS.Data.C83_empty"
   ],
   "note": "C83_collate: C83: collation of a non-empty batch succeeds; the rows are the samples in stable order of decreasing length; row `k` of the data is the `k`-th sample's data, padded at the end to a common width, and row `k` of the metadata is that of the same sample. || C83_empty: Collating an empty batch raises IndexError (C83 needs a non-empty batch)."
  },
  {
   "property": "C84",
   "status": "partial",
   "theorems": [
    "DS.Data.C84_false",
    "DS.Data.C84_partial"
   ],
   "note": "C84_false: C84 is false: without `collate_fn` the local variable gets the default but `self.collate_fn` stays `None`, so the first batch raises TypeError. || C84_partial: C84, what holds: a given collate function is applied to every batch; without one every batch raises. Missing: a default."
  },
  {
   "property": "C85",
   "status": "partial",
   "theorems": [
    "DS.Meta.C85_tuple_false",
    "DS.Meta.C85_tuple_partial"
   ],
   "note": "C85_tuple_false: C85 is false of the code. A tuple of in-range positions never selects rows: it raises, except for the empty tuple on an empty batch. || C85_tuple_partial: C85, the part that holds. The empty tuple on an empty batch selects no rows. Missing: everything else, by `C85_tuple_false`."
  },
  {
   "property": "C86",
   "status": "partial",
   "theorems": [
    "DS.Meta.C86_empty_selection_false",
    "DS.Meta.C86_empty_selection_partial"
   ],
   "note": "C86_empty_selection_false: C86 is false of the code. `minmax` of an empty list reads an element that does not exist; if that memory holds 0, a starting row stays \"starting\" although nothing of it was kept. || C86_empty_selection_partial: C86: the lengths are 0, ids and chunk indices are kept and eos is False whatever is read; sos is False unless the unchecked read happens to give 0. Missing: sos is False in that case."
  },
  {
   "property": "C87",
   "status": "partial",
   "theorems": [
    "DS.Meta.C87_mask2d_eos_false",
    "DS.Meta.C87_mask2d_eos_partial"
   ],
   "note": "C87_mask2d_eos_false: C87 is false of the code, three ways: a row of length 1 loses its eos under the all-`True` mask; a row keeps eos although no data frame of it is kept; and dropping any row raises IndexError when there are chunk indices. || C87_mask2d_eos_partial: C87, what holds: without chunk indices, or when every row is kept, the rows of the result are exactly the kept rows with their chunk index, and eos survives iff some kept position is at or beyond the last data frame and not (the row has length 1 and its frame is kept). Missing: the second clause of C87 and rows of length 1; see `C87_mask2d_eos_false`."
  },
  {
   "property": "C88",
   "status": "partial",
   "theorems": [
    "DS.Heap.C88_index_partial",
    "DS.Heap.C88_none_partial",
    "DS.Heap.C88_slice_false",
    "DS.Heap.C88_values_partial"
   ],
   "note": "C88_slice_false: C88 is false of the code. A batch slice shares storage with its source: an in-place write (such as `sub.starting_lengths += 1`) on the slice changes the source. || C88_index_partial: C88, what holds: metadata obtained with an int, a list, an integer tensor or a mask share nothing with their source: indexing changes nothing the source reports, and after any history of uses of both, a use of one changes no column reported by the other. Missing: slices (`C88_slice_false`); for `None` see `C88_none_partial`. || C88_none_partial: C88 for the index `None`, what holds: the result is a clone; once it was used it reports the source's columns, and from then on, after any history of uses of both, a use of one changes no sos, eos or length reported by the other. Missing: what is missing for clones (`C27_clone_false`). || C88_values_partial: C88 (and C27), the two models agree: the object that `index_batch` gives on the heap holds the columns that `index_batch` gives for values (C1), and nothing that was held before has changed. Missing: tuples and 0-d tensors, which raise for values (C85), and objects without chunk indices."
  },
  {
   "property": "C89",
   "status": "partial",
   "theorems": [
    "DS.Tn.C89_index_again_false",
    "DS.Tn.C89_index_again_partial",
    "DS.Tn.C89_witness_false"
   ],
   "note": "C89_index_again_false: C89 is false of the code. Once the batch or the length axis was selected away, nothing between the brackets works any more: whatever torch and the name analysis would accept, the override raises ValueError because it looks for both names. || C89_witness_false: C89, witness: `x[0][1]` raises ValueError, `x[0, 1]` works. || C89_index_again_partial: C89, the part that holds. After one entry of a feature axis was selected, both names are still there: the result is described by its metadata, which are those of the source, and can be indexed again like any described tensor (C43). Missing: selecting an entry of the batch or of the length axis."
  },
  {
   "property": "C90",
   "status": "partial",
   "theorems": [
    "DS.Conv.C90_chunk_indices_false",
    "DS.Conv.C90_chunk_indices_partial"
   ],
   "note": "C90_chunk_indices_false: C90 is false of the code. In the mixed batch of the example schedule the chunk indices are dropped. || C90_chunk_indices_partial: C90, exactly, for every input and module state: the output has the input's chunk indices, except that they are dropped when the batch is buffered row by row (some row does not start, and the buffers differ in length). Missing: batches buffered row by row (`C90_chunk_indices_false`)."
  },
  {
   "property": "C91",
   "status": "partial",
   "theorems": [
    "DS.Tn.C91_self_false",
    "DS.Tn.C91_self_partial"
   ],
   "note": "C91_self_false: C91 is false of the code. A StreamTensor with chunk indices that differ from its lengths cannot be combined with itself: RuntimeError, in recoupled and in default-valid functions. || C91_self_partial: C91, the part that holds. Without chunk indices, a StreamTensor can be combined with itself and with tensors of equal metadata and names, in recoupled and in default-valid functions, any number of times. Missing: chunk indices."
  },
  {
   "property": "C92",
   "status": "partial",
   "theorems": [
    "DS.Tn.C92_take_along_broadcast_false",
    "DS.Tn.C92_take_along_exact_partial",
    "DS.Tn.C92_take_along_partial",
    "DS.Tn.C92_take_along_refused_partial"
   ],
   "note": "C92_take_along_broadcast_false: C92 is false of the code. An index of one row is broadcast over the batch: `n` rows of data, one row of metadata. || C92_take_along_exact_partial: C92, exactly, for every index that torch broadcasts, except those without rows. `n`, `w` are the tensor's rows and frames, `rb`, `wl` the index's. The data have the broadcast sizes, the metadata describe the first `rb` rows (or all `n` if there are fewer) and `wl` frames. So the number of rows is right exactly if `rb = n`, or `n = 1` and `rb ≤ 1`; and a row's length is right, as far as the data ha || C92_take_along_partial: C92, the part that holds. If the index has the tensor's own sizes on batch and length, the metadata are the tensor's and there are as many data rows as metadata rows. Missing: indices that are broadcast over, or broadcast, the batch or length axis (`C92_take_along_exact_partial`). || C92_take_along_refused_partial: C92, refusals: an index of another rank, or one that differs from the tensor on another axis where neither has size 1, is refused with torch's RuntimeError, whatever the metadata. Missing: out-of-range values in the index."
  },
  {
   "property": "C93",
   "status": "partial",
   "theorems": [
    "DS.Tn.C93_scatter_exact_partial",
    "DS.Tn.C93_scatter_metadata_false",
    "DS.Tn.C93_scatter_negative_false",
    "DS.Tn.C93_scatter_partial"
   ],
   "note": "C93_scatter_metadata_false: C93 is false of the code. Different metadata without chunk indices raise AttributeError; a single StreamTensor with chunk indices falls back to a plain tensor although all its metadata are equal. || C93_scatter_negative_false: C93 is false of the code. Scattering along batch spelled as a negative axis gives a StreamTensor. || C93_scatter_exact_partial: C93, exactly, for every axis and all StreamTensors. A negative axis is never taken for batch or length. Unless the axis is the non-negative position of batch or length, the metadata are compared with the first's, the first's with itself included: all pass (`Looks`): a StreamTensor with the first's names and metadata; otherwise the first one that does not pass decides: AttributeError without chunk  || C93_scatter_partial: C93, the part that holds. For a non-negative axis `a` and StreamTensors with the same metadata without chunk indices: along batch or length a plain tensor, along any other axis a StreamTensor with the first's names and the common metadata. Missing: negative axes (on batch or length), chunk indices, and different metadata (`C93_scatter_exact_partial`)."
  },
  {
   "property": "C94",
   "status": "partial",
   "theorems": [
    "DS.Data.C94_false",
    "DS.Data.C94_partial"
   ],
   "note": "C94_false: C94 is false: `split` drops `names`, and file lengths that were given to the constructor are read again from disk. || C94_partial: C94, what holds: the parts keep `chunk_seconds` and the transform; their names are always `None`; and if the dataset's lengths come from file metadata, every part keeps the lengths of its files. Missing: names, and lengths given to the constructor."
  },
  {
   "property": "C95",
   "status": "partial",
   "theorems": [
    "DS.Tn.C95_unpad_empty_false",
    "DS.Tn.C95_unpad_partial"
   ],
   "note": "C95_unpad_empty_false: C95 is false of the code. The tensor of a row of length 0 is neither starting nor ending, whatever the row said. || C95_unpad_partial: C95, the part that holds. One tensor per row, in order, without the batch axis, holding exactly the row's valid frames and, for a row that has frames, exactly the row's metadata. Missing: the flags of rows of length 0."
  },
  {
   "property": "C96",
   "status": "partial",
   "theorems": [
    "DS.Conv.C96_flush_false",
    "DS.Conv.C96_flush_partial",
    "DS.Conv.C96_ragged_partial"
   ],
   "note": "C96_flush_false: C96 is false of the code. The row of `a` is narrowed to length 0, which drops its eos flag: its end padding is not added, its last output is missing, and its buffer stays. || C96_flush_partial: C96, what holds: after any schedule, in a batch whose rows have equally long buffers (a single row, in particular), an empty last chunk of a started stream emits the outputs that remain in the buffer followed by the end padding, keeps its eos flag, and its buffer is forgotten. Missing: batches whose rows have buffers of different lengths. || C96_ragged_partial: C96, the other batches: after any schedule, in a batch whose rows have buffers of different lengths, the flags of empty chunks are not seen. The empty last chunk of a started stream gives no outputs, its row is not marked as the end, and the buffer stays as it was. Missing: the outputs that remain, the flag, and forgetting the buffer."
  },
  {
   "property": "C97",
   "status": "partial",
   "theorems": [
    "DS.Coll.C97_collect_false",
    "DS.Coll.C97_collect_partial",
    "DS.Coll.C97_exact_partial",
    "DS.Coll.C97_indices_false",
    "DS.Coll.C97_indices_partial"
   ],
   "note": "C97_collect_false: C97 is false of the code. A schedule that runs through without an exception, but where the first output of `b` is empty: the collector skips it and then refuses the rest of `b`. || C97_indices_false: C97 is false of the code, with chunk indices, as the datasets give them: the schedule has an index on every chunk and no call raises, but the output of the mixed batch has lost its indices (C90), and the collector refuses to append it to the output before. Without the indices the same schedule is collected. || C97_collect_partial: C97, what holds: over any schedule of batches without chunk indices in which every stream is one complete sequence, if no convolution call raises and each stream's first output is not empty, the collector accepts everything. For each stream it then holds the offline output if the stride is at most the kernel width or if no chunk but the last ends inside a gap; in general it holds the convolution t || C97_exact_partial: C97, exactly: over any schedule of batches without chunk indices in which every stream is one complete sequence, if no convolution call raises, the collector accepts the outputs if and only if the first output of every stream has frames or none of its outputs has; otherwise it raises a ValueError. If it accepts, it holds for each stream the convolution that starts over after each chunk that ends i || C97_indices_partial: C97, exactly, with or without chunk indices: over any schedule in which every stream is one complete sequence, if no convolution call raises, the collector accepts the outputs if and only if for every stream the first output has frames or none of its outputs has, and of its outputs that have frames all or none have chunk indices; otherwise it raises a ValueError. If it accepts, it holds for each s"
  },
  {
   "property": "C98",
   "status": "partial",
   "theorems": [
    "DS.Tn.C98_no_rows_partial",
    "DS.Tn.C98_refused_partial",
    "DS.Tn.C98_split_length_partial",
    "DS.Tn.C98_split_no_rows_false",
    "DS.Tn.C98_zero_false",
    "DS.Tn.C98_zero_partial"
   ],
   "note": "C98_split_no_rows_false: C98 is false of the code for a batch without rows: torch splits the data, the longest of no sequences is asked for and RuntimeError raised. || C98_zero_false: C98 is false of the code for pieces of size 0 of a batch without frames. || C98_no_rows_partial: C98, batches without rows. Every split along length raises RuntimeError, those included that torch accepts. Missing: the empty pieces that torch gives. || C98_refused_partial: C98, arguments that torch refuses. Whatever the axis: RuntimeError. Missing: the arguments that torch accepts (`C98_split_length_partial`, `C98_zero_partial`). || C98_split_length_partial: C98, the part that holds. For a batch with rows, every spelling of the length axis and every argument that torch accepts: each piece has the names and ids of `x` and metadata that describe its data, and for every row the valid frames of the pieces, concatenated in order, are the valid frames of `x`. (If `x` is padded beyond its longest sequence, pieces of pure padding are dropped.) Missing: batche || C98_zero_partial: C98, pieces of size 0 of an empty tensor. torch gives one empty piece; of a batch with rows but no frames ZeroDivisionError is raised. Missing: that piece."
  },
  {
   "property": "C99",
   "status": "proved",
   "theorems": [
    "DS.Data.C99_worker_ids"
   ],
   "note": "C99_worker_ids: C99: with `n ≥ 1` workers the ids passed to `worker_init_fn` are 0, …, n-1, each once; without workers it is not called."
  },
  {
   "property": "C100",
   "status": "partial",
   "theorems": [
    "DS.Modes.C100_exact_partial",
    "DS.Modes.C100_refused_partial",
    "DS.Modes.C100_subclass_false",
    "DS.Modes.C100_subclass_partial"
   ],
   "note": "C100_subclass_false: C100 is false of the code. An instance of a subclass of `Conv1d` is accepted by `patch` but gets no hooks: fed in two chunks online it does not see the last frame of the first chunk, so an output is missing. || C100_exact_partial: C100, exactly. An instance of a subclass of `Conv1d` is called without hooks on every batch. If all batches are accepted, the outputs of a stream are those of its chunks one by one, each convolved on its own with the padding at the ends of the stream. Missing: outputs whose kernel positions lie across the borders of chunks. || C100_refused_partial: C100, what is refused. A call without hooks on a tight batch raises RuntimeError exactly when no chunk, with its padding, is as long as the kernel. Missing: the frames of such chunks, which an ordinary online `Conv1d` would add to the buffer's. || C100_subclass_partial: C100, the part that holds. An instance of a subclass that looks at one frame at a time (kernel width 1) and does not skip frames needs no buffer: called directly on each batch of any schedule, it gives every stream its offline output. Missing: wider kernels (`C100_subclass_false`; exactly which subclasses are right: `C100_exact_partial`)."
  },
  {
   "property": "C101",
   "status": "partial",
   "theorems": [
    "DS.Modes.C101_shared_false",
    "DS.Modes.C101_shared_partial"
   ],
   "note": "C101_shared_false: C101 is false of the code. A `Conv1d` object used in two places of a model gets two hook pairs from a single `patch`, so that no online call of it succeeds. || C101_shared_partial: C101, what holds: in a tree where every module occurs once, each fresh `Conv1d` gets exactly one hook pair, and its calls in either mode are those of an online/offline convolution (`call`). Missing: modules occurring in several places."
  },
  {
   "property": "C102",
   "status": "partial",
   "theorems": [
    "DS.Conv.C102_parallel_false",
    "DS.Conv.C102_parallel_partial",
    "DS.Conv.C102_second_partial",
    "DS.Conv.C102_shortcut_first_partial"
   ],
   "note": "C102_parallel_false: C102 is false of the code. Two branches with kernel width 2 on the first chunk `[1, 2, 3]` of a stream: the first branch leaves length 2 in the metadata of the chunk, so the second one gives a single output instead of two. || C102_parallel_partial: C102, the part that holds. The second branch sees the chunk as it was, so that both results are those of separate calls, if the kernel of the first branch is wider than 1 and the batch has a row that does not start its stream, or if the first branch is pointwise (kernel size 1, stride 1, no padding). Missing: all other cases, in which the second branch takes the output lengths of the first for the || C102_second_partial: C102, exactly. The second branch finds, in place of the metadata of the chunk, those of the first branch's output, unless the kernel of the first branch is wider than 1 and some row does not start its stream. Missing: the lengths of the chunk in the other cases. || C102_shortcut_first_partial: C102, the part that holds, for whole runs. With a pointwise first branch (a shortcut connection that is computed first), running both branches on the same chunks is the same as running each of them alone. Missing: a convolution as the first branch (`C102_parallel_false`)."
  },
  {
   "property": "C103",
   "status": "partial",
   "theorems": [
    "DS.Conv.C103_exact_partial",
    "DS.Conv.C103_frames_false",
    "DS.Conv.C103_frames_partial"
   ],
   "note": "C103_frames_false: C103 is false of the code. A mixed batch whose width leaves room for the padding: `torch.conv1d` shifts the frames of the starting row within the caller's tensor. So does a patched online `Conv1d` with kernel size 1 and padding. || C103_exact_partial: C103, exactly. On any zero-padded batch, `torch.conv1d` leaves the frames of its argument alone, unless the layer pads, some rows start and some do not, and there is room for the padding in all rows: then the frames of the starting rows are moved right by the padding. Missing: leaving the starting rows alone in that case. || C103_frames_partial: C103, the part that holds. A patched online `Conv1d` whose kernel is wider than 1 leaves the frames of its argument alone, whatever the batch; and so does every convolution without padding, and every convolution of a batch in which all rows start or none does. Missing: mixed batches with padding in unpatched modules or with kernel width 1."
  },
  {
   "property": "C104",
   "status": "partial",
   "theorems": [
    "DS.Conv.C104_careful_partial",
    "DS.Conv.C104_fresh_partial",
    "DS.Conv.C104_reuse_false",
    "DS.Conv.C104_reuse_partial"
   ],
   "note": "C104_reuse_false: C104 is false of the code. Without padding, the buffer is a view of the first chunk: writing the second chunk into the same memory replaces the buffered frame 3 by 6, and the first output of the second call is 64 instead of 34. || C104_careful_partial: C104, the part that holds, with care. With a kernel wider than 1, with or without padding: if the program writes over the memory of a batch of first chunks only when each of the streams in it has been called again or has ended, the outputs are those for separate tensors with the contents at the time of the call. The memory of any other batch may be written over at once. Two pieces of memory used i || C104_fresh_partial: C104, the part that holds, without reuse. If no tensor is overwritten after a call on it, the outputs are those of the values. Missing: memory that is overwritten after the call (`C104_reuse_false`; when that is harmless: `C104_careful_partial`). || C104_reuse_partial: C104, the part that holds, with reuse. A module with padding whose kernel is wider than 1 copies what it needs, as long as every batch is as wide as its longest row: whatever the program writes into its chunk memory between the calls, the outputs are those for separate tensors with the contents at the time of the call. Missing: modules without padding, and over-padded batches (`C104_careful_partia"
  },
  {
   "property": "C105",
   "status": "proved",
   "theorems": [
    "DS.Conv.C105_interleaving",
    "DS.Conv.C105_offline"
   ],
   "note": "C105_interleaving: C105. In every history of calls, online and offline, with StreamTensors and plain tensors, accepted and refused: the online calls on StreamTensors have the results, and leave the buffers, that they have when all other calls are left out. || C105_offline: C105, offline results. Offline calls on plain tensors give the ordinary convolution, whatever streams are running."
  },
  {
   "property": "C106",
   "status": "partial",
   "theorems": [
    "DS.Conv.C106_exact_partial",
    "DS.Conv.C106_restart_false",
    "DS.Conv.C106_restart_partial"
   ],
   "note": "C106_restart_false: C106 is false of the code. In a mixed batch the frames buffered for the abandoned sequence are put in front of the new one: `[37, 78]` instead of `[78]`. || C106_exact_partial: C106, exactly. One call on any zero-padded batch of chunks with different ids, whatever is buffered. It raises TypeError if the buffers are used (some row does not start and the kernel sees more than one frame), have the same length, and one of them is missing; otherwise it raises RuntimeError if the kernel fits nowhere. Otherwise each chunk gives the kernel outputs of start padding, the frames he || C106_restart_partial: C106, the part that holds. Whatever a module still holds of abandoned streams (`buf` is any buffer): if every stream of `xs` starts, within `xs`, in a batch in which all rows start, the outputs and errors are those of a new module. Missing: streams that restart in a batch with running streams."
  },
  {
   "property": "C107",
   "status": "partial",
   "theorems": [
    "DS.Conv.C107_lengths_partial",
    "DS.Conv.C107_refused_false",
    "DS.Conv.C107_refused_partial"
   ],
   "note": "C107_refused_false: C107 is false of the code. A first chunk that is too short for the kernel is refused, and its length in the metadata has grown by the padding. || C107_lengths_partial: C107, exactly. After a refused call the length of each row in the caller's metadata is as before if the kernel is wider than 1 and some row does not start; otherwise it has grown by the padding if the row starts, and by the padding if the row ends. Missing: unchanged lengths in the second case. || C107_refused_partial: C107, the part that holds. A refused call changes neither the buffer (see C105) nor ids, flags and chunk indices; it leaves the lengths alone too if the module has no padding, or if no row starts or ends, or if the kernel is wider than 1 and some row does not start. Missing: the lengths in the other cases, which grow by the padding."
  },
  {
   "property": "C108",
   "status": "partial",
   "theorems": [
    "DS.Tn.C108_exact_partial",
    "DS.Tn.C108_plain_false",
    "DS.Tn.C108_plain_partial",
    "DS.Tn.C108_recouple_partial"
   ],
   "note": "C108_plain_false: C108 is false of the code. Adding a plain column of two values to a batch of one sequence gives a StreamTensor with two rows and metadata for one. || C108_exact_partial: C108, exactly. A default-valid elementwise function of a StreamTensor and a plain tensor, in either order, gives a StreamTensor that is described by its metadata if and only if the plain tensor is not larger than the StreamTensor on the batch axis and, if it is empty along length, all sequences are empty. Missing: described results in the other cases. || C108_plain_partial: C108, the part that holds. A default-valid elementwise function of a StreamTensor and a plain tensor, in either order: if the call succeeds and the plain tensor does not broadcast the batch axis, and does not empty the length axis, the result has the metadata of the StreamTensor, batch and length are found by name at the aligned axes and described by the metadata, and every entry is the function o || C108_recouple_partial: C108, recoupled functions. For a recoupled elementwise function the plain tensor must have no names; the result has the rank, names and metadata of the StreamTensor, and is described as above. Missing: as above."
  },
  {
   "property": "C109",
   "status": "proved",
   "theorems": [
    "DS.Tn.C109_streams"
   ],
   "note": "C109_streams: C109. An elementwise function (default-valid or recoupled) of two StreamTensors with the same metadata: if the call succeeds, their batch axes and their length axes are aligned, the result has the common metadata and is described by it, and every entry is the function of the entries at the aligned m"
  },
  {
   "property": "C110",
   "status": "partial",
   "theorems": [
    "DS.Tn.C110_exact_partial",
    "DS.Tn.C110_inplace_false",
    "DS.Tn.C110_inplace_partial"
   ],
   "note": "C110_inplace_false: C110 is false of the code. `x.add_(y)` and `x.remainder_(y)` accept a StreamTensor with the metadata of other sequences. || C110_exact_partial: C110, exactly. An in-place function of a StreamTensor does with another StreamTensor what it does with the plain tensor of its entries (and names, except for the functions that work on unnamed views), whatever its metadata are. Missing: refusal of other metadata (`C110_inplace_false`). || C110_inplace_partial: C110, the part that holds. An in-place elementwise function never changes shape or metadata of its StreamTensor, keeps every name, and leaves it described by its metadata; the other operand cannot broadcast it. Missing: the other operand's metadata are never compared."
  },
  {
   "property": "C111",
   "status": "partial",
   "theorems": [
    "DS.Tn.C111_exact_partial",
    "DS.Tn.C111_iadd_false",
    "DS.Tn.C111_iadd_partial"
   ],
   "note": "C111_iadd_false: C111 is false of the code. `x += y` with other metadata raises, and `x` has changed. || C111_exact_partial: C111, exactly. What torch refuses leaves `x` as it was. What torch accepts is in `x` afterwards; the statement succeeds if the metadata of the other StreamTensor pass for those of `x` (`Looks`), and otherwise raises AttributeError or, if the other one has chunk indices, RuntimeError. Missing: as in `C111_iadd_partial`. || C111_iadd_partial: C111, the part that holds. A refused `x += q` leaves `x` as it was if `q` is a plain tensor, or has the metadata of `x` (without chunk indices); that is, if the refusal comes from torch. Missing: refusals that come from the comparison of metadata."
  },
  {
   "property": "C112",
   "status": "partial",
   "theorems": [
    "DS.Conv.C112_padding_false",
    "DS.Conv.C112_padding_partial"
   ],
   "note": "C112_padding_false: C112 is false of the code. With padding 1 and kernel 2, the last output of the shorter sequence is computed from the content of the padding. || C112_padding_partial: C112, the part that holds. The content of the padding has no influence on the result of a call (output and its metadata, buffer, exceptions) if the module has no padding, or if the buffers of the batch are used and differ in length, or if the rows that end are as long as the batch is wide and, when a row starts, some row that starts or ends is. Missing: modules with padding when a row that ends is"
  },
  {
   "property": "C113",
   "status": "partial",
   "theorems": [
    "DS.Conv.C113_pointwise_false",
    "DS.Conv.C113_pointwise_partial"
   ],
   "note": "C113_pointwise_false: C113 is false of the code. Adding 5 to everything also fills the padding of the shorter sequence with 5, and the end padding of the next convolution then sees 5 instead of 0. || C113_pointwise_partial: C113, the part that holds. A stack of online convolutions with arbitrary pointwise functions between them, over any schedule in which no layer gets an empty first or last chunk next to other rows or a chunk that ends inside a gap of its stride, gives each stream its offline output, if every convolution that follows a pointwise function with `f 0 ≠ 0` has no padding. Missing: convolutions with padd"
  },
  {
   "property": "C114",
   "status": "proved",
   "theorems": [
    "DS.Conv.C114_receptive_field",
    "DS.Conv.C114_total_stride"
   ],
   "note": "C114_receptive_field: C114, in terms of the receptive field only: chunks of at least as many frames as the receptive field of the stack. || C114_total_stride: C114. For every stack of convolutions with strides below the kernel widths (and pointwise functions; those with `f 0 ≠ 0` not directly before a convolution with padding), and every schedule in which the first chunk of each sequence is long enough for one output of the stack and every later chunk has"
  },
  {
   "property": "C115",
   "status": "proved",
   "theorems": [
    "DS.Pipe.C115_batches",
    "DS.Pipe.C115_random_chunks"
   ],
   "note": "C115_batches: C115. Cutting whole sequences (with distinct ids) into non-empty pieces and dealing the pieces into batches, each batch taking the next piece of any of the sequences, succeeds and gives a stream schedule: zero-padded batches of non-empty chunks with distinct ids, each no wider than its longest chunk || C115_random_chunks: C115, the sizes: `random_chunks` gives positive sizes that add up to the length, all but the last one at least the minimum, if it is given enough draws."
  },
  {
   "property": "C116",
   "status": "partial",
   "theorems": [
    "DS.Pipe.C116_program_false",
    "DS.Pipe.C116_program_partial"
   ],
   "note": "C116_program_false: C116 is false of the code. The last piece of `a` has one frame and gives no output in the first layer; the second layer gets it next to the first chunk of `b` and forgets that it was the last one, so the output for the end padding never comes. If the last piece comes alone, the program stops with an exception. || C116_program_partial: C116, what holds. If the first piece of each sequence is long enough for one output of the stack and the later ones for its total stride, whatever the order in which the pieces are dealt: the program runs without an exception, and at the end the collector holds, for exactly the given ids, the offline output of the whole sequence. Missing: shorter pieces (in particular a very short last piece), str"
  },
  {
   "property": "C117",
   "status": "proved",
   "theorems": [
    "DS.Tn.C117_invalid_names",
    "DS.Tn.C117_names",
    "DS.Tn.C117_no_metadata",
    "DS.Tn.C117_rebuild"
   ],
   "note": "C117_invalid_names: C117. Names that occur twice or are empty are refused as well (RuntimeError). || C117_names: C117. `as_stream_tensor` with names gives the data exactly these names, changes nothing else and never renames an axis that has a name; it raises RuntimeError if an axis has another name (or the number of names is wrong). || C117_no_metadata: C117. Plain data without metadata are refused (AttributeError). || C117_rebuild: C117. What `decouple` takes apart, `as_stream_tensor` and `stream_tensor` put together again: data, names and metadata are the old ones, with or without names on the data; a StreamTensor is returned as it is."
  },
  {
   "property": "C118",
   "status": "proved",
   "theorems": [
    "DS.Tn.C118_T",
    "DS.Tn.C118_describes"
   ],
   "note": "C118_T: C118. `x.T` reverses the axes together with their names, keeps metadata and data, and is its own inverse. || C118_describes: C118. The metadata describe the transposed data."
  },
  {
   "property": "C119",
   "status": "partial",
   "theorems": [
    "DS.Tn.C119_nested_false",
    "DS.Tn.C119_nested_partial"
   ],
   "note": "C119_nested_false: C119 is false of the code. A named tuple of two tensors and a `defaultdict` raise TypeError, a named tuple with one field loses its content (the field becomes a generator), and StreamTensors in other containers stay. || C119_nested_partial: C119, what holds. In a nesting of lists, tuples and dicts of any depth every StreamTensor is replaced by its plain data and everything else stays; metadata and names are collected from left to right. Missing: other containers (see `C119_nested_false`)."
  },
  {
   "property": "C120",
   "status": "proved",
   "theorems": [
    "DS.Tn.C120_rand"
   ],
   "note": "C120_rand: C120. A random StreamTensor has metadata that describe it, with distinct ids, whatever was drawn (lengths between 0 and the size of the length axis, one draw per row)."
  },
  {
   "property": "C121",
   "status": "partial",
   "theorems": [
    "DS.Tn.C121_constructor_exact_partial",
    "DS.Tn.C121_constructor_false",
    "DS.Tn.C121_constructor_partial",
    "DS.Tn.C121_forms"
   ],
   "note": "C121_constructor_false: C121 is false of the code. A two-dimensional `sos` is accepted (the check of tensor.py:157 looks at `lengths` twice), and chunk indices are accepted in any number and are not converted: a list or an int, as the signature allows, stays a list or an int. || C121_constructor_exact_partial: C121, exactly. The constructor accepts whatever chunk indices it is given and stores them as they are, and a `sos` with any number of axes as long as its first axis has one entry per row; ids that are not strings, and `lengths` and `eos` that do not stand for as many rows as there are ids, are refused. Refusals are ValueErrors, unless one of the columns is a 0-d tensor, which may be a TypeError. M || C121_constructor_partial: C121, what holds. Without chunk indices, and if `sos` has at most one axis: the constructor succeeds exactly if `ids` are strings and all columns stand for the same number of rows, and the columns it stores then are one-dimensional, of equal length, and have the given entries. Missing: chunk indices, `sos` with two axes (`C121_constructor_exact_partial`)."
  },
  {
   "property": "C122",
   "status": "proved",
   "theorems": [
    "DS.Tn.C122_mask"
   ],
   "note": "C122_mask: C122. `x[mask]` with a mask over the first two or more axes, all of them named: the merged axis holds the entries where the mask is `True`, in row-major order, under the joined names; the remaining axes stay. If the mask covers batch but not length, the metadata are those of the sequences with a `Tr"
  },
  {
   "property": "C123",
   "status": "partial",
   "theorems": [
    "DS.Tn.C123_ellipsis_false",
    "DS.Tn.C123_ellipsis_first_partial",
    "DS.Tn.C123_ellipsis_last_partial",
    "DS.Tn.C123_ellipsis_last_unnamed_partial",
    "DS.Tn.C123_mask_in_tuple_false",
    "DS.Tn.C123_mask_in_tuple_partial",
    "DS.Tn.C123_none_false"
   ],
   "note": "C123_ellipsis_false: C123 is false of the code, Ellipsis: `x[..., mask]` with a mask over the last two axes. The Ellipsis stands for one axis, the code replaces it with two. || C123_mask_in_tuple_false: C123 is false of the code. `x[mask, 0:1]` with a mask over the first two axes: torch indexes axis 2 with the slice, the code takes the name of axis 1 for it and refuses the names. || C123_none_false: C123 is false of the code, `None`: `x[None, mask]` on `(B, L, F)` with a mask over batch and length is accepted as a stream; the mask is taken to cover length and features, so the names are wrong and the frames are counted with the mask's rows, which are sequences. || C123_ellipsis_first_partial: C123, Ellipsis first. A mask of two or more axes that fits the last axes: torch takes `x[..., mask]` and merges these axes into one, of the entries with a `True` in row-major order. The code never does: it raises a RuntimeError (it counts the mask as one axis, so it has too many names for the result), or a TypeError if the last axis has no name. Missing: the result. || C123_ellipsis_last_partial: C123, Ellipsis last. A mask of two or more axes that fits the first axes: for torch `x[mask, ...]` is `x[mask]`. If the mask covers batch and length, the code gives this plain tensor; if all its axes are named but it does not cover both, the code raises a RuntimeError, although `x[mask]` is accepted (C122). Missing: the result; unnamed axes under the mask (`C123_ellipsis_last_unnamed_partial`). || C123_ellipsis_last_unnamed_partial: C123, Ellipsis last, the other tensors: if an axis under the mask has no name, `x[mask, ...]` raises a TypeError, while torch gives `x[mask]`. Missing: the result. || C123_mask_in_tuple_partial: C123, what holds. A tuple of ints and slices that ends with a mask over two or more axes, as far as torch accepts it (`t'` is torch's result): the axes under the mask become one axis with the joined names, the other names are those of the axes not indexed by an int; if the mask covers both batch and length the result is plain, otherwise the metadata are indexed by the entries at the batch and leng"
  },
  {
   "property": "C124",
   "status": "partial",
   "theorems": [
    "DS.Tn.C124_ints",
    "DS.Tn.C124_none_false",
    "DS.Tn.C124_none_refused_false",
    "DS.Tn.C124_tuple_partial"
   ],
   "note": "C124_none_false: C124 is false of the code, `None`: `x[None, idx]` on axes `(B, None, L)`: torch gathers sequences, which the property refuses; the code takes axis 1 to be gathered, keeps the metadata of both sequences and gives the batch axis no name. || C124_none_refused_false: C124 is false of the code, `None`: on `(F, B, L)`, where torch gathers features, `x[None, idx]` is refused: the batch name is given twice. || C124_tuple_partial: C124, what holds in tuples. Ints and slices followed by an integer tensor of two or more axes, as far as torch accepts it (`t'` is torch's result): refused if the tensor is at the batch axis, and, once the batch entry is accepted, if it is at the length axis; otherwise the names are those of the axes not indexed by an int, with the new unnamed axes before the gathered one, and the metadata are ind"
  },
  {
   "property": "C125",
   "status": "partial",
   "theorems": [
    "DS.Tn.C125_missing_axis_false",
    "DS.Tn.C125_negative_false",
    "DS.Tn.C125_order_false",
    "DS.Tn.C125_refused_partial",
    "DS.Tn.C125_single_false",
    "DS.Tn.C125_take_partial"
   ],
   "note": "C125_missing_axis_false: C125 is false of the code, missing axes: on a tensor whose batch or length axis was selected away no call of `take` succeeds, whatever the positions. (The index of the missing axis is never assigned; what is raised for good positions is UnboundLocalError.) || C125_negative_false: C125 is false of the code, negative positions: torch takes the last entry, the override raises ValueError. || C125_order_false: C125 is false of the code, order: the order of the sequences in the metadata is that of first occurrence, unless all of them occur. With three sequences, points in the third and the first give `c, a`, points in the third, the first and the second give `a, b, c`. || C125_single_false: C125 is false of the code, points in a single sequence and a single frame: on `(B, F, L)` the call is refused, since the batch name is deleted first and the length name then by its old position; on `(B, L, F)` the same mistake deletes the wrong name: the entries are features, the axis is called length. || C125_refused_partial: C125, refused, exactly: positions outside the tensor raise IndexError, as in torch; positions in range of which some are negative, which torch counts from the end, raise ValueError (`np.unravel_index`). Missing: a result for negative positions. || C125_take_partial: C125, the part that holds. `x.take(i)` where `i` lists the row-major positions of the points `ps`, on a stream whose axes all have names: the entries are those at the points, the one axis carries the joined names, without batch if all points lie in one sequence and without length if all lie in one frame. The metadata are those of the sequences that occur, in order of first occurrence, then indexed"
  },
  {
   "property": "C126",
   "status": "proved",
   "theorems": [
    "DS.Tn.C126_masked_select",
    "DS.Tn.C126_refused"
   ],
   "note": "C126_masked_select: C126. `torch.masked_select(x, mask)` with a mask over the last axes (all of them if `k = 0`): a plain tensor of the entries where the mask is `True`, in row-major order. || C126_refused: C126, what is refused. A mask that has, counted from the last axis, an axis whose size is neither 1 nor that of `x`, which is not 1 either, is a RuntimeError."
  },
  {
   "property": "C127",
   "status": "partial",
   "theorems": [
    "DS.Tn.C127_scatter_exact_partial",
    "DS.Tn.C127_scatter_partial",
    "DS.Tn.C127_stream_index_false"
   ],
   "note": "C127_stream_index_false: C127 is false of the code. An index or a mask that is itself a StreamTensor is refused with AttributeError, whatever its metadata, by `gather`, `take_along_dim`, `take`, `index_select` and `masked_select`: it is handed to torch without being decoupled, which calls the override again with the plain data. || C127_scatter_exact_partial: C127, scatters, exactly: `torch.scatter_add(x, d, i, src)` with a stream `i` as index, for every axis and all metadata. Along the non-negative position of batch or length the result is plain. Along other axes, and for every negative spelling, the metadata of `x` and of `i` are compared with those of `x`: if both pass, the result is a stream with names and metadata of `x`; otherwise the first that  || C127_scatter_partial: C127, the part that holds. `scatter_add` and `scatter_reduce`, which decouple all their arguments, accept an index that is a StreamTensor with the same metadata (without chunk indices): the result is the one for a plain index. Missing: the other functions, chunk indices."
  },
  {
   "property": "C128",
   "status": "proved",
   "theorems": [
    "DS.Tn.C128_frexp"
   ],
   "note": "C128_frexp: C128. `torch.frexp(x)`: mantissa and exponent are streams with the names and the metadata of `x`, entry by entry."
  },
  {
   "property": "C129",
   "status": "partial",
   "theorems": [
    "DS.Tn.C129_exact_partial",
    "DS.Tn.C129_scatter_inplace_false",
    "DS.Tn.C129_scatter_inplace_partial"
   ],
   "note": "C129_scatter_inplace_false: C129 is false of the code. `x.scatter_add_(2, …)` along the length of a `(B, F, L)` stream writes the new data into `x` and returns a plain tensor instead of `x`; with chunk indices it does so along every axis. || C129_exact_partial: C129, exactly, for every axis and all metadata: `x.scatter_add_(d, …)` writes the new data into `x`, whatever is returned or raised afterwards. The non-negative position of batch or length gives a plain tensor. Any other `d`, negative ones included, gives a stream that is `x` after the call if all metadata pass the comparison with those of `x`; otherwise the first that does not decides: AttributeE || C129_scatter_inplace_partial: C129, the part that holds. `x.scatter_add_(dim, index, src)` along an axis other than batch and length, for metadata without chunk indices and other StreamTensors with the same metadata: the result is a stream with the new data and the names and metadata of `x`, and `x` has the new data afterwards. Along batch or length `x` has the new data too, the result is plain. Missing: the result is a stream"
  },
  {
   "property": "C130",
   "status": "partial",
   "theorems": [
    "DS.Tn.C130_reduce_false",
    "DS.Tn.C130_reduce_partial"
   ],
   "note": "C130_reduce_false: C130 is false of the code. A reduction over batch or over length of any described stream (with more than one sequence, resp. a sequence of more than one frame, when `keepdim` is set) gives a StreamTensor with the old metadata, which do not describe it: there is one row of data for several of metadata, or no batch axis, or a sequence is longer than the length axis, or there is no length axis. || C130_reduce_partial: C130, the part that holds. A reduction along an axis other than batch and length, in either spelling of the axis: the metadata stay and describe the result, whose entries are computed from the lines along the axis; with `keepdim` the axes stay, otherwise the axis disappears with its name. Missing: batch and length."
  },
  {
   "property": "C131",
   "status": "partial",
   "theorems": [
    "DS.Tn.C131_chunk_partial",
    "DS.Tn.C131_many_partial",
    "DS.Tn.C131_property_false",
    "DS.Tn.C131_tensor_partial",
    "DS.Tn.C131_tuple_false"
   ],
   "note": "C131_property_false: C131 is false of the code in a second way: the tensor properties of torch that are not redefined (`x.data`, `x.mT`, …) give StreamTensors without metadata. || C131_tuple_false: C131 is false of the code. Of a function without an override that returns several tensors, such as `x.chunk(2, dim)`, `torch.sort(x, dim)`, `torch.max(x, dim)`, every result is a StreamTensor without metadata: reading `meta` raises AttributeError. || C131_chunk_partial: C131, `x.chunk(n, dim)`: at most `n` results, each of the least size `c` with which `n` pieces suffice (the last may be smaller), with the names of `x` and without metadata; position `p` of the axis is position `p % c` of piece `p / c`. Missing: metadata. || C131_many_partial: C131, several results, exactly: the data are torch's, and the arguments' metadata are compared all the same. If all pass for the first's (`Looks`), every result is a StreamTensor without metadata; otherwise the first argument that does not pass decides: AttributeError without chunk indices, RuntimeError with. Missing: metadata. || C131_tensor_partial: C131, the part that holds. A function without an override that returns one tensor, called on StreamTensors with equal metadata without chunk indices, returns a StreamTensor with that metadata. Missing: functions that return several tensors, and the tensor properties of torch."
  },
  {
   "property": "C132",
   "status": "partial",
   "theorems": [
    "DS.Tn.C132_padding_false",
    "DS.Tn.C132_padding_partial"
   ],
   "note": "C132_padding_false: C132 is false of the code. Along length, the padding counts: of two streams that differ only in the padding of the second sequence, the sum (mean, maximum, …) over length and the shares (`softmax`) along length of the second sequence differ. || C132_padding_partial: C132, the part that holds. Reductions and other functions (such as `softmax`) along an axis other than batch and length: on the frames that hold data the result depends only on such frames. Missing: functions along length."
  },
  {
   "property": "C133",
   "status": "partial",
   "theorems": [
    "DS.Data.C133_accepts_partial",
    "DS.Data.C133_list_false"
   ],
   "note": "C133_list_false: C133 is false: the documentation says that `num_workers` has no effect with a list of datasets, but one worker more than none is refused. || C133_accepts_partial: C133, what holds: the constructor accepts exactly the combinations in which `drop_last` comes with overlapping batches and a list of datasets without `num_workers`. The number of streams is then the length of the list, or `num_workers`. Missing: a positive `num_workers` with a list is not ignored."
  },
  {
   "property": "C134",
   "status": "partial",
   "theorems": [
    "DS.Data.C134_persistent_false",
    "DS.Data.C134_prefetch_false",
    "DS.Data.C134_starts_partial"
   ],
   "note": "C134_persistent_false: C134 is false: `persistent_workers=True` (also a timeout, or a context) without workers is accepted by the constructor, and every iteration raises. || C134_prefetch_false: C134 is false in a second way: for a list of datasets every one gets a worker, but the prefetch factor is dropped, whatever it is. || C134_starts_partial: C134, what holds: a constructed loader over at least one stream starts exactly if the timeout is not negative and, without workers, there is no timeout, no `persistent_workers` and no context; with workers, a prefetch factor must be positive unless a list of datasets was given, in which case it is ignored. Missing: that every loader that was constructed starts, and that the prefetch factor is used"
  },
  {
   "property": "C135",
   "status": "partial",
   "theorems": [
    "DS.Data.C135_delivers_partial",
    "DS.Data.C135_drop_last_false",
    "DS.Data.C135_list_false",
    "DS.Data.C135_persistent_false",
    "DS.Data.C135_timeout_false"
   ],
   "note": "C135_drop_last_false: C135 is false: with `drop_last` the one-process loader can never be constructed, whatever the other arguments. || C135_list_false: C135 is false: a list of datasets with one worker is accepted, but that worker may not start the workers of the datasets. || C135_persistent_false: C135 is false: with one worker and `persistent_workers=True` (which torch allows) the loader is constructed, but the option also reaches the inner DataLoaders, which have no workers: once the dataset was split every iteration raises. || C135_timeout_false: C135 is false: with one worker, a timeout reaches the inner DataLoaders and fails an assertion. || C135_delivers_partial: C135, what holds: with at most one worker and without `drop_last`, timeout and `persistent_workers` (and with a prefetch factor only for a worker) the one-process loader can be constructed and yields exactly what the loader without workers yields. Missing: those options, and lists of datasets with one worker."
  },
  {
   "property": "C136",
   "status": "partial",
   "theorems": [
    "DS.Data.C136_lengths_partial",
    "DS.Data.C136_metadata_false",
    "DS.Data.C136_metadata_partial",
    "DS.Data.C136_short_false"
   ],
   "note": "C136_metadata_false: C136 is false: the same for metadata that leave out a file. || C136_short_false: C136 is false: with fewer lengths than files the constructor succeeds and `split` is a KeyError. || C136_lengths_partial: C136, what holds with `file_lengths`: the dataset can be split iff every file occurs among as many files as there are lengths; otherwise `split` is a KeyError. For distinct files the length used for the i-th file is the i-th length. Missing: that a list of lengths of another size than the file list is refused. || C136_metadata_partial: C136, what holds without `file_lengths`: the dataset can be split iff no metadata were given or they cover every file; otherwise `split` is a KeyError. Missing: that metadata for some of the files only are completed or refused."
  },
  {
   "property": "C137",
   "status": "partial",
   "theorems": [
    "DS.Demo.C137_names_false",
    "DS.Demo.C137_split_partial",
    "DS.Demo.C137_too_many_false"
   ],
   "note": "C137_names_false: C137 is false: with 27 workers the first and the last dataset have the same name. || C137_too_many_false: C137 is false: 53 workers run out of names. || C137_split_partial: C137, what holds: for positive sizes, `split_datasets` uses the largest number of workers up to `max_workers` that divides the batch size. If these are at most 52, the datasets together hold every item once and their batch sizes add up to the batch size; up to 26 they have different names. Missing: different names for 27 or more workers, and any result for 53 or more."
  },
  {
   "property": "C138",
   "status": "proved",
   "theorems": [
    "DS.Demo.C138_delivers"
   ],
   "note": "C138_delivers: C138: the demo loader over the datasets of `split_datasets` delivers every item's chunks exactly once and in order, all with the name of one dataset, and nothing else; no batch is empty, exceeds the batch size or holds two chunks of an item, and every batch can be collated. The chunks tell their ite"
  },
  {
   "property": "C139",
   "status": "partial",
   "theorems": [
    "DS.Pickle.C139_meta_errors_partial",
    "DS.Pickle.C139_meta_false",
    "DS.Pickle.C139_tensor_false"
   ],
   "note": "C139_meta_false: C139 is false of the code. No metadata object survives pickling: whatever its arguments, used or not, loading it raises (if it could be written at all). || C139_tensor_false: C139 is false of the code. No StreamTensor can be pickled: with a named axis torch refuses, without names the inner state lacks metadata. || C139_meta_errors_partial: C139, exactly: an object that has not been used is written by a current Python, and reading it is a KeyError; one that has been used is a TypeError. Up to Python 3.10 writing is a use. Missing: that metadata can be read back, which never holds."
  },
  {
   "property": "C140",
   "status": "partial",
   "theorems": [
    "DS.Heap.C140_copy_false",
    "DS.Heap.C140_copy_partial"
   ],
   "note": "C140_copy_false: C140 is false of the code. A copy has no chunk indices, and an in-place write to its lengths changes the original. || C140_copy_partial: C140, what holds: the copy reports the flags and lengths of the original, and after any history of uses, reading or assigning columns of one changes nothing that the other reports. Missing: chunk indices, and in-place writes."
  },
  {
   "property": "C141",
   "status": "partial",
   "theorems": [
    "DS.Disp.C141_tables_false",
    "DS.Disp.C141_tables_partial"
   ],
   "note": "C141_tables_false: C141 is false of the code. `torch.transpose` is in two tables, and is treated as the first of them says (see C35 for what comes of it). || C141_tables_partial: C141, exactly. A function is in two tables iff it is `torch.transpose`, `torch.sigmoid`, `Tensor.sigmoid` (recoupled and default-valid; they are recoupled) or `torch.fake_quantize_per_tensor_affine` (overridden and decoupled; it is overridden); every other function is treated as its table says, or, if it is in none, as default-valid with a warning; and the warning is given for no other function. M"
  },
  {
   "property": "C142",
   "status": "partial",
   "theorems": [
    "DS.Disp.C142_inplace_partial",
    "DS.Disp.C142_masked_select_false",
    "DS.Disp.C142_methods_false",
    "DS.Disp.C142_methods_partial"
   ],
   "note": "C142_masked_select_false: C142 is false of the code, consequence. Whatever the stream and the mask, `x.masked_select(mask)`, being default-valid, never falls back: when torch accepts the mask, the result is a StreamTensor with all the metadata of `x` and a single axis, which they cannot describe. || C142_methods_false: C142 is false of the code. `torch.masked_select` falls back to a plain tensor (C126), the method `x.masked_select` is in no table; and so are, of decoupled functions, the methods `argmax`, `argmin`, `argsort`, of recoupled ones `adjoint`, of valid ones `equal`. `torch.transpose` is recoupled, `x.transpose` default-valid. || C142_inplace_partial: C142, in-place functions. An in-place function that is in some table (`torch.clamp_`) is treated like the method of the same name (`x.clamp_`). Missing: functions that are not in place. || C142_methods_partial: C142, the part that holds. If both the function and the method are in some table, both are treated alike, except `transpose`, and `real` and `imag`, whose methods are the properties that StreamTensor redefines by the functions (tensor.py:855-861). Missing: `transpose`, and methods in no table."
  },
  {
   "property": "C143",
   "status": "partial",
   "theorems": [
    "DS.Disp.C143_inplace_false",
    "DS.Disp.C143_inplace_partial",
    "DS.Disp.C143_pairs_partial"
   ],
   "note": "C143_inplace_false: C143 is false of the code. `x.scatter_(…)` is recoupled: it returns another object than `x`. || C143_inplace_partial: C143, exactly. Every in-place method of the tables returns the tensor itself, except `scatter_` (recoupled), `scatter_add_` and `scatter_reduce_` (overridden, see C129). Missing: these three. || C143_pairs_partial: C143, an operation and its in-place form. If both `x.o(…)` and `x.o_(…)` occur in the tables, the two are treated in the same way (default-valid and valid, or recoupled and recoupled in place), except `sigmoid` (recoupled, while `sigmoid_` is valid), `conj_physical` (default-valid, while `conj_physical_` is recoupled), and `scatter`, `scatter_add` and `scatter_reduce`, whose in-place forms are tre"
  },
  {
   "property": "C144",
   "status": "partial",
   "theorems": [
    "DS.Call.C144_axis_false",
    "DS.Call.C144_binds_partial",
    "DS.Call.C144_order_false",
    "DS.Call.C144_permute_method",
    "DS.Call.C144_refused_false"
   ],
   "note": "C144_axis_false: C144 is false of the code, `axis`. torch accepts the keyword `axis` for `dim`; no override does. || C144_order_false: C144 is false of the code, order. `x.scatter_reduce_(dim, index, src, reduce)`, the order that torch documents: the override takes the third argument for the reduction and the fourth for the source. (torch then gets a tensor as reduction and refuses.) By keyword the call binds well. || C144_refused_false: C144 is false of the code. Calls that torch accepts and the override refuses with TypeError: `torch.permute(input=x, dims=d)`, `torch.unbind(input=x)` (the parameter is called `tensor`), `torch.frexp(x, out=o)`, `torch.select_copy(x, d, i, out=o)` (no such parameter), `torch.take_along_dim(x, i)` (the axis is required), `torch.take(x, index=i)` (called `indices`), and `x.permute(dims=d)`. || C144_binds_partial: C144, the part that holds. For every other override: each call that torch accepts, with any arguments and keywords, binds, and every parameter is given the value that torch would give it; for a method the tensor itself is the first. Missing: the functions in `differing`, by the theorems above."
  },
  {
   "property": "C145",
   "status": "partial",
   "theorems": [
    "DS.Call.C145_names_false",
    "DS.Call.C145_names_partial"
   ],
   "note": "C145_names_false: C145 is false of the code. Whatever the tensor and the name: `unbind`, `select`, `index_select`, `gather`, `squeeze`, `torch.transpose` and `cat` of two or more tensors refuse an axis given by name. || C145_names_partial: C145, the part that holds. `cat` of a single tensor, and functions in no table such as `x.sum(\"L\")`: with the name of axis `a` they do what they do with its position, in either spelling. Missing: the overrides."
  },
  {
   "property": "C146",
   "status": "partial",
   "theorems": [
    "DS.Call.C146_tuple_false",
    "DS.Call.C146_tuple_partial"
   ],
   "note": "C146_tuple_false: C146 is false of the code. No call of the methods `permute` and `squeeze` with a tuple of axes succeeds, whatever the tensor and the axes. When torch accepts the axes, TypeError. || C146_tuple_partial: C146, the part that holds. `torch.permute(x, dims)` with a tuple is what `x.permute(*dims)` is (C34): `permute` binds the tuple to `dims`. Missing: the methods."
  },
  {
   "property": "C147",
   "status": "partial",
   "theorems": [
    "DS.Conv.C147_int_false",
    "DS.Conv.C147_int_raised_false",
    "DS.Conv.C147_padding_false",
    "DS.Conv.C147_refused",
    "DS.Conv.C147_seq_partial"
   ],
   "note": "C147_int_false: C147 is false of the code. No call of `torch.conv1d` on a StreamTensor with an int as stride or dilation succeeds, whatever the input; these are the defaults, so `torch.conv1d(x, weight)` never works. || C147_int_raised_false: C147 is false of the code, what is raised. With an int as dilation and a padding that is no list, the exception is a TypeError; with an int as stride it is a TypeError wherever the call with a sequence in its place would have succeeded. || C147_padding_false: C147 is false of the code, padding. A list, which torch accepts like a tuple, is a TypeError, and `\"same\"` raises NotImplementedError. || C147_seq_partial: C147, the part that holds. With sequences for stride and dilation, as `torch.nn.Conv1d` passes them, and any other spelling of the padding, the call is the convolution with those numbers (C51 and the others), exceptions included. Missing: ints for stride and dilation, a list for padding."
  },
  {
   "property": "C148",
   "status": "proved",
   "theorems": [
    "DS.Conv.C148_sessions"
   ],
   "note": "C148_sessions: C148. In every history of calls of a stack of online convolutions and pointwise functions, accepted or refused, on batches that are within or outside a set `S` of stream ids: the calls on batches within `S` have the outcomes, and leave the buffers of the ids in `S`, that they have when all the other"
  },
  {
   "property": "C149",
   "status": "partial",
   "theorems": [
    "DS.Conv.C149_refused_false",
    "DS.Conv.C149_refused_partial"
   ],
   "note": "C149_refused_false: C149 is false of the code. The chunk `[5]` of a running stream is refused by the second layer, which has too few frames; the first layer has taken it in. Sent again with the frames that follow it, its frame is used twice. || C149_refused_partial: C149, the part that holds. A refused call has changed the states of the layers before the one that refused, as an accepted call does, and no others; so it has changed nothing if there are only pointwise functions before that layer. Missing: stacks in which a layer after a convolution refuses."
  },
  {
   "property": "C150",
   "status": "partial",
   "theorems": [
    "DS.Mach.C150_float_partial",
    "DS.Mach.C150_long_rows_false"
   ],
   "note": "C150_long_rows_false: C150 is false of the code. A row of 16777217 frames (17 and a half minutes of audio at 16 kHz), every second of which is kept, has 8388609 frames left; the code says 8388608. || C150_float_partial: C150, what holds: with a step of at most `2 ^ 24` and rows of at most `2 ^ 24` frames the lengths that the code computes in float32 are the exact ones, so that everything proved of `indexLengthSlice` (C05 to C08, C13, C43, …) holds of the code. Missing: longer rows (`C150_long_rows_false`)."
  },
  {
   "property": "C151",
   "status": "partial",
   "theorems": [
    "DS.Mach.C151_sum_false",
    "DS.Mach.C151_sum_partial"
   ],
   "note": "C151_sum_false: C151 is false of the code. Two consecutive chunks of 2 ^ 30 frames of one stream (18 hours of audio at 16 kHz each) are concatenated to a chunk of length -2 ^ 31. || C151_sum_partial: C151, exactly. Chunks are refused as with unbounded integers (C19), and the lengths of the result are the sums modulo 2 ^ 32; so they are the sums iff each of these is below 2 ^ 31. Missing: longer streams."
  },
  {
   "property": "C152",
   "status": "proved",
   "theorems": [
    "DS.Warn.C152_others",
    "DS.Warn.C152_suppress"
   ],
   "note": "C152_others: C152, other warnings: `suppress_warnings` never changes what the filters say about a category that is no stream category. || C152_suppress: C152. After any history, `suppress_warnings(True)` silences every warning of dreamstream until the filters are changed again: none is shown and none is raised as an exception, whatever filters were set before."
  },
  {
   "property": "C153",
   "status": "partial",
   "theorems": [
    "DS.Warn.C153_restore_false",
    "DS.Warn.C153_restore_partial"
   ],
   "note": "C153_restore_false: C153 is false of the code. `suppress_warnings(True)` followed by `suppress_warnings(False)` does not restore what was set before: if warnings were to be shown every time, or to be raised as exceptions, they are shown once afterwards. || C153_restore_partial: C153, the part that holds. After any history (from any filters, nothing having been shown before the history), `suppress_warnings(False)` turns the warnings of dreamstream on: until the filters are changed again, each of them is shown the first time it is given, even if it had been shown before, and not shown again. So if nobody had set a filter for them, everything is as at the start. Missing: ot"
  },
  {
   "property": "C154",
   "status": "partial",
   "theorems": [
    "DS.Meta.C154_entries_partial",
    "DS.Meta.C154_index_false",
    "DS.Meta.C154_index_partial"
   ],
   "note": "C154_index_false: C154 is false of the code. With three entries, as in `x.meta[:, :, None]` for a tensor with three axes, the result is `None`; so it is with one slice in a list. || C154_entries_partial: C154, the two entries. After the batch index, the length index may be `None` (everything is kept), an int, a slice, a mask, or a list, a tuple or a tensor of ints, which all mean the same; tensors without axes and with more than one are refused (IndexError). As batch index, these are refused too (TypeError and IndexError). Missing: the cases in which the result is `None`. || C154_index_partial: C154, exactly. The result is `None` iff a list or tuple is given in which not all entries are ints and whose number of entries is not 2. Otherwise: two entries in a tuple are the batch and the length index (as are two entries in a list, if one is no int); a list of ints selects sequences; a tuple of other than two ints is refused (TypeError); a single entry is a batch index. Missing: the cases in "
  },
  {
   "property": "C155",
   "status": "partial",
   "theorems": [
    "DS.Grad.C155_raises_partial",
    "DS.Grad.C155_training_false",
    "DS.Grad.C155_training_partial"
   ],
   "note": "C155_training_false: C155 (false). Training chunk by chunk, as the README promises, raises on the second chunk of a stream already with two convolutions. || C155_raises_partial: C155: whatever the stack, training chunk by chunk goes through or raises RuntimeError, and it raises at once if nothing in the stack is trained. Missing: training (`C155_training_partial`). || C155_training_partial: C155 (partial, exact). A stack of online convolutions and pointwise functions, some of whose weights are trained, is called on batches, each call followed by the backward pass of its output. No call raises if and only if no convolution wider than one frame comes after a trained one, or no batch continues a stream. Missing: nothing for this model; the property as such is false (`C155_training_false"
  },
  {
   "property": "C156",
   "status": "partial",
   "theorems": [
    "DS.Grad.C156_memory_false",
    "DS.Grad.C156_memory_partial"
   ],
   "note": "C156_memory_false: C156 (false). In a stack with a convolution wider than one frame after a trained one, the buffers of an open stream keep one more result alive with every chunk. || C156_memory_partial: C156 (partial). If no convolution wider than one frame comes after a trained one, the buffers keep no result of a layer alive, however many chunks were processed. Missing: false for other stacks (`C156_memory_false`)."
  },
  {
   "property": "C157",
   "status": "proved",
   "theorems": [
    "DS.Mach.C157_chunk_size"
   ],
   "note": "C157_chunk_size: C157. Let `t` be the chunk length in seconds that was asked for (a decimal number, say, of which `chunk_seconds` is the nearest float), and let the asked number of frames, at the rate that the file has after the transform, be within 0.499 of the integer `k`. Then the file is cut into chunks of `k` f"
  },
  {
   "property": "C158",
   "status": "partial",
   "theorems": [
    "DS.Tn.C158_apart_partial",
    "DS.Tn.C158_ellipses_false",
    "DS.Tn.C158_ellipses_partial",
    "DS.Tn.C158_positions_false"
   ],
   "note": "C158_ellipses_false: C158 is false. `x[..., 0, ...]` on a (batch, feature, length) tensor: the first Ellipsis takes two axes in torch, so the data are those of `x[:, :, 0]`, one frame of every row, but `replace_ellipsis` reads the index as `x[:, 0, :]` (overrides.py:309-311): the result is named (batch, length) over an axis of features and keeps the metadata of all frames. || C158_positions_false: C158 is false, also by refusing: on a (batch, length) tensor `x[..., ..., None, ...]` is accepted by torch, and so is `x[..., None]`, its other spelling, here; but the first is refused, because the entries replaced by full slices are looked up at the positions from before collapsing (overrides.py:310-311), which by then are those of other entries. || C158_apart_partial: C158 for Ellipses that are not neighbours (partial). At least two Ellipses, no two of them neighbours, where torch accepts the index. If they stand for one axis each when the entries are counted (as many entries other than `None` as axes), the result has torch's data, where the first Ellipsis takes all the axes, under the names and metadata of the index in which each Ellipsis is a full slice; othe || C158_ellipses_partial: C158 (partial). Neighbouring Ellipses: where torch accepts them, any number of them next to each other gives what one of them gives (same values, same names, same metadata, same exception). Missing: Ellipses that are not neighbours, for which the names can be of other axes than the data (`C158_ellipses_false`, `C158_apart_partial`)."
  },
  {
   "property": "C159",
   "status": "partial",
   "theorems": [
    "DS.Conv.C159_pointwise_partial",
    "DS.Conv.C159_refused",
    "DS.Conv.C159_residual_false",
    "DS.Conv.C159_residual_partial"
   ],
   "note": "C159_residual_false: C159 is false of the code. Offline the block gives `[4, 8, 12, 16, 14]` for `[1, 2, 3, 4, 5]`. Streamed as `[1, 2, 3]` first it raises RuntimeError, the widths being 2 and 3. Streamed as `[1, 2]`, `[3, 4]`, `[5]` the first call broadcasts the one frame of the convolution, the second call adds the outputs for frames 1 and 2 to frames 2 and 3 without complaint (9, 13 instead of 8, 12), and the last  || C159_pointwise_partial: C159 for convolutions of one frame (kernel size 1, stride 1, no padding). Every call on a batch of chunks without chunk indices and with at least one frame is accepted, whatever is buffered, and gives for each chunk what the block gives offline for its frames. Missing: wider kernels, for which sequences in several chunks fail (`C159_residual_false`, `C159_residual_partial`). || C159_residual_partial: C159, the part that holds. A residual block around a convolution that keeps the length (stride 1, padding of half the kernel), without chunk indices. (1) If a schedule of calls is accepted, then every sequence that has ended came with all its frames in its last chunk, and (2) the block gives for that chunk what it gives offline. (3) A batch of whole sequences is accepted, whatever is buffered. So "
  },
  {
   "property": "C160",
   "status": "proved",
   "theorems": [
    "DS.Data.C160_drop_last",
    "DS.Data.C160_drop_sync",
    "DS.Data.C160_schedule"
   ],
   "note": "C160_drop_last: C160, with drop_last, whatever the workers, batch size, shuffling and order: the loader's batches, collated, are a valid schedule of streams. Every batch holds no stream twice and no empty chunk; what is delivered of a file are its first chunks in order, with nothing changed except that the last of  || C160_drop_sync: C160, with drop_last and batches that must not overlap, for one worker: if the loader raises nothing while its workers are set up, it gives batches that are, collated, a valid schedule in which every stream is absent or complete, and that are synchronous as in C80 and C81. || C160_schedule: C160. Without drop_last, whatever the workers, batch size, shuffling and order: the loader's batches, collated, are a valid schedule of streams. Every batch is non-empty, holds no stream twice and no empty chunk; every file is one complete sequence of chunks in order, which hold the first `length` f"
  },
  {
   "property": "C161",
   "status": "partial",
   "theorems": [
    "DS.Data.C161_collect_partial",
    "DS.Data.C161_drop_partial",
    "DS.Data.C161_drop_runs_partial",
    "DS.Data.C161_given_partial",
    "DS.Data.C161_runs_partial",
    "DS.Data.C161_stack_partial",
    "DS.Data.C161_stacks_drop_partial",
    "DS.Data.C161_stacks_partial",
    "DS.Data.C161_stream_false",
    "DS.Data.C161_stream_partial"
   ],
   "note": "C161_stream_false: C161 is false of the code. A file 1, 2, 3 cut into chunks of two frames: both samples carry the whole file (C74), so the network is given the frames 1, 2 and then 1 again, and a convolution with kernel 1 puts out 1, 2, 1. || C161_collect_partial: C161 (collector). Without drop_last, for files of at least one frame that are one chunk each (no longer than their chunk size), any workers, shuffling and orders, and every convolution that fits in every padded file: the loader yields all batches, no call of the convolution raises, the collector accepts every output, chunk indices included, and afterwards it has entries for exactly the files, each || C161_drop_partial: C161 with drop_last, whatever the workers: whenever no call of a convolution as in `C161_given_partial` raises, its outputs for every file of which anything is delivered, be it left without an end (`C77_false`) or not, are the offline outputs of the frames delivered: those given for the first `n` chunks of the file. Missing: the frames of later chunks and convolutions with padding, as there. || C161_drop_runs_partial: C161 with drop_last, no call raises: under the conditions of `C161_runs_partial`, for any number of workers. What comes out is in `C161_drop_partial`. Missing: as there and in `C161_runs_partial`. || C161_given_partial: C161, files of several chunks. What the network is given of a file is, for every chunk, the *first* frames of the file, as many as the chunk has, and behind them the rest of the file, not counted by the metadata. A convolution without padding (and with a stride of at most its width) does not see that rest: whenever no call raises, its outputs for every file are the offline outputs of the frames gi || C161_runs_partial: C161, no call raises. If the files and their chunks are at least as long as the kernel (the last chunk of a file may be shorter, but not shorter than the stride), no call with the loader's batches raises, and the outputs for every file are the offline outputs of the frames given. Missing: the frames of the later chunks, as in `C161_given_partial`; batches all of whose rows see less than the kernel || C161_stack_partial: C161 (stacks). Likewise for every stack of layers as in C114, if every file is long enough for one output of the stack: no call raises and the outputs of every file are those of the ordinary stack on the whole file. Missing: files of several chunks (`C161_given_partial`), other stacks (C113, C62). || C161_stacks_drop_partial: C161, stacks, drop_last, whatever the workers: the outputs for every file are those of the ordinary stack on the frames given for its first chunks, as many as are delivered, whenever no call raises; and none does if the chunks are long enough, as in `C161_stacks_partial`. Missing: as there. || C161_stacks_partial: C161, stacks, files of several chunks. For stacks without padding and with strides of at most the kernel widths: whenever no call raises, the outputs for every file are those of the ordinary stack on the frames given (`C161_given_partial`). With strides below the kernel widths no call raises if the first chunk of every file is long enough for one output of the stack and the others, also the last o || C161_stream_partial: C161, where it holds. Without drop_last, for files of at least one frame cut into chunks of `size f ≥ 1` frames: what the network is given of a file is, for every chunk, the *first* frames of the file, as many as the chunk has. If no file is longer than its chunk size, the batches are a schedule (C50-C60 apply), no call raises if the kernel fits in every padded file, and whenever no call raises th"
  },
  {
   "property": "C162",
   "status": "partial",
   "theorems": [
    "DS.Timing.C162_width_false",
    "DS.Timing.C162_width_partial"
   ],
   "note": "C162_width_false: C162 is false of the code. The documented bound of 7 characters does not hold for times from 9999.5 seconds on (`1.234e+04s`), nor below a nanosecond (`0.1234ns`). || C162_width_partial: C162, what holds: times from a nanosecond to 9999.5 seconds are formatted in at most 7 characters; with another precision `p` (at least 4) in at most `p + 3` characters, below `10 ^ p - 1 / 2` seconds. Missing: longer and shorter times, for which the property fails."
  },
  {
   "property": "C163",
   "status": "proved",
   "theorems": [
    "DS.Timing.C163_accuracy",
    "DS.Timing.C163_sign"
   ],
   "note": "C163_accuracy: C163. The formatted time is a decimal numeral and a unit that together denote the time up to half a unit of the last of `p` significant digits: with the default precision within 0.05 percent. || C163_sign: C163, other times: 0 is `0`, and a negative time is shown as the opposite time in the same unit with a minus sign; without a unit that is nanoseconds, as no unit is as small."
  },
  {
   "property": "C164",
   "status": "proved",
   "theorems": [
    "DS.Timing.C164_number"
   ],
   "note": "C164_number: C164. If the number of iterations is left to `timeit`, it is the smallest multiple of the number found by calibration (for which at least 0.2 seconds were measured) such that the inner loop, at the measured speed, lasts longer than `inner_duration`. A given number is used as it is."
  },
  {
   "property": "C165",
   "status": "proved",
   "theorems": [
    "DS.Timing.C165_summary"
   ],
   "note": "C165_summary: C165. The results of `timeit` summarise the last `repeats` measurements, each divided by the number of iterations: `min` and `max` are the smallest and the largest of them, `mean` is their mean, at least half of them are at most `median` and at least half at least that, both lie between `min` and `m"
  },
  {
   "property": "C166",
   "status": "partial",
   "theorems": [
    "DS.Timing.C166_columns_false",
    "DS.Timing.C166_columns_partial"
   ],
   "note": "C166_columns_false: C166 is false of the code. A standard deviation below 0.1 nanoseconds makes the line longer, and so does a million iterations. || C166_columns_partial: C166, what holds: with fewer than 100000 iterations and all times zero or between a nanosecond and 9999.5 seconds, every line has the same length (and so the columns line up). Missing: other times and numbers, for which the property fails."
  },
  {
   "property": "C167",
   "status": "partial",
   "theorems": [
    "DS.Conv.C167_clone_false",
    "DS.Conv.C167_others_false",
    "DS.Conv.C167_others_partial"
   ],
   "note": "C167_clone_false: C167 for `x.clone()`, `x.detach()` and the like: they copy or share the frames, but give the metadata object of `x` to their result (tensor.py:830-832). After `y = x.clone(); z = conv(y)` the lengths of `x` are those of `z`: cloning a chunk does not protect it. || C167_others_false: C167 is false of the code. After `y = relu(x); z = conv(y)` the lengths of `x` (and `y`) are those of `z`, although `x` was never given to the convolution. || C167_others_partial: C167, what happens exactly: elementwise functions change no variable. A convolution changes no frames of variables other than its argument, and it changes the metadata of a variable if and only if the variable shares its metadata object with the argument and the kernel is one frame wide or all sequences start; the metadata are then those of the output. Missing: variables that share the metadata ob"
  },
  {
   "property": "C168",
   "status": "partial",
   "theorems": [
    "DS.Conv.C168_linear_partial",
    "DS.Conv.C168_programs_false",
    "DS.Conv.C168_programs_partial",
    "DS.Conv.C168_values_partial"
   ],
   "note": "C168_programs_false: C168 is false of the code. With immutable metadata the last variable would have length 3. || C168_linear_partial: C168 for straight-line programs, such as stacks of layers: if every tensor is used by at most one statement, the program does what it does with immutable StreamTensors, and all tensors that were not used have the same values. Missing: tensors that several statements use (`C168_programs_false`). || C168_programs_partial: C168, what holds: if after a convolution no variable of the family of its argument (the variables from which or with which the argument was computed elementwise) is used again, except through the result, the program raises the same exception, or leaves the same values in all variables that are not spent and the same `stream_buffer`s, as with immutable StreamTensors. Missing: programs that use a te || C168_values_partial: C168, single statements: `f(x)` gives a tensor with the metadata of `x` and `f` of each of its frames, and `f(x, y)` of two tensors of the same width with equal metadata a tensor with that metadata and `f` of corresponding frames. Missing: tensors of different widths or with different metadata, and chunk indices (C108, C111, C159)."
  },
  {
   "property": "C169",
   "status": "partial",
   "theorems": [
    "DS.Data.C169_all_partial",
    "DS.Data.C169_exact_partial",
    "DS.Data.C169_loader_partial",
    "DS.Data.C169_single_partial",
    "DS.Data.C169_truncated_false",
    "DS.Data.C169_truncated_partial"
   ],
   "note": "C169_truncated_false: C169 is false of the code. A truncated file goes unnoticed if it is not the longest of its group: `a` lacks its end, and nothing is raised. || C169_all_partial: C169 holds if all files lack their end. Missing: as in `C169_exact_partial`. || C169_exact_partial: C169, exactly: on a stream whose files may lack their end, the generator plays groups of different files one after the other, starting with the first batch, each chunk by chunk; all groups but the last have the size of the first batch. It raises RuntimeError after the first group with a longest file that lacks its end, and returns, having delivered every sample of the stream, if there is no such g || C169_loader_partial: C169 (loader). A loader with drop_last whose batches must not overlap, with any workers: if it raises nothing while its workers are set up, it plays groups of files as in `C169_exact_partial`; what it plays of a file are its first chunks, the last of them possibly marked as the end. It returns if no group has a longest file without an end, which is so with one worker, and raises RuntimeError other || C169_single_partial: C169 holds for batches of one file: if any file lacks its end, the generator raises. Missing: several files in a batch (`C169_exact_partial`). || C169_truncated_partial: C169, where it holds: if the stream ends within its only file, the samples are yielded and then RuntimeError is raised. Missing: several files, for which `C169_exact_partial` says when it raises."
  },
  {
   "property": "C170",
   "status": "partial",
   "theorems": [
    "DS.ConvT.C170_axes_false",
    "DS.ConvT.C170_first_partial",
    "DS.ConvT.C170_mixed_partial",
    "DS.ConvT.C170_names_partial",
    "DS.ConvT.C170_row_partial"
   ],
   "note": "C170_axes_false: C170 is false of the code. Exchanging the two features of the frames (1, 2), (3, 4) should give (2, 1), (4, 3). With axes batch, features, time it does. With axes batch, time, features the call is accepted and the two frames change places: the axes count by position, whatever their names are. || C170_first_partial: C170, another axis first: a batch of several streams (or none) whose first axis has another size than the number of streams is refused by every layer, with or without padding. Missing: looking the batch axis up by its name; if the sizes agree by chance, or for a single stream, the call is accepted (C170_axes_false). || C170_mixed_partial: C170, another axis first: if some of the streams start and some do not, and the first axis has not the size of the batch (as when another axis precedes it), a layer with padding raises IndexError at the mask of the starting rows. Missing: looking the batch axis up by its name. || C170_names_partial: C170, what the code does: the names of the axes do not matter. Under other (valid) names the same data give the same data, metadata and buffer, or the same exception; the result carries the names of the argument. Missing: looking the axes up by their names (the property holds for the order batch, channels, length: C171). || C170_row_partial: C170, rows without batch axis: a StreamTensor with two axes (channels, L), as `unbind` gives, is refused by every layer, although `torch.conv1d` takes tensors without batch axis. Missing: a result for such rows."
  },
  {
   "property": "C171",
   "status": "partial",
   "theorems": [
    "DS.ConvT.C171_channels_false",
    "DS.ConvT.C171_channels_partial",
    "DS.ConvT.C171_refines",
    "DS.ConvT.C171_torch"
   ],
   "note": "C171_channels_false: C171 is false of the code. With stride 3 and kernel size 1 the chunks of 2 frames and 1 frame give two outputs; the whole sequence has one. || C171_channels_partial: C171, what holds: over any schedule of batches with axes (batch, channels, length), if no call raises, the outputs of each complete stream put together are, in every output channel, what an ordinary `Conv1d` gives for the whole stream, if the stride is at most the kernel width or no chunk but the last ends inside a gap. Missing: sequences with a chunk that ends inside a gap (C52), calls that raise"
  },
  {
   "property": "C172",
   "status": "partial",
   "theorems": [
    "DS.Tn.C172_above_partial",
    "DS.Tn.C172_axis_partial",
    "DS.Tn.C172_below_partial",
    "DS.Tn.C172_select_false",
    "DS.Tn.C172_unsqueeze_partial"
   ],
   "note": "C172_select_false: C172 is false of the code. `x.select(-5, 1)` of a tensor with two axes is not refused: it selects row 1, as `x.select(0, 1)` does. || C172_above_partial: C172, `select` with an axis above the range: IndexError, as in torch. Missing: an axis below the range. || C172_axis_partial: C172, the part that holds: the other overrides that take an axis refuse an axis out of range with IndexError. Missing: `select` with an axis below the range. || C172_below_partial: C172, `select` exactly: an axis below the range counts as axis 0. Missing: a refusal. || C172_unsqueeze_partial: C172, new axes: `unsqueeze` takes axes of the result, and refuses others with IndexError. Missing: `select`."
  },
  {
   "property": "C173",
   "status": "partial",
   "theorems": [
    "DS.Tn.C173_batch_partial",
    "DS.Tn.C173_tuple_false",
    "DS.Tn.C173_tuple_partial"
   ],
   "note": "C173_tuple_false: C173 is false of the code. `x.split((1, 1), 0)` along the batch axis raises TypeError; the list works. || C173_batch_partial: C173, the batch axis: with a tuple of sections `split` never returns. Missing: a result. || C173_tuple_partial: C173, other axes: a tuple of sections means what the list means, along the length axis for tensors that are at least as wide as their metadata say. Missing: the batch axis."
  },
  {
   "property": "C174",
   "status": "partial",
   "theorems": [
    "DS.Tn.C174_exact_partial",
    "DS.Tn.C174_ignored_partial",
    "DS.Tn.C174_lists_false",
    "DS.Tn.C174_only_lists_partial",
    "DS.Tn.C174_stack_partial"
   ],
   "note": "C174_lists_false: C174 is false of the code. `torch.stack` of two StreamTensors (here without names on their axes, since torch does not stack named tensors) computes the result, and then raises IndexError. || C174_exact_partial: C174, exactly, for all arguments. What the torch function raises is raised. Otherwise only the arguments that are StreamTensors themselves count. If there is none, a tensor becomes an IndexError. If all of them pass for the first (`Looks`), a tensor gets the metadata of the first. If one does not, the first such one decides: AttributeError without chunk indices, RuntimeError with them. Lists of te || C174_ignored_partial: C174, no refusal of different streams: StreamTensors inside lists are not looked at. With one StreamTensor `x` outside the lists the result has the metadata of `x`, whatever the lists hold. Missing: a comparison with the metadata of the others. || C174_only_lists_partial: C174, exactly: a function in no table whose StreamTensors are all inside lists gives no tensor, whatever torch returns: IndexError. Missing: a result. || C174_stack_partial: C174 for `torch.stack`: named tensors are refused by torch with RuntimeError, and so are different shapes; otherwise IndexError, whatever the metadata. Missing: a result."
  },
  {
   "property": "C175",
   "status": "partial",
   "theorems": [
    "DS.ConvT.C175_lengths_partial",
    "DS.ConvT.C175_online_partial",
    "DS.ConvT.C175_refines",
    "DS.ConvT.C175_stack_false",
    "DS.ConvT.C175_total_partial",
    "DS.ConvT.C175_unpadded_partial",
    "DS.ConvT.C175_unpadded_total_partial",
    "DS.ConvT.C175_whole"
   ],
   "note": "C175_stack_false: C175 is false of the code. A function of the entries that does not keep zeros (here `x + 1`) fills the padding of the shorter of two sequences, and the end padding of the next convolution sees it. || C175_lengths_partial: C175 without padding, by the lengths of the chunks. If every stream starts with a chunk long enough for one output of the model and each later chunk is long enough for one more, no call raises, and the outputs of each stream put together are what the ordinary model gives for the frames of the stream that have come in. Missing: shorter chunks (`C175_unpadded_total_partial`), padding (`C175_online_p || C175_online_partial: C175, what holds: if no call raises, the outputs of each complete stream put together are what the ordinary model gives for the whole stream, provided no layer gets a batch with empty first or last chunks of several streams or chunks that end inside gaps (`Fine`), and functions that do not keep zeros do not come directly before a convolution with padding (`StackOK`). Missing: such stacks and batch || C175_total_partial: C175, no exceptions: for stacks with strides below the kernel widths and chunks at least as long as C114 asks, no call raises, every output chunk has frames, and the outputs of each complete stream put together are what the ordinary model gives for the whole stream. Missing: shorter chunks, wider strides (C114, C52). || C175_unpadded_partial: C175 without padding: whatever functions are between the convolutions, whatever the batches hold next to their chunks and however short or empty the chunks are, after any number of calls that do not raise the outputs of each stream put together are what the ordinary model gives for the frames of the stream that have come in, if it gives anything for them. Missing: padding (C175_online_partial), st || C175_unpadded_total_partial: C175 without padding, no exceptions: with strides below the kernel widths no call raises if every call brings a new frame of the output of some stream (`Lively`) and no stream of which nothing has reached the last layer comes together with new ones (`Warm`). Missing: calls without new output, which raise (C58_stack_needed_partial)."
  },
  {
   "property": "C176",
   "status": "partial",
   "theorems": [
    "DS.PipeT.C176_program_false",
    "DS.PipeT.C176_program_partial",
    "DS.PipeT.C176_refines",
    "DS.PipeT.C176_wav2letter_partial"
   ],
   "note": "C176_program_false: C176 is false of the code. The last piece of `a` has one frame and gives no output in the first layer. Next to the first piece of `b` the second layer forgets that it was the last one, so that the output for the end padding never comes and `a` is not closed; alone it makes the program raise. || C176_program_partial: C176, what holds. If the first piece of every sequence is long enough for one output, pieces in between for the total stride and last pieces for what the end padding leaves of it, then whatever the order in which the pieces are dealt: the program does not raise, the ordinary model accepts every whole sequence, and for every id the collected tensor has the axes (F, L) and the size and entries of th || C176_wav2letter_partial: C176 for the example itself. For the network of examples/wav2letter.py with any weights, in exact arithmetic: if no last piece has fewer than 115 samples, the program does not raise and what the collector holds for each sequence has the shape (classes, frames) and the entries of the model's output on the whole sequence. Missing: last pieces of fewer than 115 samples, which the sizes that the examp"
  },
  {
   "property": "C177",
   "status": "partial",
   "theorems": [
    "DS.Data.C177_drop_false",
    "DS.Data.C177_ignored",
    "DS.Data.C177_list_false",
    "DS.Data.C177_list_partial",
    "DS.Data.C177_single_partial"
   ],
   "note": "C177_drop_false: C177 is false in a second way: `drop_last` of the loader does not reach the datasets of a list; of a dataset with batch size 2 and one file, batches of one sample come. || C177_list_false: C177 is false: with the default `batch_size=1` and a list of two datasets the first batch has two samples. || C177_list_partial: C177, what holds for a list of datasets: no batch is larger than the batch sizes of the datasets together, and if all datasets drop their last batches every batch has exactly that size. Missing: the `batch_size` of the loader, which has no influence (`C177_ignored`), and its `drop_last` where a dataset does not drop its last batches itself. || C177_single_partial: C177, what holds for a single dataset: no batch is larger than `batch_size`, with any number of workers, overlapping or not; with `drop_last` every batch has exactly that size. Nothing is assumed about the files. Missing: lists of datasets."
  },
  {
   "property": "C178",
   "status": "proved",
   "theorems": [
    "DS.Data.C178_iter",
    "DS.Data.C178_set",
    "DS.Data.C178_split",
    "DS.Data.C178_split_sizes",
    "DS.Data.C178_unset"
   ],
   "note": "C178_iter: C178: whatever sizes a dataset was made with and given later, iterating it gives what a dataset made with the last accepted size gives. || C178_set: C178, assignments: `None` and positive sizes are accepted and then read back (`None` raises AttributeError when read), others raise AssertionError. || C178_split: C178: a dataset can be split whether its size is set or not, with the same result. || C178_split_sizes: C178: the datasets of a split are those of `C77` in the same order, and the size of each is set to its share of the given batch size. || C178_unset: C178: while no size is set, iterating raises AttributeError, whatever the files are."
  },
  {
   "property": "C179",
   "status": "partial",
   "theorems": [
    "DS.Tn.C179_join_split",
    "DS.Tn.C179_split_join_false",
    "DS.Tn.C179_split_join_partial",
    "DS.Tn.C179_unnamed"
   ],
   "note": "C179_split_join_false: C179 is false: the names `in_x` and `out` come back as three names. || C179_split_join_partial: C179, what holds in the other direction: the names of several axes come back from their joined name exactly if there is at least one and none of them contains an underscore. Missing: names with underscores, which torch accepts."
  },
  {
   "property": "C180",
   "status": "proved",
   "theorems": [
    "DS.Tn.C180_absent",
    "DS.Tn.C180_described",
    "DS.Tn.C180_is_dim"
   ],
   "note": "C180_absent: C180: a tensor without the axis says so, and asking for the axis or its size raises ValueError. || C180_described: C180: of a described tensor the accessors give the batch and length axes, `batch_size()` is the number of sequences in the metadata, and `max_length()` is at least the longest length. || C180_is_dim: C180: on every tensor torch can hold, `is_batch_dim(d)` and `is_length_dim(d)` accept exactly the axes torch accepts, counted from either end, and are true of exactly the axis that `batch_dim` or `length_dim` gives."
  },
  {
   "property": "C181",
   "status": "partial",
   "theorems": [
    "DS.Tn.C181_mixed_partial",
    "DS.Tn.C181_quantize_false",
    "DS.Tn.C181_tuple_partial",
    "DS.Tn.C181_values_partial"
   ],
   "note": "C181_quantize_false: C181 is false of the code. Rounding the entries of two streams to multiples of 5 with `fake_quantize_per_tensor_affine` gives the rounded entries in an ordinary tensor without names: the streams are lost, and no exception is raised. A tuple of a StreamTensor and an ordinary tensor, which torch accepts, raises AttributeError. || C181_mixed_partial: C181, refused: a tuple with an ordinary tensor raises AttributeError, wherever it stands. Missing: the tuples of StreamTensors and ordinary tensors that torch accepts. || C181_tuple_partial: C181, what the code does for `quantize_per_tensor` and `quantize_per_tensor_dynamic`: one StreamTensor gives one tensor, a tuple of StreamTensors gives as many, each rounded by itself with its own scale; all are ordinary tensors without names. Missing: names and metadata. || C181_values_partial: C181, what the code does for one StreamTensor: the entries are rounded one by one, at the same places; the result is an ordinary tensor without names. Missing: names and metadata."
  },
  {
   "property": "C182",
   "status": "partial",
   "theorems": [
    "DS.Reg.C182_dispatch",
    "DS.Reg.C182_doc_false",
    "DS.Reg.C182_doc_partial"
   ],
   "note": "C182_doc_false: C182 is false of the code. `overrides.split` (overrides.py:124-127) has no documentation and is decorated with `torch.split`, `torch.functional.split`, which is the same function, and `torch.Tensor.split`: its documentation becomes the word `None`, twice that of `torch.split`, and that of the method. || C182_doc_partial: C182, documentation: a function with documentation keeps it in front; the documentations of the torch functions follow in the order from the lowest decorator to the highest, each after a line of 80 signs; the function takes the name of the highest. Other functions are unchanged. Missing: functions without documentation, torch functions that are named twice (C182_doc_false)."
  },
  {
   "property": "C183",
   "status": "partial",
   "theorems": [
    "DS.Scrape.C183_empty_false",
    "DS.Scrape.C183_lists_partial"
   ],
   "note": "C183_empty_false: C183 is false of the code. If the script finds no function for one of the lists, an empty file is written, and importing the package raises AttributeError: the file is read as one line, the name of which is empty. Without a file (a package that was installed without `doc_scrape`) IndexError is raised. || C183_lists_partial: C183, the part that holds. A list with functions is read back as exactly the functions that the script has put in, in order, whatever further files there are. Missing: empty lists."
  },
  {
   "property": "C184",
   "status": "proved",
   "theorems": [
    "DS.Scrape.C184_partition",
    "DS.Scrape.C184_skipped"
   ],
   "note": "C184_partition: C184. However the trials end: every name that is tried and not left out is in exactly one list; the two lists for in-place functions hold names that end with an underscore, the two others names that do not; only functions that gave the expected result are in them. || C184_skipped: C184: the names that are left out are those that contain `quantize` and those that end with `real`, `imag`, `frexp` or `gradient`."
  },
  {
   "property": "C185",
   "status": "partial",
   "theorems": [
    "DS.Modes.C185_readme_false",
    "DS.Modes.C185_readme_partial"
   ],
   "note": "C185_readme_false: C185 is false of the code. A model is patched with `patch_module`, as the README says. If any module below it has not been patched itself, `model.online()` raises AttributeError, with the model itself already online. || C185_readme_partial: C185, exactly. After `patch_module(model)`, `model.online()` succeeds exactly if all other modules of the model have been patched before (a model without submodules included), and then sets the mode of all modules. After `patch(model)` it always does. Missing: models whose submodules have not been patched."
  },
  {
   "property": "C186",
   "status": "proved",
   "theorems": [
    "DS.Conv.C186_whole"
   ],
   "note": "C186_whole: C186. A batch in which every sequence is a whole file (it starts and ends), zero-padded to its longest one, whatever the module holds for running streams: the online module raises exactly what the ordinary module raises for the same data as a plain tensor; otherwise it gives the same width, and in e"
  },
  {
   "property": "C187",
   "status": "partial",
   "theorems": [
    "DS.Tn.C187_assign_false",
    "DS.Tn.C187_assign_partial",
    "DS.Tn.C187_expand_partial",
    "DS.Tn.C187_lists_partial",
    "DS.Tn.C187_metadata_partial",
    "DS.Tn.C187_named_partial",
    "DS.Tn.C187_new_axis_partial",
    "DS.Tn.C187_refused_partial",
    "DS.Tn.C187_stream_partial"
   ],
   "note": "C187_assign_false: C187 is false of the code. `x[0] = y[0]` raises AttributeError, because the metadata of a row are not those of the batch (C24); but the row has been written. || C187_assign_partial: C187, numbers and unnamed tensors. With ints, slices and Ellipsis as index, a number or an unnamed tensor that can be expanded to the selected part is written to exactly the entries that the same index selects; all others stay, and so do shape and names. The metadata are not touched: `setitem` gives the data only. Missing: values with names (exact in `C187_named_partial` and `C187_expand_partial`) || C187_expand_partial: C187, values that are not of the shape of the part. A tensor with a name is never expanded, and neither is one whose shape, without leading axes of size 1, is not that of the last axes of the part with sizes 1 allowed: RuntimeError, and nothing is changed. Missing: expansion of named values. || C187_lists_partial: C187, lists and index tensors. An index that contains a list or an index tensor is always refused, and the data are as before. Missing: the assignment itself, which torch does on tensors without names. || C187_metadata_partial: C187, metadata. When torch accepts the assignment of a StreamTensor, the outcome depends on the metadata only: the assignment succeeds if those of the value look like those of `x`; otherwise it raises AttributeError if the value has no chunk indices, and RuntimeError if it has, and the entries have been written (`C187_assign_false`). Missing: as in `C187_refused_partial`. || C187_named_partial: C187, values of the shape of the part, plain or StreamTensors, with or without names. If the part has no names, or every name of the value is that of the axis of the part, the value is written to exactly the selected entries, and the outcome depends on the metadata only (`C187_metadata_partial`). Otherwise the assignment raises RuntimeError and changes nothing. Missing: as in `C187_refused_partial || C187_new_axis_partial: C187, `None` in the index. Such assignments are always refused, and nothing is changed. Missing: the assignment, which torch does on tensors without names. || C187_refused_partial: C187, refusals. When the assignment raises an error, the data are as before, unless the value is a StreamTensor whose metadata are not equal to those of `x` (`C187_assign_false`). Missing: such values, for which the entries have been written. || C187_stream_partial: C187, StreamTensors. With slices and Ellipsis as index, a StreamTensor with the shape of the part, the names of `x` and the same metadata (without chunk indices) is written to exactly the selected entries. Missing: ints in the index (`C187_named_partial`) — then the metadata of the value, which has no batch axis of this size, must still be those of `x` —, chunk indices (`C24`), and values that are"
  },
  {
   "property": "C188",
   "status": "partial",
   "theorems": [
    "DS.Tn.C188_never_partial",
    "DS.Tn.C188_others_partial",
    "DS.Tn.C188_refused_partial",
    "DS.Tn.C188_scalar_false"
   ],
   "note": "C188_scalar_false: C188 is false of the code. `x[torch.tensor(1)]` raises RuntimeError, `x[1]` gives the row. || C188_never_partial: C188, refusals, without assumptions on the rest. Such an index always raises an exception. Missing: as above. || C188_others_partial: C188, other indices. Without such an entry the index does what `C41`-`C44` say. Missing: as above. || C188_refused_partial: C188, refusals. An index that contains an integer tensor without axes, alone or in a tuple with at most one Ellipsis, never gives a wrong result, because it never gives a result: when torch accepts the index, the description has one name too many for each such entry, and RuntimeError is raised. Missing: the same result as with the int, which the code does not give (`C188_scalar_false`)."
  },
  {
   "property": "C189",
   "status": "partial",
   "theorems": [
    "DS.Tn.C189_iter_false",
    "DS.Tn.C189_iter_partial",
    "DS.Tn.C189_scalar_partial"
   ],
   "note": "C189_iter_false: C189 is false of the code. With the length axis first, iterating raises ValueError, although every `x[i]` works. || C189_iter_partial: C189. Unless the first axis is the length axis, iterating gives one StreamTensor for each position of the first axis, and the `i`-th is `x[i]`: same names, shape, metadata and entries. Missing: the length axis first (`C189_iter_false`). || C189_scalar_partial: C189, no axes. A StreamTensor without axes cannot be iterated over: TypeError, as in torch. Missing: as in `C189_iter_partial`."
  },
  {
   "property": "C190",
   "status": "partial",
   "theorems": [
    "DS.Grad.C190_copy_false",
    "DS.Grad.C190_copy_partial"
   ],
   "note": "C190_copy_false: C190 (false). A running model of two convolutions cannot be copied when gradients are recorded; before the first chunk and after the last one it can. || C190_copy_partial: C190 (partial, exact). A stack of online convolutions and pointwise functions is called on batches, and then copied. The copy is made, and has the state of the model, if and only if no convolution wider than one frame comes after a trained one, or no stream is open; otherwise RuntimeError. Under `torch.no_grad()` no weights count as trained. Missing: nothing for this model; the property as such is"
  },
  {
   "property": "C191",
   "status": "partial",
   "theorems": [
    "DS.Modes.C191_saved_false",
    "DS.Modes.C191_saved_partial"
   ],
   "note": "C191_saved_false: C191 (false). A patched model that was saved as a whole can never be loaded: AttributeError, whatever the model. || C191_saved_partial: C191 (partial, exact). Every module occurs once in the model. It can be loaded after it was saved if and only if no part of it was patched; then the loaded modules are those of the model. Missing: false of patched models (`C191_saved_false`, which also covers shared modules)."
  },
  {
   "property": "C192",
   "status": "partial",
   "theorems": [
    "DS.Move.C192_exact_partial",
    "DS.Move.C192_first_false",
    "DS.Move.C192_moved_false",
    "DS.Move.C192_moved_partial"
   ],
   "note": "C192_first_false: C192 (false). Whether frames of a higher precision are refused depends on the order of the rows: they are in the first row, they are silently converted in the second. || C192_moved_false: C192 (false). A running model that is moved to another device, or to a lower precision, refuses the next chunk of an open stream; a higher precision and a move between two streams are fine. || C192_exact_partial: C192 (exact). A stack of online convolutions that is called and moved in any order gives an output at every call if and only if no call that continues a stream has, for some convolution wider than one frame, a row with frames on another device, or frames of a precision that does not fit — of any row where the buffers have the same length, of the first row where they do not. Every other history rai || C192_moved_partial: C192 (partial). A stack of online convolutions is called and moved to other devices and precisions in any order. No call raises if all convolutions look at one frame only, or if every call that continues a stream has only rows of streams whose frames fit the place of the model (the same device, and a precision that is not higher, nor half where the model is in bfloat16 or the other way round). If "
  },
  {
   "property": "C193",
   "status": "partial",
   "theorems": [
    "DS.Coll.C193_taken_false",
    "DS.Coll.C193_taken_partial"
   ],
   "note": "C193_taken_false: C193 (false). A finished output is taken out of the collector; a new stream with the same id is refused all the same, and so it is after `clear()`. || C193_taken_partial: C193 (partial, exact). A program collects chunks and takes outputs out of the collector (`pop`, `del`, `clear`), in any order. When nothing is held for an id, the next chunk of it is collected, as the first one of a new output, if and only if it is marked as start and no chunk of this id that was marked as end has been seen; otherwise it is refused with a ValueError. Missing: new streams with the "
  },
  {
   "property": "C194",
   "status": "proved",
   "theorems": [
    "DS.Conc.C194_threads"
   ],
   "note": "C194_threads: C194. Any number of threads call one online model, each on its own batches one after the other, catching exceptions; no stream is used by two threads. Then, for every interleaving of their operations on the shared buffers, every thread ends after a number of its own operations that does not depend o"
  },
  {
   "property": "C195",
   "status": "proved",
   "theorems": [
    "DS.Conc.C195_collecting"
   ],
   "note": "C195_collecting: C195. Any number of threads put outputs into one collector, each its own ones, one call of `update` after the other, catching exceptions; no stream is used by two threads. Then, for every interleaving of their operations on the dictionary and on the set of closed ids, every thread ends after a numbe"
  },
  {
   "property": "C196",
   "status": "partial",
   "theorems": [
    "DS.Conv.C196_unknown_false",
    "DS.Conv.C196_unknown_partial"
   ],
   "note": "C196_unknown_false: C196 is false of the code. The chunk `[5, 6]` continues a stream `b` that the module knows nothing of. In a batch with a running stream it is accepted and taken for the beginning of a stream; alone it is refused. || C196_unknown_partial: C196, exactly. A batch with a chunk that does not start, of a stream of which the module (of kernel width above 1) holds nothing. If no row of the batch has held frames, the call is refused with a TypeError. Otherwise the chunk is taken for the beginning of a stream: the call has the output, or raises the exception, that it has if the module holds an empty sequence of frames for this stream. Missi"
  },
  {
   "property": "C197",
   "status": "partial",
   "theorems": [
    "DS.Conv.C197_checkpoint_false",
    "DS.Conv.C197_checkpoint_partial",
    "DS.Conv.C197_open_partial",
    "DS.Conv.C197_return_partial"
   ],
   "note": "C197_checkpoint_false: C197 is false of the code. The next chunk of an open stream, given to a new model with the state of the running one, raises a TypeError. || C197_checkpoint_partial: C197, streams that are not open. A new model with the state of a running one treats the batches of streams of which the running one holds nothing as that does. Missing: streams that were open when the state was saved (`C197_checkpoint_false`, `C197_open_partial`). || C197_open_partial: C197, streams that are open. Given a batch with a chunk that does not start, a new model with the state of a running one raises a TypeError if its first convolution has a width above 1 and only pointwise functions come before it; it gives the output of the running model, or raises its exception, if all its convolutions have width 1. Missing: as in `C197_checkpoint_partial`. || C197_return_partial: C197, returning to a checkpoint. A running model into which its own earlier state is loaded goes on from where it is: the outputs for all further batches are those without loading, whatever was given to it since the state was saved. Missing: the streams as they were when the state was saved (`C197_checkpoint_false`)."
  },
  {
   "property": "C198",
   "status": "proved",
   "theorems": [
    "DS.Conv.C198_map",
    "DS.Conv.C198_shapes"
   ],
   "note": "C198_map: C198, values: a map of the frames that keeps 0 (a gain, a change of sign, a permutation of channels) and with which all layers commute may be applied to the inputs or to the outputs, call by call: the same exceptions, metadata and frames, also after calls that raised. || C198_shapes: C198. Two patched stacks whose convolutions have the same configurations (kernel size, dilation, stride, padding), with whatever weights and pointwise functions, are called with batches that have equal metadata and shapes, with whatever frames (of whatever type): call by call, also after calls that "
  },
  {
   "property": "C199",
   "status": "partial",
   "theorems": [
    "DS.ConvT.C199_narrow_partial",
    "DS.ConvT.C199_resume_partial",
    "DS.ConvT.C199_shared_partial",
    "DS.ConvT.C199_split_false"
   ],
   "note": "C199_split_false: C199 is false of the code. With `p, q = x.split([1, 1], 1)` both parts have one metadata object. On the first chunk (1, 2), (3, 4) the first convolution leaves length 1 in it, so the second one takes the second frame for padding: of the outputs (4, 6), (8, 10) of the ordinary model only (8, 8) is left, whose second number is the sum of frames that are not neighbours. Nothing is raised. || C199_narrow_partial: C199, what holds: with parts that have metadata of their own (`narrow`), two convolutions of the same configuration, and over any schedule of batches with axes (batch, channels, length) without chunk indices: if no call raises, the outputs of each complete stream put together are, in the channels of the first convolution, what an ordinary `Conv1d` gives for the first channels of the whole stream,  || C199_resume_partial: C199, histories: a history of calls may be cut anywhere; the second part begins with the buffers the first part has left. Missing: see `C199_narrow_partial`. || C199_shared_partial: C199, parts that share their metadata: `split` does what `narrow` does, whatever the buffers, on every batch in which some row does not start if the first kernel is wider than one frame, and on every batch if both convolutions are pointwise. Missing: first chunks of streams with kernels wider than one frame (`C199_split_false`)."
  },
  {
   "property": "C200",
   "status": "partial",
   "theorems": [
    "DS.ConvT.C200_first_partial",
    "DS.ConvT.C200_refused_false",
    "DS.ConvT.C200_silent_false",
    "DS.ConvT.C200_whole_partial"
   ],
   "note": "C200_refused_false: C200 is false of the code. A pointwise convolution next to one of width 3 with padding 1: on the first chunk of two frames the branches have two outputs and one, and `torch.cat` raises RuntimeError. || C200_silent_false: C200 also fails without an exception: `torch.cat` compares sizes but, of two tensors, not the metadata, and the other streams of a batch can make the sizes equal. Of the sums 3, 6, 9, 12, 9 of stream \"b\" the code gives 3, 6, 0, 9, 12: a zero that is taken for an output in the first chunk, and the last output cut off. || C200_first_partial: C200, first chunks: if every stream in a batch starts in it and none ends, branches with kernels of different widths are never concatenated: the call raises RuntimeError, whatever the frames. Missing: as for `C200_whole_partial`. || C200_whole_partial: C200, streams in one piece: if every stream in a batch starts and ends in it, and the batch has at least one frame, the call succeeds, keeps the metadata, and gives for each stream in each half of the channels what the ordinary convolution gives for that stream. Missing: streams in several chunks (`C200_refused_false`, `C200_silent_false`; with kernels of one width C199)."
  },
  {
   "property": "C201",
   "status": "partial",
   "theorems": [
    "DS.Tn.C201_align_false",
    "DS.Tn.C201_align_partial"
   ],
   "note": "C201_align_false: C201 is false of the code. After `y = x.mean(\"L\")` (axes batch and features, metadata with lengths 3 and 2), `y.align_to(\"B\", \"F\", \"L\")` has a length axis of size 1, and its metadata still say 3 and 2. || C201_align_partial: C201, exactly. `x.align_to(*names)` (distinct names) raises RuntimeError if some axis of `x` has no name or one that is not given. Otherwise the result has the given names in the given order, every axis of `x` with its size, an axis of size 1 for every other name, the entries of `x` at the same coordinates by name, and the metadata of `x`. The batch and length axes hold the sequences of the metada"
  },
  {
   "property": "C202",
   "status": "partial",
   "theorems": [
    "DS.Conv.C202_earliest_partial",
    "DS.Conv.C202_latency_false",
    "DS.Conv.C202_latency_partial",
    "DS.Conv.C202_unpadded_partial"
   ],
   "note": "C202_latency_false: C202 is false of the code. `b` starts with one frame next to a longer chunk of `a`; the second layer loses its start padding (see `C62_chain_false`). After three frames of `b` two outputs are ready, but only one comes out, and it is not the first one. || C202_earliest_partial: C202: no stack with these kernel sizes, dilations, strides and paddings can do better. Number the frames of a sequence of `N` frames 1, ..., `N`. Of the outputs that are ready after `N` frames, those that are ready after `n ≤ N` frames depend on no frame after number `n`, and all others depend on a later one. Missing: nothing about the code; this says what `ready` in `C202_latency_partial` means. || C202_latency_partial: C202 for strides up to the kernel widths and schedules in which no layer gets an empty first or last chunk next to other rows. `n` frames of the running sequence of stream `i` have come in (after any number of complete sequences). What came out for it is: `ready ls n` outputs, the first ones that the stack computes offline for the sequence, however it goes on. Missing: batches in which some layer  || C202_unpadded_partial: C202, stacks without padding, in batches of any kind, for streams of one sequence each: after `n` frames of a stream exactly `ready ls n` outputs have come out for it, the first ones that the stack computes offline, however the stream goes on. Missing: padding (`C202_latency_partial`), ids used again (`C62_unpadded_again_false`)."
  },
  {
   "property": "C203",
   "status": "proved",
   "theorems": [
    "DS.Conv.C203_distinct_needed",
    "DS.Conv.C203_order"
   ],
   "note": "C203_distinct_needed: The order of rows matters as soon as two rows of a batch have the same id. || C203_order: C203. Batches of distinct streams, their rows in any order, any chunk indices: a stack of online convolutions and pointwise functions, with whatever in its buffers, answers every call of a history with the same exception or the same rows, in the order of the rows it was given, and is left with the s"
  },
  {
   "property": "C204",
   "status": "proved",
   "theorems": [
    "DS.Conv.C204_distinct_needed",
    "DS.Conv.C204_names"
   ],
   "note": "C204_distinct_needed: Giving two streams one name changes what is computed: their buffers are one. || C204_names: C204. Stream ids are only compared, and chunk indices not looked at: when the streams get new distinct names, whatever the chunk indices, a stack whose buffers are renamed alike answers every call with the same exception or the same rows under their new names, and is left with the same buffers under"
  },
  {
   "property": "C205",
   "status": "proved",
   "theorems": [
    "DS.Conv.C205_linear_needed",
    "DS.Conv.C205_superposition"
   ],
   "note": "C205_linear_needed: A bias breaks superposition: the output of the sum has it once, the sum of the outputs twice. || C205_superposition: C205. Superposition: when every convolution and every pointwise function of a stack commutes with an operation on frames (the sum, for linear ones) that gives 0 for zeros, then calls on the sums of two histories of batches with equal metadata and shapes raise what the calls on the two histories rais"
  },
  {
   "property": "C206",
   "status": "partial",
   "theorems": [
    "DS.Data.C206_drop_last_partial",
    "DS.Data.C206_nothing_read_partial",
    "DS.Data.C206_only_itself_false",
    "DS.Data.C206_readable_partial",
    "DS.Data.C206_stops_partial",
    "DS.Data.C206_synchronous_partial",
    "DS.Data.C206_synchronous_readable_partial",
    "DS.Data.C206_workers_partial"
   ],
   "note": "C206_only_itself_false: C206 is false: the file `a` has been read whole, but only its first sample is delivered, because the loader looks for the next file before it delivers the others; of `c`, in the other stream, and of `b` after the bad file nothing is. || C206_drop_last_partial: C206, exactly, with `drop_last`: the batches all streams have, except that the last of them is lost (it was held back to be marked as the end, lines 177-191) if the first of the streams that end there ends with a file that cannot be read. Missing: nothing beyond. || C206_nothing_read_partial: C206, without overlapping batches, if the first batch cannot be read: the exception and nothing else. Missing: files of other streams that can be read. || C206_readable_partial: C206, a dataset whose files can all be read yields what the model without exceptions midway says, and it returns. Missing: files that cannot be read (`C206_only_itself_false`). || C206_stops_partial: C206, exactly, without `drop_last`: the dataset raises the exception of the first file that is reached and cannot be read, after the batches before that: as many as there are samples before that file in its own stream. Missing: nothing of the other streams beyond that, and none of the files after it, is delivered (`C206_only_itself_false`). || C206_synchronous_partial: C206, without overlapping batches: what is delivered before the exception is what would have been delivered whatever followed, and the loader then raises the exception of the file: it does not return, and it raises nothing else. Missing: what was already read but not yet delivered is lost (`C206_only_itself_false`). || C206_synchronous_readable_partial: C206, without overlapping batches, nothing is different if all files can be read. Missing: files that cannot (`C206_only_itself_false`). || C206_workers_partial: C206, several workers without `drop_last`: the loader raises when the first worker that is asked raises, after the batches before; the parts of the other workers are still asked for in that step but not delivered. Missing: nothing after that is delivered (`C206_only_itself_false`)."
  },
  {
   "property": "C207",
   "status": "partial",
   "theorems": [
    "DS.Data.C207_all_partial",
    "DS.Data.C207_copies_partial",
    "DS.Data.C207_repeated_false",
    "DS.Data.C207_synchronous_partial"
   ],
   "note": "C207_repeated_false: C207 is false of the code: `a` is listed twice and the two copies come in different streams. With overlapping batches both are in one batch (the docstring says \"Each batch is sampled to consist only of unique files\"); without, the first sample of one of them is lost, and the first batch holds the first and the second sample of the other. || C207_all_partial: C207, the part that holds for any list of files, overlapping batches: wherever the copies come, the batches hold the samples of every file exactly as often as it is listed, and nothing else; no batch is empty or larger than the batch size. Missing: batches of different files, and batches that do not overlap, which lose samples (`C207_repeated_false`). || C207_copies_partial: C207, the part that holds, overlapping batches: if all copies of a file come in the same stream, the batches hold every file as often as it is listed, one copy after the other, and no batch holds a file twice. Missing: copies in different streams (`C207_repeated_false`). || C207_synchronous_partial: C207, the part that holds, without overlapping batches: under the same condition the loader returns, delivers every file as often as it is listed, one copy after the other, in groups of different files that start together, and a group is smaller than the first only if nothing but further copies of its files is left. Missing: copies in different streams (`C207_repeated_false`)."
  },
  {
   "property": "C208",
   "status": "partial",
   "theorems": [
    "DS.Coll.C208_exact_partial",
    "DS.Coll.C208_fresh_partial",
    "DS.Coll.C208_only_values",
    "DS.Coll.C208_reuse_false"
   ],
   "note": "C208_reuse_false: C208 is false of the code. The outputs come in one piece of memory: `[1, 2]`, then `[5, 6]`; the collector holds `[5, 6, 5, 6]` instead of `[1, 2, 5, 6]`. A stream of one chunk shows what is written into its memory afterwards (9 instead of 3). || C208_exact_partial: C208, exactly. If no call raises, the collector shows for each id: nothing, if no chunk of it has been collected; if one has, what is in the memory of this chunk *now*; if several have, what was in the memory of the first one when the second one was collected, and the others as they were when they were collected, whatever is written into any memory afterwards. (Chunks of batches without frames are || C208_fresh_partial: C208, what holds without reuse. If no memory is written into after it has been given to the collector, the collector shows at the end what it would hold if it had copied everything at once, and the same calls raise the same exceptions. Missing: memory that is written into later (`C208_reuse_false`; what is shown then: `C208_exact_partial`)."
  },
  {
   "property": "C209",
   "status": "proved",
   "theorems": [
    "DS.Data.C209_bounded",
    "DS.Data.C209_loader"
   ],
   "note": "C209_bounded: C209: on a well-formed stream whose files stay in consecutive batches and whose first batch is a largest one, the generator never holds more than `(2 B - 1) N` samples, where `B` is the size of the first batch and no file has more than `N` chunks, however many files there are and however long it run || C209_loader: C209 for the loader: with non-overlapping batches of `batch_size` it never holds more than `(2 batch_size - 1) N` samples if no file has more than `N` chunks, whatever the number of workers and files."
  },
  {
   "property": "C210",
   "status": "partial",
   "theorems": [
    "DS.Tn.C210_negative_partial",
    "DS.Tn.C210_new_axis_false",
    "DS.Tn.C210_new_axis_partial",
    "DS.Tn.C210_permute",
    "DS.Tn.C210_split_batch",
    "DS.Tn.C210_split_length_false",
    "DS.Tn.C210_split_length_partial",
    "DS.Tn.C210_split_no_rows_false",
    "DS.Tn.C210_split_other_partial",
    "DS.Tn.C210_transpose"
   ],
   "note": "C210_new_axis_false: C210 is false for negative axes: after `x.unsqueeze(-1).squeeze(-1)` the last axis has no name any more. || C210_split_length_false: C210 is false for ragged batches: the pieces of a batch split along length cannot be concatenated. || C210_split_no_rows_false: C210 is false for batches without rows: torch gives one piece (a batch without rows) and `split` none, so that nothing is left to concatenate. || C210_negative_partial: C210, negative spellings, exactly. If the new axis is given by a negative number and is not the first, its removal gives back the data and metadata, and all names but that of the axis before the new one, which is lost. Missing: that name. || C210_new_axis_partial: C210, unsqueeze and squeeze. Adding an axis and removing it gives the StreamTensor back if the axis is not spelled with a negative number (or is the first). Missing: other negative spellings (`C210_new_axis_false`, `C210_negative_partial`). || C210_split_length_partial: C210, splitting along length, exactly. A batch as wide as its longest sequence, split into pieces along length: concatenating the pieces gives it back if and only if every sequence reaches the last piece, and into it if it ends there. Missing: batches with shorter sequences, for which the concatenation raises (C31) or has other flags (C23). || C210_split_other_partial: C210, splitting along another axis. Splitting along an axis that is neither batch nor length and concatenating the pieces gives the StreamTensor back. Missing: StreamTensors with chunk indices, whose pieces `cat` refuses (C24, C32)."
  },
  {
   "property": "C211",
   "status": "partial",
   "theorems": [
    "DS.Fall.C211_decoupled_partial",
    "DS.Fall.C211_filters_partial",
    "DS.Fall.C211_named_partial",
    "DS.Fall.C211_shown_partial",
    "DS.Fall.C211_silent_false",
    "DS.Fall.C211_warns_partial"
   ],
   "note": "C211_silent_false: C211 is false of the code. `torch.argmax(x)` (a decoupled function) loses the stream without a warning. And of two calls of `flatten` that lose the stream, on different tensors and at different places of the program, only the first is reported: the warning is attributed to overrides.py and not to the place of the call. || C211_decoupled_partial: C211, decoupled functions: they never warn. Missing: the warning. || C211_filters_partial: C211, what the user sees under a filter \"always\", \"error\" or \"ignore\" for these warnings: every warning is shown; every call that would give one raises it; or no warning is shown. Missing: the losses that give no warning (`C211_decoupled_partial`). || C211_named_partial: C211, where and what. The warning of a call names the function that was called and is attributed to the line of overrides.py that gives it: one line for each function, and for the two scatters one for each reason. So calls of different functions never hide each other's warnings. Missing: calls of the same function, and decoupled functions. || C211_shown_partial: C211, what the user sees, by default. In a new session (no filter says anything about these warnings), a program of calls does what the functions do; the warning of a call that loses the stream is shown if and only if no earlier call gave the same one. Missing: later losses with the same warning, wherever in the program they happen, and decoupled functions (`C211_silent_false`). || C211_warns_partial: C211, the warnings that are given. Indexing, `flatten`, `masked_select`, `scatter_add` and `scatter_reduce` give exactly one warning, a fallback warning, if they give a tensor without metadata, and none otherwise (also if they raise). Missing: functions that are decoupled and quantisation, which give a tensor without metadata and no warning (`C211_decoupled_partial`)."
  },
  {
   "property": "C212",
   "status": "proved",
   "theorems": [
    "DS.Data.C212_order"
   ],
   "note": "C212_order: C212. On a well-formed stream, files start in the synchronised batches in the order in which they start in the stream: at any time those that were started are the first ones that arrive, and in the end all have been started."
  },
  {
   "property": "C213",
   "status": "proved",
   "theorems": [
    "DS.Coll.C213_collected",
    "DS.Conv.C213_empty",
    "DS.Conv.C213_schedule"
   ],
   "note": "C213_collected: C213: collecting a batch without sequences changes nothing. || C213_empty: C213. A batch without sequences passes through an online stack exactly when an ordinary tensor of its width passes through the ordinary one; what comes out is a batch without sequences of that width, with the metadata that came in, and all buffers are as before. Otherwise a RuntimeError is raised, a || C213_schedule: C213: wherever a batch without sequences that is wide enough comes in a schedule, the other calls give and raise what they would without it, and leave the same buffers."
  },
  {
   "property": "C214",
   "status": "partial",
   "theorems": [
    "DS.Data.C214_dataset_partial",
    "DS.Data.C214_equal_partial",
    "DS.Data.C214_loader_false",
    "DS.Data.C214_order_false",
    "DS.Data.C214_order_partial"
   ],
   "note": "C214_loader_false: C214 is false of the loader even with batches of one file: `split` (stream_dataset.py:276 and `partition_by_sum`, 45) sorts the files by their number of chunks, so that of `a` with two chunks and `b` with one, `b` starts first. || C214_order_false: C214 is false of the code. Files `a` to `e` in batches of two, `b` with three chunks and the others with one, not shuffled: `e` starts before `d`, since every second file is read by the same lane. || C214_dataset_partial: The same for a dataset: not shuffled (`order = d.files`), it starts the files as listed. Missing: see `C214_equal_partial`. || C214_equal_partial: C214, where it holds: the files start in the order in which they are listed if the batch size is 1 or all files have the same number of chunks. Missing: other datasets (`C214_order_false`, `C214_order_partial`). || C214_order_partial: C214, where it holds. Without drop_last every file starts once, and of two files the one whose lane has read fewer chunks before it starts first, or if they are equally many the one whose lane comes first in the batch; this determines the order. By C212 the synchronised batches start the files in this order too. Missing: the order in which the files are listed (`C214_order_false`)."
  },
  {
   "property": "C215",
   "status": "partial",
   "theorems": [
    "DS.Data.C215_meet_false",
    "DS.Data.C215_meet_partial",
    "DS.Data.C215_never_partial"
   ],
   "note": "C215_meet_false: C215 is false of the code. Three files, two workers, batches of two that overlap: `a` and `b` are given to the same worker, so that in no order of the files they are in a batch together. (`c` can be with either: the example below.) || C215_meet_partial: C215, where it holds. Two files can be in the first batch together, for some orders of the files of the workers, exactly if they are given to different workers or every worker contributes at least two sequences to a batch. Which files share a worker is decided by `split`, before anything is shuffled. Missing: files of the same worker, if every worker contributes one sequence (`C215_meet_false`). || C215_never_partial: C215, the other files. With overlapping batches and one sequence per worker in a batch, two files of the same worker are never in a batch together, however the files are shuffled. Missing: that they can meet."
  },
  {
   "property": "C216",
   "status": "partial",
   "theorems": [
    "DS.Data.C216_delivered_false",
    "DS.Data.C216_first_partial",
    "DS.Data.C216_overlapping_partial",
    "DS.Data.C216_read_partial"
   ],
   "note": "C216_delivered_false: C216 is false of the code. Two of the three chunks of `a`, all of `b` and all of `c` have been read, and the loader has given out nothing; the loader with overlapping batches has given out both batches. || C216_first_partial: C216, the first batch. The loader without overlapping batches gives out its first batch exactly if all files in it were read to their ends; otherwise it has given out nothing. Missing: files with several chunks, of which the first has been read. || C216_overlapping_partial: C216, with overlapping batches. Every batch that was read is given out, and then the exception of the source is raised. Missing: loaders without overlapping batches. || C216_read_partial: C216, what is given out. Whatever the loader without overlapping batches gives out before its source stops belongs to files that were read to their ends by then. This holds of every stream of batches. Missing: chunks are held back until the whole file was read."
  },
  {
   "property": "C217",
   "status": "partial",
   "theorems": [
    "DS.Conv.C217_few_partial",
    "DS.Conv.C217_gap_false",
    "DS.Conv.C217_padded_partial",
    "DS.Conv.C217_unpadded_partial"
   ],
   "note": "C217_gap_false: C217 is false of the code. Kernel 1, stride 3: frame 2 is in a gap and reaches no output of the ordinary convolution, but the first chunk ends in that gap, so that the convolution starts over with frame 2: output 1 changes with it. || C217_few_partial: C217, how many outputs are damaged: `w` neighbouring frames reach at most `reachCount ls w` outputs, wherever they are in the stream and however long it is. Missing: what is missing from `C217_unpadded_partial` and `C217_padded_partial`, which say that only these outputs are damaged. || C217_padded_partial: C217, complete streams of stacks with padding, followed by layers without padding: the frames of a stream are the same but for those that can see the damaged frames. Missing: empty first or last chunks next to other rows in front of a padded layer, chunks that end inside a gap (`C217_gap_false`). || C217_unpadded_partial: C217, stacks without padding, with strides up to the kernel widths: a run on batches of the same shapes, of which stream `i` has other frames from `p` up to `q`, is accepted as well, and gives the same frames of `i` but for those that can see the damaged frames, however long the stream goes on; streams without damage are given as they were. Missing: padding (`C217_padded_partial`), strides above t"
  },
  {
   "property": "C218",
   "status": "partial",
   "theorems": [
    "DS.Conv.C218_call_partial",
    "DS.Conv.C218_mask_false",
    "DS.Conv.C218_padded_first_partial",
    "DS.Conv.C218_unpadded_partial"
   ],
   "note": "C218_mask_false: C218 is false of the code. Where the first layer zeroes its padding, infinity times 0 gives NaN, which the second layer takes for the end padding of the shorter sequence: its last output is NaN instead of 0, and the one before that NaN instead of infinity. The model without infinities gives the ordinary outputs. || C218_call_partial: C218, one call. For every module, every state of the buffers and every batch, a call raises exactly when the model without infinities raises, with the same exception, and otherwise gives the same metadata, width, buffers and valid frames. Missing: the content of the padding of the output, which later layers may read (`C218_mask_false`). || C218_padded_first_partial: C218, padding in the first layer. If only the first layer has padding, every complete stream still gets the outputs of the ordinary stack. Missing: layers with padding after the first (`C218_mask_false`). || C218_unpadded_partial: C218, stacks without padding. Whatever multiplication by 0 makes of the outputs in the padding, a stack of layers without padding accepts the same batches, and every stream gets the outputs of the ordinary stack on its frames. Missing: layers with padding after the first (`C218_mask_false`)."
  },
  {
   "property": "C219",
   "status": "partial",
   "theorems": [
    "DS.Meta.C219_metadata_partial",
    "DS.Tn.C219_getitem_partial",
    "DS.Tn.C219_getitem_sos_partial",
    "DS.Tn.C219_index_select_partial",
    "DS.Tn.C219_methods",
    "DS.Tn.C219_others",
    "DS.Tn.C219_outside_false"
   ],
   "note": "C219_outside_false: C219 is false of the code. The start flag of `x[:, []]` is whatever the memory behind an empty array says. || C219_metadata_partial: C219, `metadata[…]` with any index: ids, lengths, end flags and chunk indices, or the exception raised, do not depend on what is outside the arrays. Missing: the start flags. || C219_getitem_partial: C219, `x[…]`: if no entry of the index is an empty list of positions or a mask without True, nothing depends on what is outside the arrays. Missing: indices that select nothing along length, where the start flags do depend on it. || C219_getitem_sos_partial: C219, `x[…]` with any index: data, names, ids, lengths, end flags and chunk indices, or the exception raised, do not depend on what is outside the arrays. Missing: the start flags. || C219_index_select_partial: C219, `index_select`: likewise, with at least one position. Missing: no positions."
  },
  {
   "property": "C220",
   "status": "partial",
   "theorems": [
    "DS.Coll.C220_batches_partial",
    "DS.Coll.C220_late_false",
    "DS.Coll.C220_marked_false",
    "DS.Coll.C220_single"
   ],
   "note": "C220_late_false: C220 is false of the code, the consequence: a chunk of that stream that comes after its end is not refused but appended. || C220_marked_false: C220 is false of the code. A stream of four frames goes through a convolution of width 3 and stride 2, in chunks of three frames and one. All batches are accepted by the module and by the collector, the entry holds the whole output, but it is not marked as ended and its id is not closed: the last output is empty and was skipped. || C220_batches_partial: C220, batches: when a program has collected batches of streams without an exception, the entry of a stream is marked as ended, and its id closed, exactly if the last chunk collected is marked as end and is not empty. Missing: streams whose last chunk is empty."
  },
  {
   "property": "C221",
   "status": "partial",
   "theorems": [
    "DS.Coll.C221_bound_partial",
    "DS.Coll.C221_exact_partial",
    "DS.Coll.C221_linear_false"
   ],
   "note": "C221_linear_false: C221 is false of the code. Every chunk is appended by copying all that was collected before: whatever the factor `k`, some stream makes the collector write more than `k` times the frames collected. || C221_bound_partial: C221, a bound: never more than the number of chunks times the frames collected. Missing: a bound proportional to the frames alone. || C221_exact_partial: C221, exactly: collecting well-formed streams, interleaved as they may be, writes with every chunk that is not the first of its stream all frames of that stream so far. Missing: the bound claimed, see `C221_linear_false`."
  },
  {
   "property": "C222",
   "status": "partial",
   "theorems": [
    "DS.Tn.C222_axis_false",
    "DS.Tn.C222_axis_partial",
    "DS.Tn.C222_exact_partial",
    "DS.Tn.C222_frames",
    "DS.Tn.C222_none",
    "DS.Tn.C222_ragged",
    "DS.Tn.C222_ranks_false",
    "DS.Tn.C222_ranks_partial",
    "DS.Tn.C222_refused_false"
   ],
   "note": "C222_axis_false: C222 is false of the code. An axis that no tensor has is not refused: `dim=-3` with tensors of two axes exchanges batch and length in the result. || C222_ranks_false: C222 is false of the code. Along the first axis, a tensor of one axis next to a tensor of two is accepted if it happens to be as long as the other is wide, and is repeated on every line. || C222_refused_false: C222 is false of the code. A file of one channel in a batch with a longer file of two channels is not refused: its only channel is delivered twice. In a batch with a shorter file of two channels it raises. || C222_axis_partial: An axis behind the last, or before the first by more than the number of axes again, raises IndexError; so does no tensor at all for an axis counted from the end (for one counted from the front it raises RuntimeError). Missing: axes just before the first, see `C222_axis_false`. || C222_exact_partial: C222. Tensors of the same number of axes, with the same sizes off axis `d`, come out as one tensor with a first axis for the batch, as wide on axis `d` as the widest of them. At place `i` of the batch is tensor `i`, and `pad` behind its end. More generally, a tensor may have size 1 on an axis on which the first tensor has another size; its entries are then repeated. Anything else raises RuntimeErr || C222_ranks_partial: C222, tensors of different numbers of axes along the last axis of the first (as `custom_collate` calls it): they are always refused, with IndexError if one of them has fewer axes than the first and with RuntimeError otherwise. Missing: other axes, for which see `C222_ranks_false`."
  },
  {
   "property": "C223",
   "status": "partial",
   "theorems": [
    "DS.Tn.C223_collated_partial",
    "DS.Tn.C223_default_false",
    "DS.Tn.C223_names_false",
    "DS.Tn.C223_refused"
   ],
   "note": "C223_default_false: C223 is false of the code. With the default `names=None` no batch of a dataset has metadata that describe it: no axis has a name. || C223_names_false: C223 is false of the code. Names in another order are accepted and put on the wrong axes: with `names=[\"L\", \"F\", \"B\"]` a batch of two samples of five frames is said to have five sequences. || C223_collated_partial: C223, what holds. If the dataset has names for all axes with the batch in front and the length last, and the samples have the same sizes but for the last axis: collating gives a StreamTensor with metadata that describe it. Its rows are the samples by decreasing length, those of equal length in the order in which they came; each row holds the data and the metadata of its sample, and padding behind."
  },
  {
   "property": "C224",
   "status": "proved",
   "theorems": [
    "DS.Coll.C224_order",
    "DS.Coll.C224_same",
    "DS.Coll.C224_stable",
    "DS.Coll.C224_taken"
   ],
   "note": "C224_order: C224. A new collector is given any interleaving of well-formed chunk streams, in batches or one by one. Then `list(collector.items())` has every stream once, in the order of their first chunks (in a batch: of the rows), each with all of its frames. || C224_same: C224 (refinement). The collector with the order of its dictionary and the one without (of which C67–C70, C193 and others speak) do the same: whatever they are given, well-formed or not, they raise the same exception and hold the same outputs afterwards; no id is listed twice. || C224_stable: C224 (stable). Whatever is collected, and whether it raises or not: the ids that are listed keep their places, and new ones are listed after them. || C224_taken: C224 (taken out). `pop(i)` takes `i` out of the list, the others stay in their order; it raises a KeyError if and only if `i` is not listed, and nothing changes then."
  },
  {
   "property": "C225",
   "status": "partial",
   "theorems": [
    "DS.Data.C225_at_most",
    "DS.Data.C225_drop_last",
    "DS.Data.C225_given",
    "DS.Data.C225_headers_false",
    "DS.Data.C225_headers_partial",
    "DS.Data.C225_lazy",
    "DS.Data.C225_once",
    "DS.Data.C225_trace",
    "DS.Data.C225_workers"
   ],
   "note": "C225_headers_false: C225 is false for a dataset that is given `file_lengths`: iterated by a loader, each of its files is opened twice, for its header by `split` and for its audio by the worker. || C225_headers_partial: C225 (headers). Splitting a dataset for workers, as the loader does at each iteration, opens no file if the dataset has metadata. A dataset that was given `file_lengths` has none (`C225_given`), and then every file is opened once more, for its header. Missing: \"each file is read only once per iteration\" for such datasets, which is false (`C225_headers_false`)."
  },
  {
   "property": "C226",
   "status": "proved",
   "theorems": [
    "DS.Work.C226_ahead",
    "DS.Work.C226_delivers",
    "DS.Work.C226_ends",
    "DS.Work.C226_files",
    "DS.Work.C226_loader",
    "DS.Work.C226_merge",
    "DS.Work.C226_progress",
    "DS.Work.C226_same"
   ],
   "note": "C226_ahead: C226 (read ahead). No worker is ever more than `prefetch` messages ahead. || C226_delivers: C226 (delivers). Without `drop_last`, for distinct files that can be read and are cut into chunks as `S` says, any number of workers that divides the batch size, any queue size, any orders of the files and any schedule: an iteration whose workers have ended has returned, and the batches that the loa || C226_ends: C226 (ends). There is a bound on the number of steps that can be taken in any schedule. With `C226_progress`: processes that take steps as long as one can do so end the iteration. || C226_files: C226 (files). If the files can be read, then, however the workers of the datasets are scheduled and however far they read ahead, an iteration that has ended has returned, and the loader yields what it yields with the datasets iterated one after the other in the process itself (`loader`, which C75–C8 || C226_loader: C226 (loader). With overlapping batches, the batches of the loader when the iteration ends are those of the sequential model of the loader (`loaderG`, C206), for every schedule of its workers. || C226_merge: C226 (parts put together). The same for what `make_streams_synchronous` reads when batches do not overlap. || C226_progress: C226 (no deadlock). As long as the iteration has not ended, some process can take a step. || C226_same: C226 (order). Whatever the schedule, the process that iterates has yielded the first batches of the sequential program (C206), in order; when it ends, it has yielded all of them and ends like it."
  },
  {
   "property": "C227",
   "status": "partial",
   "theorems": [
    "DS.Live.C227_fixed_false",
    "DS.Live.C227_iterators_partial",
    "DS.Live.C227_whole_drop",
    "DS.Live.C227_whole_partial"
   ],
   "note": "C227_fixed_false: C227 as stated is false: `chunk_seconds` is assigned while the dataset is iterated, and the file that is opened next is cut into chunks of the new size. || C227_iterators_partial: C227 (iterators). A program makes an iterator of a dataset and then does anything: calls `next` on it, makes further iterators and calls `next` on these and earlier ones, assigns to the dataset's file list, batch size, `shuffle`, `drop_last` and the other attributes, and changes other files. Then the calls of `next` on the iterator give, one after the other, the batches of the dataset as it was wh || C227_whole_partial: C227 (no mixtures). Whatever a program does after it has made an iterator without `drop_last` of distinct files, also if it assigns to `chunk_seconds` and `transform` or changes files: the samples of a file that the iterator yields are the first ones of the samples that the file gives with the attributes and files of one moment. Missing: with `drop_last` the samples of the last batch are marked as"
  },
  {
   "property": "C228",
   "status": "partial",
   "theorems": [
    "DS.LLive.C228_collate_false",
    "DS.LLive.C228_delivers_partial",
    "DS.LLive.C228_loader_partial",
    "DS.LLive.C228_made_false",
    "DS.LLive.C228_started_partial",
    "DS.LLive.C228_undisturbed_partial"
   ],
   "note": "C228_collate_false: C228 is false: an assignment to `collate_fn` reaches an iterator that has begun; without one the next call raises TypeError, and the batches left are lost. || C228_made_false: C228 is false: an assignment between `iter(loader)` and the first `next` changes the batches of the iterator. || C228_delivers_partial: C228, everything is delivered: without `drop_last`, for distinct files that can be read and are cut into chunks as `S` says, the results of an iterator are batches that hold every chunk of every file exactly once and in order, collated, and then StopIteration. Missing: as in `C228_started_partial`. || C228_loader_partial: C228 (files). If the files can be read, an iterator of a loader gives, whatever a program does with it, with other iterators and with the loader after the first call of `next`, what a loader that iterates its datasets one after the other in the process itself (`loader`, which C75–C82, C160 and C161 are about) yields with the options and the dataset of that first call. Missing: as in `C228_started_ || C228_started_partial: C228 (started). A program makes an iterator of a loader, does anything but call `next` on it, calls `next` on it for the first time, and then does anything: uses this and other iterators, assigns to any attribute of the loader and of its dataset. If the loader can split its dataset at that first call, the iterator gives the batches of the loader as it was then, each collated with the `collate_fn`  || C228_undisturbed_partial: C228, an iterator that has begun is not disturbed: two programs that go on differently after the first call of `next`, but do not change `collate_fn`, get the same from it, call by call. Missing: as in `C228_started_partial`."
  },
  {
   "property": "C229",
   "status": "partial",
   "theorems": [
    "DS.Coll.C229_collector",
    "DS.Coll.C229_refuses",
    "DS.Conv.C229_again_partial",
    "DS.Conv.C229_dropped_false",
    "DS.Conv.C229_empty_false",
    "DS.Conv.C229_epochs_partial",
    "DS.Conv.C229_single",
    "DS.Conv.C229_stack_partial",
    "DS.Conv.C229_whole",
    "DS.Data.C229_convolution",
    "DS.Data.C229_epoch_refused",
    "DS.Data.C229_loader_partial",
    "DS.Data.C229_program_partial"
   ],
   "note": "C229_dropped_false: C229 is false of the code for streams cut off: if the last batches of a pass are dropped (C77), streams stay open and the next pass starts from what they left. Here `a` starts its second pass with the last frame of the first one in front: `[21, 12]` instead of `[12]`. || C229_empty_false: C229 is false of the code. If a stream ends with an empty chunk in a batch of several rows, its end is forgotten and its buffer survives the pass. In the next pass its frames are put in front of the stream: here the first chunk of `a`, too short for an output, gets one computed from frames of the previous pass. || C229_again_partial: C229, state: when every stream of the batches has ended, a patched stack that was fresh before holds nothing: it is in its initial state again, whatever the batches are and however often ids are used. Missing: empty last chunks in batches of several rows (`C229_empty_false`); calls that raise (C149). || C229_epochs_partial: C229. Any number of passes over data, each of which ends every stream it starts, through one patched stack: the results are those of a fresh stack for each pass, and if a pass raises, so does the whole, with the same exception. Missing: empty last chunks in batches of several rows (`C229_empty_false`). || C229_stack_partial: C229 for streams of any number of chunks. A stack as in C114 and any number of passes, each a schedule in which every stream ends, with chunks as long as C114 asks (the first long enough for one output of the stack, the later ones as long as its total stride): no call raises in any pass, the outputs of every pass are those of the ordinary stack on the whole sequences, and the stack holds nothing a || C229_loader_partial: C229 for a loader. Files of one chunk each, without drop_last, any workers, and any number of epochs, each with an order of its own (`shuffle`): a patched stack as in C114 that is called on every batch of every epoch never raises, gives in every epoch for every file the output of the ordinary stack on the whole file, and holds no buffers at the end. Missing: files of several chunks, which the load || C229_program_partial: C229, the whole program. Files of one chunk each, without drop_last, any workers; any number of epochs in orders of their own, with one patched stack as in C114 and a new `OutputCollector` in every epoch: nothing raises, and at the end of every epoch the collector holds for every file the output of the ordinary stack on the whole file, and nothing else. Missing: files of several chunks, which the "
  },
  {
   "property": "C230",
   "status": "partial",
   "theorems": [
    "DS.Conv.C230_leak_false",
    "DS.Conv.C230_model_partial",
    "DS.Conv.C230_unbounded_false",
    "DS.Data.C230_convolution",
    "DS.Data.C230_drop_convolution",
    "DS.Data.C230_drop_last",
    "DS.Data.C230_drop_stack_partial",
    "DS.Data.C230_loader",
    "DS.Data.C230_stack_partial"
   ],
   "note": "C230_leak_false: C230 is false of the code. Two files at a time through two convolutions; the last chunk of a file gives no output in the first, so it is empty for the second, which forgets that the file has ended and keeps its buffer. After four batches the second convolution holds buffers of four files, three of which have ended; so it goes on with every further file (`C230_unbounded_false`). || C230_unbounded_false: C230 is false of the code, without bound. Files of six frames in chunks of five and one, every file beginning in the batch in which the file before it ends: never more than two files are in a batch and one is open after it, no chunk is empty and no call raises. Still the second of two convolutions holds, after `n` files have ended, a buffer for each of them. || C230_model_partial: C230, the model. Batches in which no stream is interrupted, through any stack: every layer holds buffers for streams of the latest batch only, each shorter than its kernel. Missing: streams that end with a chunk which is empty for some layer, whose buffers stay for ever (`C230_leak_false`). || C230_drop_stack_partial: C230 with drop_last. As `C230_stack_partial`, for the batches that are left by drop_last, whether or not all files are complete in them. Missing: layers that get an empty last chunk next to other sequences (`C230_leak_false`). || C230_stack_partial: C230. Without drop_last, whatever the workers, batch size, shuffling and order: when any number of the loader's batches have been streamed through a stack, there are at most `batch_size` files for which any layer holds a buffer, and each buffer is shorter than the layer's kernel, however many files there are and however long they are. Missing: files that end with a chunk which is empty for some la"
  },
  {
   "property": "C231",
   "status": "proved",
   "theorems": [
    "DS.Conv.C231_alone",
    "DS.Conv.C231_call",
    "DS.Conv.C231_stack"
   ],
   "note": "C231_alone: C231, in total: a stream that is alone in its batches takes exactly the kernel evaluations of the ordinary convolution of the whole sequence. || C231_call: C231, each call: however long its streams are already, a call evaluates the kernel at most once per sequence and kernel position within the chunk and its padding. || C231_stack: C231 for stacks: each layer of a stack, for each call, however long the streams are already. `p` are the layers up to the one in question."
  },
  {
   "property": "C232",
   "status": "partial",
   "theorems": [
    "DS.Data.C232_drop_width_partial",
    "DS.Data.C232_total_partial",
    "DS.Data.C232_width_false",
    "DS.Data.C232_width_partial"
   ],
   "note": "C232_width_false: C232 is false of the code. A file of three frames in chunks of one frame: each of the three batches has all three frames. || C232_drop_width_partial: C232, exactly, with drop_last. Missing: as in `C232_width_partial`. || C232_total_partial: C232, one file: however short the chunks, each of its batches is as wide as the file, so that all of them together have the square of the length of the file, divided by the length of the chunks. Missing: as in `C232_width_partial`. || C232_width_partial: C232, exactly, without drop_last: a batch is as wide as the longest of the files it has samples of, whatever part of them it is at, and has one row per sample. Missing: that it be as wide as its longest chunk; so it is if every file is one chunk."
  },
  {
   "property": "C233",
   "status": "partial",
   "theorems": [
    "DS.Data.C233_bound_partial",
    "DS.Data.C233_total_false",
    "DS.Data.C233_total_partial"
   ],
   "note": "C233_total_false: C233 is false of the code. A file of three frames in chunks of one frame, and a kernel of one frame: it is evaluated nine times; the ordinary convolution evaluates it three times. || C233_bound_partial: C233, at most: in a loader's epoch without drop_last a call evaluates the kernel at most once for every sample of the batch and kernel position within the longest of the files of the batch and the padding. Missing: that it be within the chunks; for files of one chunk it is. || C233_total_partial: C233, exactly, for one file and kernels of one frame. A dataset of one file, without drop_last, and a convolution whose kernel is one frame: no call raises, and the kernel is evaluated once for every stride-th frame of the whole file in every chunk, so in total as often as in the ordinary convolution of the file times the number of chunks. Missing: that it be as often as in the ordinary convolutio"
  }
 ]
}