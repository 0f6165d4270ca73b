{"id": "C01", "title": "Range coordinate construction is self-consistent", "statement": "Whenever get_coord(start, stop, step) (or start/step/shape, stop/step/shape, start/stop/shape) succeeds with a non-zero step, the coordinate has at least one sample, sample i is start + i*step, the exclusive stop equals start + len*step, min()/max() are the smallest/largest sample, and the number of samples differs from the exact span/step only by the documented rounding (a trailing fraction of at most a twentieth of a step is dropped, anything larger adds a sample). When step points away from stop an error is raised instead of a coordinate.", "quantifier": "every start, stop, step (any sign) and length", "why_tests_cant": "Tests use a few hand-picked starts/steps; the claim is about all rational starts, stops and steps of either sign.", "anchors": ["dascore/core/coords.py:CoordRange.validate_start_stop_step_len", "dascore/core/coords.py:CoordRange.values", "dascore/core/coords.py:CoordRange._min", "dascore/core/coords.py:CoordRange._max"]}
{"id": "C02", "title": "Slicing a range coordinate slices its values", "statement": "For every Python slice (any start/stop, negative or None, any non-zero step), coord[slice] on an evenly sampled coordinate has exactly the values of coord.values[slice]; integer indexing returns the matching value or raises IndexError at or past the end.", "quantifier": "every evenly sampled coordinate and every slice object", "why_tests_cant": "The slice space (sign and magnitude of three optional integers times length) is infinite.", "anchors": ["dascore/core/coords.py:CoordRange.__getitem__"]}
{"id": "C03", "title": "Value selection on an evenly sampled coordinate is exact", "statement": "coord.select((a, b)) on an evenly sampled coordinate of either direction keeps exactly those samples whose value lies in the closed interval between a and b (open-ended where a limit is None; limits may be given in either order), up to the documented 1e-10-of-a-step fudge; the returned indexer applied to the old values gives the values of the returned coordinate; an empty result is a degenerate coordinate with indexer slice(0, 0). For integer/nanosecond coordinates with step below 2e10 the interval is exact.", "quantifier": "every evenly sampled coordinate, every pair of optional limits", "why_tests_cant": "Off-by-one at either limit, reverse coords, limits outside, between samples or equal to samples; unit tests sample these.", "anchors": ["dascore/core/coords.py:CoordRange.select", "dascore/core/coords.py:CoordRange._get_index", "dascore/core/coords.py:BaseCoord.get_slice_tuple", "dascore/core/coords.py:BaseCoord._slice_degenerate"]}
{"id": "C04", "title": "Value selection on a monotonic coordinate is exact", "statement": "coord.select((a, b)) on a strictly increasing or strictly decreasing coordinate keeps exactly the samples within the closed interval between a and b, contiguous and in order, and the indexer applied to the old values gives the new coordinate's values.", "quantifier": "every strictly monotonic array and every pair of optional limits", "why_tests_cant": "The implementation goes through searchsorted on both sides and special cases; correctness depends on every relative position of limits and samples.", "anchors": ["dascore/core/coords.py:CoordMonotonicArray.select", "dascore/core/coords.py:CoordMonotonicArray._get_index"]}
{"id": "C05", "title": "Value selection does not depend on how the coordinate is represented", "statement": "Selecting a value interval from the same list of labels gives the same labels whether the coordinate is stored as a range, a monotonic array or a plain array; on plain (unsorted, duplicated) arrays exactly the in-interval samples are kept, in their original order.", "quantifier": "every label list and every pair of optional limits", "why_tests_cant": "Three independent implementations must agree on all inputs.", "anchors": ["dascore/core/coords.py:CoordArray.select", "dascore/core/coords.py:CoordMonotonicArray.select", "dascore/core/coords.py:CoordRange.select"]}
{"id": "C06", "title": "Sorting a coordinate permutes its samples", "statement": "coord.sort(reverse) returns a coordinate with the same multiset of values in non-decreasing (non-increasing if reverse) order, together with an indexer which applied to the original values yields exactly the new values.", "quantifier": "every coordinate, both directions", "why_tests_cant": "Loss or duplication of a sample, or an indexer disagreeing with the values, can appear at any length and ordering.", "anchors": ["dascore/core/coords.py:CoordRange.sort", "dascore/core/coords.py:CoordArray.sort"]}
{"id": "C07", "title": "Ordering a coordinate by values returns the requested labels", "statement": "coord.order(values) yields, for each requested value present in the coordinate, every occurrence of that value, in the order requested; the indexer picks exactly those labels; absent values are ignored.", "quantifier": "every coordinate (sorted, reverse sorted, unsorted, with duplicates) and every request array", "why_tests_cant": "Searchsorted ranges with duplicates and unsorted backing arrays, for all arrays.", "anchors": ["dascore/core/coords.py:BaseCoord._order_by_value_array", "dascore/core/coords.py:BaseCoord._get_value_index", "dascore/core/coords.py:BaseCoord.order", "dascore/core/coords.py:BaseCoord._order_by_sample_array"]}
{"id": "C08", "title": "Aligning two coordinates leaves identical common labels", "statement": "a.align_to(b) returns two coordinates with identical values - the sorted labels common to both, when neither repeats a label - and indexers which pick those labels from each original.", "quantifier": "every pair of one-dimensional coordinates", "why_tests_cant": "Quantifies over pairs of arbitrary arrays.", "anchors": ["dascore/core/coords.py:BaseCoord.align_to"]}
{"id": "C09", "title": "change_length keeps start and step", "statement": "change_length(n) on an evenly sampled coordinate returns a coordinate with exactly n samples which agrees with the old one on the common prefix and continues with the same step; n = 0 gives an empty coordinate; negative or non-integer n raises ParameterError.", "quantifier": "every evenly sampled coordinate and every requested length", "why_tests_cant": "All coordinates and all lengths.", "anchors": ["dascore/core/coords.py:CoordRange.change_length", "dascore/core/coords.py:_validate_new_length", "dascore/core/coords.py:BaseCoord.update"]}
{"id": "C10", "title": "A coordinate survives conversion to a summary and back", "statement": "to_summary().to_coord() on an evenly sampled coordinate, in either direction, gives the same values.", "quantifier": "every evenly sampled coordinate", "why_tests_cant": "Both directions and all starts/steps.", "anchors": ["dascore/core/coords.py:CoordSummary.to_coord", "dascore/core/coords.py:BaseCoord.to_summary"]}
{"id": "C11", "title": "get_next_index returns the first sample at or after a value", "statement": "get_next_index(v) on a sorted coordinate returns the index of the first sample not smaller than v when v is inside the limits, raises ValueError outside them, and with allow_out_of_bounds returns an index consistent with extending the coordinate.", "quantifier": "every sorted coordinate and every value", "why_tests_cant": "All values between, on and outside samples.", "anchors": ["dascore/core/coords.py:BaseCoord.get_next_index", "dascore/core/coords.py:CoordRange._get_index", "dascore/core/coords.py:CoordMonotonicArray._get_index"]}
{"id": "C12", "title": "update_limits puts the coordinate where it was asked to be", "statement": "coord.update_limits(min=m) gives min() == m, update_limits(max=m) gives max() == m, update_limits(step=s) keeps the start, all keeping the number of samples and (for min/max) the spacing; update_limits(min=a, max=b) gives min() == a and max() == b.", "quantifier": "every evenly sampled coordinate and every requested limit", "why_tests_cant": "Ranges over all coordinates including descending ones.", "anchors": ["dascore/core/coords.py:CoordRange.update_limits", "dascore/core/coords.py:CoordArray.update_limits"]}
{"id": "C13", "title": "snap gives an evenly sampled coordinate of the same length and limits", "statement": "coord.snap() returns an evenly sampled coordinate of the same length, same direction and same min() and max().", "quantifier": "every sorted coordinate of any length", "why_tests_cant": "All lengths and roundings of the mean spacing.", "anchors": ["dascore/core/coords.py:CoordArray.snap"]}
{"id": "C14", "title": "get_coord(data=array) represents that array", "statement": "The coordinate built from an array has exactly the array's values whichever representation is chosen, and is declared evenly sampled / sorted / reverse sorted only if the values are.", "quantifier": "every array of values", "why_tests_cant": "Classification and start/stop/step reconstruction must be right for every array.", "anchors": ["dascore/core/coords.py:get_coord", "dascore/core/coords.py:CoordMonotonicArray._step_meets_requirement", "dascore/utils/misc.py:all_diffs_close_enough"]}
{"id": "C15", "title": "Indexer simplification never changes what is selected", "statement": "Replacing an index array by a slice, turning sample-range arguments into slices, and applying several indexers at once pick the same elements as the literal numpy meaning of the arguments.", "quantifier": "every index array, every sample range, every array length", "why_tests_cant": "All index arrays including wrap-around, reversed and length-one arrays.", "anchors": ["dascore/utils/misc.py:_maybe_array_to_slice", "dascore/utils/misc.py:_to_slice", "dascore/utils/misc.py:_apply_union_indexers", "dascore/utils/misc.py:sanitize_range_param"]}
{"id": "C16", "title": "A coordinate manager is always well formed", "statement": "After any sequence of update / rename / drop / disassociate / set_dims / transpose / squeeze / select / decimate calls that succeed, the coordinate manager still has distinct dimensions, every coordinate's dimensions are dimensions of the manager, every coordinate's shape agrees with the dimensions it is attached to, and shape is the tuple of dimension lengths.", "quantifier": "every reachable history of coordinate-manager operations", "why_tests_cant": "Histories are unbounded.", "anchors": ["dascore/core/coordmanager.py:CoordManager.update", "dascore/core/coordmanager.py:CoordManager.drop_coords", "dascore/core/coordmanager.py:CoordManager.rename_coord", "dascore/core/coordmanager.py:CoordManager.squeeze", "dascore/core/coordmanager.py:CoordManager.transpose", "dascore/core/coordmanager.py:CoordManager.select", "dascore/core/coordmanager.py:get_coord_manager"]}
{"id": "C17", "title": "Selecting from a patch keeps every surviving sample's labels", "statement": "patch.select / order / sort_coords on any coordinates (dimensional or attached) return data and coordinates such that every element of the new array carries the same labels, on every coordinate, as it carried in the old patch, and exactly the elements whose labels satisfy the query survive.", "quantifier": "every patch shape, every coordinate layout, every query", "why_tests_cant": "Data and coordinates are indexed separately; they must stay in step for all inputs.", "anchors": ["dascore/core/coordmanager.py:_get_indexers_and_new_coords_dict", "dascore/core/coordmanager.py:_indirect_coord_updates", "dascore/core/coordmanager.py:CoordManager.select", "dascore/core/coordmanager.py:CoordManager.order", "dascore/core/coordmanager.py:CoordManager.sort", "dascore/proc/coords.py:select"]}
{"id": "C18", "title": "Transpose only relabels axes", "statement": "patch.transpose(*dims) (with at most one ...) gives a patch whose dims are the requested permutation and in which every element keeps its labels; transposing back restores the patch; anything that is not a permutation raises.", "quantifier": "every patch and every dim permutation", "why_tests_cant": "All ranks and permutations.", "anchors": ["dascore/core/coordmanager.py:CoordManager.transpose", "dascore/proc/coords.py:transpose"]}
{"id": "C19", "title": "rename_coords renames and nothing else", "statement": "rename_coords(old=new, ...) gives a patch in which each renamed coordinate or dimension appears under its new name with the same values, order and associations, the others are unchanged, and none is lost.", "quantifier": "every coordinate layout and every injective renaming", "why_tests_cant": "Simultaneous renames and collisions are combinatorial.", "anchors": ["dascore/core/coordmanager.py:CoordManager.rename_coord"]}
{"id": "C20", "title": "Chunk intervals tile the requested span", "statement": "get_intervals(start, stop, length, overlap, step, keep_partial) returns intervals that start at start, each lie within [start, stop], advance by length - overlap, span exactly length (in samples), overlap consecutively by exactly overlap, and together leave no sample of the span uncovered when keep_partial is true (all but a final remainder shorter than length otherwise).", "quantifier": "every start, stop, length, overlap, step", "why_tests_cant": "Infinite parameter space with boundary cases at the end of the span.", "anchors": ["dascore/utils/chunk.py:get_intervals"]}
{"id": "C21", "title": "Continuity groups split exactly at gaps", "statement": "Rows of a spool are put in the same merge group exactly when, in start order, no gap larger than tolerance steps separates them from everything before; grouping does not depend on the order of rows.", "quantifier": "every set of row intervals and every tolerance", "why_tests_cant": "Cumulative maxima over arbitrary many overlapping rows.", "anchors": ["dascore/utils/chunk.py:ChunkManager._get_continuity_group_number", "dascore/utils/chunk.py:ChunkManager._get_sampling_group_num"]}
{"id": "C22", "title": "Chunk instructions take each output sample from a source that has it", "statement": "For every output chunk the instruction rows cover the chunk's interval from the sources that overlap it, each clipped to both the source and the chunk, and no source that overlaps the chunk is skipped.", "quantifier": "every list of source rows and chunk rows", "why_tests_cant": "searchsorted boundaries over arbitrary lists.", "anchors": ["dascore/utils/chunk.py:ChunkManager._get_chunk_overlap_inds", "dascore/utils/chunk.py:ChunkManager._get_instructions"]}
{"id": "C23", "title": "Streaming merge equals concatenation", "statement": "Merging the patches of a chunk through the pre-allocated (and possibly grown and finally trimmed) buffer gives exactly the concatenation of the patches along the merge dimension, whatever sample estimate was made.", "quantifier": "every sequence of patch lengths and every initial estimate", "why_tests_cant": "Quantifies over all under- and over-estimates and sequences.", "anchors": ["dascore/core/spool.py:DataFrameSpool._merge_patches_streaming", "dascore/core/spool.py:_estimate_merge_samples"]}
{"id": "C24", "title": "split partitions a spool", "statement": "spool.split(size=k) or split(count=k) yields consecutive sub-spools whose concatenation is the original spool, none empty, all but the last of equal size.", "quantifier": "every spool length and every positive size or count", "why_tests_cant": "All lengths and sizes.", "anchors": ["dascore/core/spool.py:DataFrameSpool.split"]}
{"id": "C25", "title": "Mapping a spool gives one result per patch in order", "statement": "spool.map(func) returns the results of func on each patch, in spool order, exactly once each, with or without a client and whatever its number of workers / chunk size.", "quantifier": "every spool, every executor worker count, positive chunk size and order of completion", "why_tests_cant": "All sizes; schedule independence.", "anchors": ["dascore/utils/misc.py:_spool_map"]}
{"id": "C26", "title": "Filtering a contents table returns exactly the matching rows", "statement": "filter_df(df, **query) keeps a row iff it satisfies every condition of the query: equality / membership / unix-style matching on plain columns and overlap of its [min, max] interval with the requested (possibly open) range, with column_min/column_max conditions equivalent to a range.", "quantifier": "every table and every query", "why_tests_cant": "All tables, open/closed/equal limits.", "anchors": ["dascore/utils/pd.py:filter_df", "dascore/utils/pd.py:split_df_query", "dascore/utils/pd.py:_filter_multicolumn_range", "dascore/utils/pd.py:_filter_range", "dascore/utils/pd.py:_filter_equality", "dascore/utils/pd.py:_filter_contains", "dascore/utils/pd.py:_convert_min_max_in_kwargs"]}
{"id": "C27", "title": "Trimming segments to a query stays inside both", "statement": "adjust_segments(df, time=(a, b)) trims each remaining row to the intersection of its own interval with the query and drops rows that do not intersect it.", "quantifier": "every table and every query", "why_tests_cant": "All interval/limit positions.", "anchors": ["dascore/utils/pd.py:adjust_segments"]}
{"id": "C28", "title": "Removing overlaps leaves disjoint rows covering the same samples", "statement": "After overlap removal, rows sorted by start are pairwise disjoint, each lies in its original interval, and every sample covered before is still covered.", "quantifier": "every table of intervals", "why_tests_cant": "Nested and multiply overlapping rows.", "anchors": ["dascore/utils/pd.py:_remove_overlaps"]}
{"id": "C29", "title": "The directory index reflects the directory", "statement": "After any history of file creations, modifications and index updates, with crashes at any point, a completed update leaves in the index one entry set for every file in the directory, with its current contents.", "quantifier": "every history of file-system changes and update calls, every crash point", "why_tests_cant": "Histories and crash points are unbounded.", "anchors": ["dascore/io/indexer.py:DirectoryIndexer.update", "dascore/io/indexer.py:DirectoryIndexer._get_mtime", "dascore/utils/hdf5.py:HDFPatchIndexManager.write_update", "dascore/utils/hdf5.py:HDFPatchIndexManager._update_metadata", "dascore/utils/misc.py:_iter_filesystem"]}
{"id": "C30", "title": "A time query on the index misses no overlapping row", "statement": "Index contents requested for a time window include every indexed patch whose time interval intersects the window, and after filtering only those.", "quantifier": "every set of rows and every window", "why_tests_cant": "Boundary coincidences.", "anchors": ["dascore/utils/hdf5.py:HDFPatchIndexManager._get_kernel_query", "dascore/io/indexer.py:DirectoryIndexer.get_contents"]}
{"id": "C31", "title": "Index caching is transparent", "statement": "Index queries give the same answer whether served from the in-memory cache or from the file, for every history of queries and updates.", "quantifier": "every sequence of queries and updates", "why_tests_cant": "Ring-buffer cache histories.", "anchors": ["dascore/io/indexer.py:DirectoryIndexer.get_contents", "dascore/io/indexer.py:DirectoryIndexer._set_cache", "dascore/io/indexer.py:DirectoryIndexer._get_next_index", "dascore/io/indexer.py:DirectoryIndexer.clear_cache"]}
{"id": "C32", "title": "Format detection picks the first format that recognises the input", "statement": "get_format tries every registered format for the input type, in priority order (hint, then extension, then the rest; newest version first), returns the first that recognises the input, ignores formats that fail while looking, and raises UnknownFiberFormatError iff none recognises it.", "quantifier": "every registry, every input", "why_tests_cant": "Registries grow through plugins; all orders.", "anchors": ["dascore/io/core.py:_FiberIOManager.yield_fiberio", "dascore/io/core.py:_FiberIOManager._get_format", "dascore/io/core.py:_FiberIOManager._yield_extensions", "dascore/io/core.py:_FiberIOManager._yield_format_version", "dascore/io/core.py:_FiberIOManager._get_prioritized_list"]}
{"id": "C33", "title": "Registering formats is order-insensitive and lookups honour versions", "statement": "Registering any set of (name, version) readers, in any order and any number of times, gives the same lookups; get_fiberio(name) returns the newest version, get_fiberio(name, version) that version, and an unknown name or version raises.", "quantifier": "every registration history", "why_tests_cant": "Histories are unbounded.", "anchors": ["dascore/io/core.py:_FiberIOManager.register_fiberio", "dascore/io/core.py:_FiberIOManager.get_fiberio", "dascore/io/core.py:_FiberIOManager.load_plugins"]}
{"id": "C34", "title": "Every opened file handle is closed exactly once, by its owner", "statement": "For any nesting of resource managers and any sequence of resource requests, one handle per required type is opened, repeated requests return the same handle, leaving a nested manager closes nothing, and leaving the outermost one closes each opened handle exactly once.", "quantifier": "every sequence of get_resource calls at every nesting depth", "why_tests_cant": "Histories and nesting are unbounded.", "anchors": ["dascore/utils/io.py:IOResourceManager"]}
{"id": "C35", "title": "Writing to DASDAE and reading back gives the patch", "statement": "Reading a DASDAE file returns, for every patch written, its dims, coordinates (values and associations), attributes and data, when patch names are distinct.", "quantifier": "every spool of patches", "why_tests_cant": "All coordinate names, associations and attribute keys.", "anchors": ["dascore/io/dasdae/core.py:DASDAEV1.write", "dascore/io/dasdae/utils.py:_save_patch", "dascore/io/dasdae/utils.py:_read_patch", "dascore/io/dasdae/utils.py:_get_coords"]}
{"id": "C36", "title": "Merging attributes follows the requested conflict policy", "statement": "combine_patch_attrs with conflict 'raise' succeeds iff all attributes agree, with 'keep_first' takes each attribute from the first patch having it, with 'drop' keeps exactly those attributes on which all agree; merged coordinate limits are the overall min and max.", "quantifier": "every list of attribute sets", "why_tests_cant": "All lists and key sets.", "anchors": ["dascore/utils/attrs.py:combine_patch_attrs"]}
{"id": "C37", "title": "Merging patches keeps each sample under its own labels", "statement": "Merging patches along a dimension produces data and coordinates in which every sample keeps its label on every coordinate.", "quantifier": "every list of compatible patches", "why_tests_cant": "All orders of patches and attached coordinates.", "anchors": ["dascore/utils/coordmanager.py:merge_coord_managers", "dascore/utils/patch.py:_force_patch_merge", "dascore/utils/patch.py:_get_merge_dim"]}
{"id": "C38", "title": "Time conversions round trip", "statement": "to_datetime64 / to_timedelta64 of a number of seconds is that number rounded to the nearest nanosecond, to_float and to_int invert them on the nanosecond grid, and parsing/printing of dates agree.", "quantifier": "every number of seconds, every nanosecond count", "why_tests_cant": "Infinite numeric domains.", "anchors": ["dascore/utils/time.py:to_datetime64", "dascore/utils/time.py:to_timedelta64", "dascore/utils/time.py:to_float", "dascore/utils/time.py:to_int", "dascore/utils/time.py:get_max_min_times"]}
{"id": "C39", "title": "Gap-aware cell edges enclose every sample", "statement": "get_gap_edges returns strictly monotonic edges in the direction of the coordinate such that each sample lies in exactly one cell, one extra cell per gap and no others; gaps are exactly the spacings larger than gap_factor times the median spacing.", "quantifier": "every monotonic array and gap factor", "why_tests_cant": "All arrays.", "anchors": ["dascore/utils/gaps.py:get_gap_edges"]}
{"id": "C40", "title": "Processing history records each step once", "statement": "Applying a sequence of patch functions appends, in order, exactly one history entry per recorded function that returned a new patch, and none for functions declared history-free; the input patch's history is never altered; missing dimensions, coordinates or attributes raise before the function runs.", "quantifier": "every sequence of patch functions", "why_tests_cant": "Unbounded sequences.", "anchors": ["dascore/utils/patch.py:patch_function", "dascore/utils/patch.py:check_patch_coords", "dascore/utils/patch.py:check_patch_attrs"]}
{"id": "C41", "title": "Dimension arguments resolve to the right axes", "statement": "get_dim_axis_value returns for each requested dimension its axis and value, in request order, and raises when none, too many or unknown dimensions are given.", "quantifier": "every dims tuple and every argument combination", "why_tests_cant": "All combinations.", "anchors": ["dascore/utils/patch.py:get_dim_axis_value"]}
{"id": "C42", "title": "Window and step requests are honoured or rejected", "statement": "A window, step or overlap request resolves to sample counts with window >= requested duration, odd when required, 0 < step, and step + overlap = window, or raises ParameterError.", "quantifier": "every request", "why_tests_cant": "All values and flag combinations.", "anchors": ["dascore/utils/patch.py:get_patch_window_size", "dascore/utils/patch.py:get_window_axis_step", "dascore/core/coords.py:BaseCoord.get_sample_count"]}
{"id": "C43", "title": "Rolling windows align with the decimated coordinate", "statement": "patch.rolling(dim=window, step=s, center=c).func() has one output per retained coordinate label; each non-NaN output at label t is func of exactly window consecutive samples ending at (or, centred, centred at) t; outputs whose window is incomplete are NaN.", "quantifier": "every data length, window, step, and centring", "why_tests_cant": "Index arithmetic over three naturals.", "anchors": ["dascore/proc/rolling.py:_NumpyPatchRoller.get_start_index", "dascore/proc/rolling.py:_NumpyPatchRoller._pad_roll_array", "dascore/proc/rolling.py:_PatchRollerInfo.get_coords"]}
{"id": "C44", "title": "align_to_coord shifts each trace by the requested amount", "statement": "After align_to_coord each input sample that fits in the output is found at the label shifted by the trace's shift, all other output samples are the fill value; 'full' loses no input sample, 'valid' contains no fill, 'same' keeps the coordinate; reverse undoes it.", "quantifier": "every data length, every set of shifts, each mode", "why_tests_cant": "All shift combinations of either sign.", "anchors": ["dascore/proc/align.py:_calculate_shift_info", "dascore/proc/align.py:_get_source_indices", "dascore/proc/align.py:_get_dest_indices", "dascore/proc/align.py:_apply_shifts_to_data"]}
{"id": "C45", "title": "pad, roll and flip move samples and labels together", "statement": "pad adds exactly the requested samples on each side keeping the interior and its labels; roll is a rotation (rolling back restores) with labels moving along when update_coord is true; flip reverses data and labels and is its own inverse.", "quantifier": "every patch, every amount", "why_tests_cant": "All lengths and amounts.", "anchors": ["dascore/proc/basic.py:pad", "dascore/proc/basic.py:roll", "dascore/proc/basic.py:flip", "dascore/core/coordmanager.py:CoordManager.flip"]}
{"id": "C46", "title": "Tapers only touch their windows", "statement": "taper and taper_range leave samples outside the tapered windows unchanged (or zero outside the range), windows never overlap, and invalid windows raise.", "quantifier": "every coordinate length and taper request", "why_tests_cant": "All window combinations.", "anchors": ["dascore/proc/taper.py:_get_taper_slices", "dascore/proc/taper.py:_validate_windows", "dascore/proc/taper.py:_get_taper_coord_inds"]}
{"id": "C47", "title": "dropna drops exactly the null labels", "statement": "dropna(dim, how) keeps a label iff none (how=any) / not all (how=all) of its samples are null, keeps order, and the data keeps its labels; fillna replaces exactly the null samples.", "quantifier": "every array with any pattern of nulls", "why_tests_cant": "All null patterns.", "anchors": ["dascore/proc/basic.py:dropna", "dascore/proc/basic.py:fillna"]}
{"id": "C48", "title": "concatenate keeps all data in order", "statement": "spool.concatenate(dim=n) joins consecutive groups of at most n compatible patches; the data along the dimension is the in-order concatenation and each patch appears in exactly one output.", "quantifier": "every spool and group size", "why_tests_cant": "All group sizes and incompatible positions.", "anchors": ["dascore/utils/patch.py:concatenate_patches", "dascore/utils/misc.py:yield_sub_sequences"]}
{"id": "C49", "title": "Equality of patches is sound", "statement": "patch.equals / == / deep equality are reflexive and symmetric, and true only if dims, data, coordinates and the compared attributes are equal.", "quantifier": "every pair (and triple) of patches", "why_tests_cant": "Pairs and triples of arbitrary values.", "anchors": ["dascore/proc/basic.py:equals", "dascore/utils/misc.py:deep_equality_check", "dascore/utils/misc.py:all_close", "dascore/core/coordmanager.py:CoordManager.equals"]}
{"id": "C50", "title": "FrozenDict hashes consistently with equality", "statement": "Equal FrozenDicts have equal hashes irrespective of insertion order, the mapping cannot change after construction, and new() returns an updated copy leaving the original alone.", "quantifier": "every mapping and every insertion order", "why_tests_cant": "All permutations.", "anchors": ["dascore/utils/mapping.py:FrozenDict"]}
{"id": "C51", "title": "Axis arguments normalise to distinct valid dimensions", "statement": "Axis arguments of numpy functions on patches resolve to the distinct dimensions they denote (negative axes wrap), in first-mention order, and reductions remove or collapse exactly those dimensions.", "quantifier": "every rank and axis list", "why_tests_cant": "All ranks and lists.", "anchors": ["dascore/utils/array.py:_get_dims_and_inds_from_signature", "dascore/utils/array.py:_apply_aggregator", "dascore/utils/array.py:_reassemble_patch"]}
{"id": "C52", "title": "Decimation keeps every n-th label and sample", "statement": "patch.decimate(dim=n, filter_type=None) keeps exactly samples 0, n, 2n, ... with their labels.", "quantifier": "every length and factor", "why_tests_cant": "All lengths and factors.", "anchors": ["dascore/proc/resample.py:decimate", "dascore/core/coordmanager.py:CoordManager.decimate"]}
{"id": "C53", "title": "correlate_shift puts zero lag at the right label", "statement": "After correlate_shift the lag coordinate has the same length and step, its zero label sits on the sample that was first before the shift, and every sample keeps its (wrapped) lag.", "quantifier": "every length, odd and even", "why_tests_cant": "Parity dependent.", "anchors": ["dascore/proc/correlate.py:correlate_shift"]}
{"id": "C54", "title": "Directory scans visit exactly the requested files", "statement": "Iterating a directory yields every file once that has an allowed extension, is new enough and is not hidden (unless skip_hidden is false), at any depth, and nothing else; a skip signal omits exactly that directory's remaining contents.", "quantifier": "every directory tree and every filter", "why_tests_cant": "Trees are unbounded.", "anchors": ["dascore/utils/misc.py:_iter_filesystem"]}
{"id": "C55", "title": "A spool behaves like the list of its patches", "statement": "Over any history of slicing, integer or boolean array selection and sorting, spool[i] is the patch obtained by applying the same operations to the list of patches of the original spool (so spool[i:j][k] equals spool[i+k]), len and iteration agree with it, indices outside the spool raise IndexError, and later operations such as chunk see only the patches shown.", "quantifier": "every spool, every history of slice/array/sort operations, every index", "why_tests_cant": "Unbounded histories over three cross-referenced tables.", "anchors": ["dascore/core/spool.py:DataFrameSpool.__getitem__", "dascore/core/spool.py:DataFrameSpool._select_from_array", "dascore/core/spool.py:DataFrameSpool._get_patches_from_index", "dascore/core/spool.py:DataFrameSpool.sort", "dascore/core/spool.py:DataFrameSpool.new_from_df"]}
{"id": "C56", "title": "Dropping coordinates and squeezing remove exactly what is asked", "statement": "drop_coords removes exactly the coordinates named (and, on a coordinate manager, dimensions named together with the coordinates attached to them) and leaves everything else, including the data, as it was; Patch.drop_coords raises when a dimension is named. squeeze removes exactly the length-one dimensions asked for, and every sample stays under its remaining labels.", "quantifier": "every well-formed patch or coordinate manager and every list of names", "why_tests_cant": "All attachments between coordinates and dimensions, all shapes.", "anchors": ["dascore/core/coordmanager.py:CoordManager.drop_coords", "dascore/core/coordmanager.py:CoordManager.squeeze", "dascore/proc/coords.py:drop_coords", "dascore/proc/coords.py:squeeze"]}
{"id": "C57", "title": "update_coords changes exactly the coordinates named", "statement": "After update_coords(**kw) every coordinate given has the given values and attachment, dropped ones are gone, a coordinate attached to a dimension that was dropped or got another length is gone unless it was given too, and every other coordinate and the data are as before.", "quantifier": "every well-formed patch or manager, every set of keyword arguments", "why_tests_cant": "All combinations of replaced, added, dropped and resized coordinates.", "anchors": ["dascore/core/coordmanager.py:CoordManager.update", "dascore/proc/coords.py:update_coords"]}
{"id": "C58", "title": "append_dims copies every sample along the new dimensions", "statement": "patch.append_dims(...) puts the new dimensions last in the order given, copies every sample along them, keeps every label the sample had, and labels the new dimensions as given.", "quantifier": "every patch and every set of new dimensions", "why_tests_cant": "All shapes and numbers of new dimensions.", "anchors": ["dascore/proc/coords.py:append_dims"]}
{"id": "C59", "title": "A merged coordinate states a step only if the parts have it", "statement": "When attributes are merged along a coordinate, the merged summary states a step only if every part states a step and all of them agree within the tolerance; the step stated is the step of one of the parts, and if all parts have the same step it is that step.", "quantifier": "every list of attribute sets and every conflict policy", "why_tests_cant": "All numbers and orders of parts and all combinations of steps.", "anchors": ["dascore/utils/attrs.py:combine_patch_attrs", "dascore/utils/misc.py:get_middle_value"]}
{"id": "C60", "title": "Arithmetic between patches pairs samples by their labels", "statement": "An arithmetic operation on two patches gives a patch with the dimensions of both. It has exactly one sample for every two samples which belong together, that is, which carry the same labels on all dimensions both patches have; its value is computed from these two and it carries their labels. The order of dimensions does not matter, other coordinates keep their labels, and patches with the same coordinates can always be combined. An operation with a scalar or an array which numpy can broadcast acts sample by sample and changes no labels.", "quantifier": "every two patches (dimensions, labels, orders of labels, missing labels), every array, every function of two samples", "why_tests_cant": "Pairing depends on all combinations of shared, missing, reordered and partially overlapping dimensions and labels.", "anchors": ["dascore/utils/array.py:_apply_binary_ufunc", "dascore/utils/patch.py:align_patch_coords", "dascore/utils/patch.py:_merge_aligned_coords", "dascore/core/coordmanager.py:CoordManager.make_broadcastable_to"]}
{"id": "C61", "title": "Derivatives belong to the labels", "statement": "patch.differentiate along an ordered dimension keeps coordinates and shape; the derivative with respect to the labels (seconds for times) of data that are polynomials of degree two is exact at every sample, and between evenly spaced samples it is the central difference over the given step. Several dimensions are treated one after the other, too few samples raise. velocity_to_strain_rate is this derivative along distance and its gauge length is the number of steps times the spacing; the edgeless version gives the difference quotient of every two samples that are the given number of steps apart, labelled half way between them.", "quantifier": "every patch, evenly or unevenly sampled ascending or descending dimension, and step", "why_tests_cant": "All lengths, spacings, strides, numbers of dimensions and data.", "anchors": ["dascore/transform/differentiate.py:differentiate", "dascore/transform/strain.py:velocity_to_strain_rate", "dascore/transform/strain.py:velocity_to_strain_rate_edgeless", "dascore/utils/patch.py:_get_dx_or_spacing_and_axes"]}
{"id": "C62", "title": "Integrals add up trapezoids between neighbouring samples", "statement": "patch.integrate(definite=False) keeps coordinates and shape, is zero at the first sample, and grows from each sample to the next by the trapezoid between them, so linear data are integrated exactly; definite=True gives what this reaches at the last sample, keeps one sample labelled with the mean of the labels, and stores the limits as coordinates. Several dimensions are treated one after the other.", "quantifier": "every patch and ordered dimension, evenly or unevenly sampled", "why_tests_cant": "All lengths, spacings, positions of the dimension and data.", "anchors": ["dascore/transform/integrate.py:integrate", "dascore/utils/patch.py:_get_dx_or_spacing_and_axes"]}
{"id": "C63", "title": "Fourier transforms are Fourier sums at the labelled frequencies", "statement": "patch.dft over evenly sampled dimensions renames each to ft_ followed by its name, labels it with ascending frequencies n steps of 1/(length times spacing) around zero (from zero on for the real dimension), and gives at each label the sum of the samples times exp(-2 pi i frequency position) times the spacings; coordinates along transformed dimensions are kept without dimension, others stay. Padding only refines the frequencies. Transformed dimensions are left alone, real transforms of complex data raise.", "quantifier": "every patch, set of evenly sampled dimensions, real argument and padding", "why_tests_cant": "All numbers and orders of dimensions, lengths of both parities, spacings and data.", "anchors": ["dascore/transform/fourier.py:dft", "dascore/transform/fourier.py:_get_dft_new_coords", "dascore/transform/fourier.py:_get_untransformed_dims"]}
{"id": "C64", "title": "idft undoes dft", "statement": "patch.dft(...).idft(...) returns the patch: its dimensions, coordinates, shape and data, whatever was padded, transformed, or treated as real.", "quantifier": "every patch, set of evenly sampled dimensions, real argument, padding, and order in which the inverse names them", "why_tests_cant": "All lengths, dimension sets, orders and data.", "anchors": ["dascore/transform/fourier.py:idft", "dascore/transform/fourier.py:dft", "dascore/transform/fourier.py:_get_idft_coords_and_sizes", "dascore/transform/fourier.py:_get_idft_dims_steps_axis"]}
{"id": "C65", "title": "Mutes zero exactly the region they describe", "statement": "patch.line_mute sets to zero exactly the samples between two limits along a dimension, inside the wedge between two lines that meet, or in the strip between parallel lines (lines given by two points or by one number, absolutely or relative to the edges); invert=True sets exactly all the others to zero. patch.slope_mute sets exactly the samples to zero whose distances from the origin have a ratio strictly between the slopes. Coordinates and all other values stay, a mute and its inverse are complementary, and repeating a mute changes nothing. Other numbers of dimensions, names that are not dimensions, opposite lines and negative slopes are refused.", "quantifier": "every patch, every order of dimensions, every pair of limits, lines or slopes", "why_tests_cant": "All geometries, orders of dimensions, and positions of samples relative to lines.", "anchors": ["dascore/proc/mute.py:line_mute", "dascore/proc/mute.py:slope_mute", "dascore/proc/mute.py:_MuteGeometry1D", "dascore/proc/mute.py:_MuteGeometry2D", "dascore/utils/misc.py:get_2d_line_intersection"]}
{"id": "C66", "title": "Unit conversion keeps what numbers mean", "statement": "Converting a number, an array, a coordinate or a patch to other units gives numbers that are the same physical amounts in the new units (temperatures included, and units with a factor such as '10 m'); converting back or through other units gives the same; evenly sampled labels stay evenly sampled; nothing but what is named changes; units of another kind of quantity are refused with a UnitError. Simplifying does the same for the base units. Setting units changes no number and no other units. The outcome does not depend on earlier conversions.", "quantifier": "every number, array, coordinate and patch, all pairs of units, all histories of earlier conversions", "why_tests_cant": "All units and numbers, and all histories of a process-wide cache keyed by equality of quantities.", "anchors": ["dascore/units.py:convert_units", "dascore/units.py:_get_conversion_factors", "dascore/units.py:get_unit", "dascore/units.py:get_factor_and_unit", "dascore/proc/units.py:convert_units", "dascore/proc/units.py:set_units", "dascore/proc/units.py:simplify_units", "dascore/core/coords.py:BaseCoord.simplify_units", "dascore/core/coords.py:CoordRange.convert_units", "dascore/core/coords.py:CoordArray.convert_units", "dascore/core/coords.py:BaseCoord.check_time_units", "dascore/core/coordmanager.py:CoordManager.convert_units"]}
{"id": "C67", "title": "Filter limits with units describe the band asked for", "statement": "Limits of a filter given as frequencies (or wavenumbers) or as periods (or wavelengths), in any units, become numbers of cycles per unit of the dimension such that exactly the cycles inside the limits lie between them, periods being put in the opposite order; a single limit stays at its place; limits without units are used as they are. Different units for the two limits, units on a dimension without units, or units of another kind are refused. A sequence of quantities becomes one array of the same amounts in base units exactly if all are comparable.", "quantifier": "every pair of limits, every unit of the dimension, every sequence of quantities", "why_tests_cant": "All magnitudes and units; the order of the limits depends on them.", "anchors": ["dascore/units.py:get_filter_units", "dascore/units.py:get_inverted_quant", "dascore/units.py:quant_sequence_to_quant_array"]}
{"id": "C68", "title": "Interpolation puts samples on the lines between samples", "statement": "interpolate to given labels gives a patch with exactly these labels along the dimension, all other coordinates unchanged (those attached to the dimension are dropped if its length changes) and, for kind 'linear', each sample on the straight line through the two samples around it in the order of the labels (the outermost two outside), for 'nearest' the sample of the nearest label; the labels need not be sorted. Samples at old labels are the old samples, straight data stay straight, the own labels change nothing; None gives as many evenly spaced labels between the same ends. The units of the labels are kept, and numbers for a time dimension are seconds.", "quantifier": "every patch, every dimension with distinct labels, every list of new labels", "why_tests_cant": "All label orders, places and lengths, including extrapolation.", "anchors": ["dascore/proc/resample.py:interpolate", "dascore/core/coords.py:BaseCoord.snap"]}
{"id": "C69", "title": "Resampling gives the step or number of samples asked for", "statement": "resample to a number of samples gives this number of evenly spaced labels, from the first label on, over the same total length; resample to a step gives labels at this step from the first label on - over the whole length if the step fits, and up to the last resampled label otherwise, then with the data interpolated. Each line is resampled by itself, other coordinates are unchanged. A step is a number (seconds for times), a period or a rate in any units.", "quantifier": "every evenly sampled patch, every step or number, every resampler of lines", "why_tests_cant": "The outcome depends on rounding and tolerances for all lengths and steps; long patches are never tested.", "anchors": ["dascore/proc/resample.py:resample", "dascore/units.py:get_filter_units"]}
{"id": "C70", "title": "Moving windows are centred, and the same with every engine", "statement": "A moving median, mean, standard deviation, sum, minimum or maximum over a window of w = 2h+1 samples along one axis keeps the shape, and at every sample at least h samples from both ends is the operation of exactly the h samples before, the sample itself and the h samples after it, whether it is computed by bottleneck or scipy. Medians, means, minima and maxima stay in the range of their line everywhere. With scipy the ends are the operation on a line continued as the boundary mode says. A window without samples or longer than the axis, an origin outside of it, and a standard deviation without bottleneck are refused, and nothing else is.", "quantifier": "every array, axis, window, operation, engine and boundary mode", "why_tests_cant": "All lengths, windows and data; tests compare engines only where both are installed.", "anchors": ["dascore/utils/moving.py:moving_window", "dascore/utils/moving.py:_shift_bottleneck_result", "dascore/utils/moving.py:_select_engine"]}
{"id": "C71", "title": "The Hampel filter replaces outliers by the local median and nothing else", "statement": "hampel_filter keeps coordinates and shape; each sample is either kept or replaced by the median of its window, the latter exactly if it differs from it by more than threshold times the median of such differences in the window. No sample leaves the range of the data, so constant data stay as they are; a single spike in constant data is removed wherever it is. Thresholds that are not positive, unknown or unevenly sampled dimensions and even or too small windows are refused.", "quantifier": "every patch, window, threshold, both modes, with and without bottleneck", "why_tests_cant": "Holds for all data and positions; a spike at an end behaves differently from one in the middle.", "anchors": ["dascore/proc/hampel.py:hampel_filter", "dascore/proc/hampel.py:_hampel_separable", "dascore/proc/hampel.py:_hampel_non_separable"]}
{"id": "C72", "title": "Normalizing, standardizing, demeaning, demedianing and detrending a line do what they say", "statement": "normalize, standardize, demean, demedian and detrend along a dimension keep the coordinates and the shape and treat every line along the dimension on its own. normalize divides a line by one positive number such that its l1, l2 or maximum norm is one ('bit': leaves the signs), keeps lines of zeros, keeps NaN as NaN without influence on other samples, and changes nothing when applied again. standardize gives mean zero and variance one, demean mean zero, demedian median zero, each by one shift (and factor) for the whole line. detrend subtracts the straight line that leaves the least squares, so that straight lines become zero. Unknown dimensions are refused.", "quantifier": "every patch, dimension, norm and data with or without NaN", "why_tests_cant": "All data and lengths, including lines that are constant, zero, all NaN or contain extreme integers.", "anchors": ["dascore/proc/basic.py:normalize", "dascore/proc/basic.py:standardize", "dascore/proc/basic.py:demean", "dascore/proc/basic.py:demedian", "dascore/proc/detrend.py:detrend"]}
{"id": "C73", "title": "Selecting from a spool keeps the right patches and the right samples, over any history", "statement": "spool.select(**kwargs) keeps, in order, exactly the patches that meet the conditions on columns and whose interval along each coordinate asked about has a point in all the ranges asked for so far; the contents table shows each interval cut to those ranges. Iterating the spool then gives, for each kept patch, exactly the samples whose labels lie in all the ranges along every dimension, with their labels, and the patch itself when nothing is cut. This holds whatever slices, index arrays, masks and other selects come before or after. Ranges are always accepted; a keyword that names nothing is refused; the same query is answered for the spool and for its patches.", "quantifier": "every list of patches, every history of slices, index arrays, masks and selects, every query", "why_tests_cant": "Three tables (contents, sources, instructions) must stay consistent over every history of operations and every combination of queries.", "anchors": ["dascore/core/spool.py:DataFrameSpool.select", "dascore/core/spool.py:DataFrameSpool._load_trimmed_patch", "dascore/core/spool.py:DataFrameSpool._get_patches_from_index", "dascore/utils/pd.py:adjust_segments", "dascore/utils/pd.py:filter_df"]}
{"id": "C74", "title": "A spool over a file or a directory gives the patches that are in the files", "statement": "Iterating over the spool of a file gives the patches of the file, each once, in the order of the contents and with all its samples and labels. The same holds for the files of a directory.", "quantifier": "every list of patches in a file, whatever their extents and attributes", "why_tests_cant": "A row of the contents is turned into a search by limits and attributes, whose answer depends on every other patch of the file.", "anchors": ["dascore/clients/filespool.py:FileSpool._load_patch", "dascore/clients/dirspool.py:DirectorySpool._load_patch", "dascore/io/dasdae/core.py:DASDAEV1.read", "dascore/io/dasdae/utils.py:_matches_attr_filters", "dascore/io/dasdae/utils.py:_read_patch", "dascore/core/spool.py:DataFrameSpool.__iter__"]}
{"id": "C75", "title": "The tau-p transform is a slant stack", "statement": "patch.tau_p(velocities) has, for each slowness s (minus and plus the inverse of each velocity) and each time tau of the patch, the sum over all traces of the trace at time tau + s (x - x0), interpolated linearly, where x is the distance of the trace and x0 the end of the section from which a wave of that slowness comes; times after the record count as zero. The order of the dimensions, the order of the traces and their spacing do not matter. Velocities that are not positive and increasing are refused, all others are accepted.", "quantifier": "every patch of distance and time, every list of velocities", "why_tests_cant": "The claim is about every sample, slowness and spacing; the loops handle positive and negative slownesses, even and uneven distances by different code.", "anchors": ["dascore/transform/taup.py:tau_p", "dascore/transform/taup.py:_jit_taup_uniform", "dascore/transform/taup.py:_jit_taup_general"]}
{"id": "C76", "title": "The slope filter passes the waves whose slope is between the inner limits", "statement": "patch.slope_filter([a, b, c, d], dims) returns the sum of the waves in the patch (its two-dimensional Fourier transform), each multiplied with a number that depends on its slope (frequency along the second dimension over frequency along the first): 1 between b and c, 0 outside a and d, between them a quarter of a sine; with invert=True, one minus that. Dimensions and labels are those of the patch. A filter that passes all slopes returns the patch, and the filter and its inversion add up to the patch. A patch that is transformed already is multiplied and stays transformed. Four ascending limits are required and others refused.", "quantifier": "every evenly sampled patch, all limits, both options, every padding", "why_tests_cant": "The claim is about every wave of every patch; the result passes through transform, mask and inverse transform.", "anchors": ["dascore/proc/filter.py:slope_filter", "dascore/transform/fourier.py:dft", "dascore/transform/fourier.py:idft"]}
{"id": "C77", "title": "Pass and notch filters act on every line along the dimension, at the frequencies asked for", "statement": "patch.pass_filter(dim=(low, high)) applies one filter to every line along the dimension and changes nothing else: the band between the limits, everything above one limit, or everything below, as fractions of the Nyquist frequency of the dimension. Limits with units are frequencies, or periods and wavelengths whose inverse is taken. Exactly the limits within zero and the Nyquist frequency, in order and at least one, are accepted. patch.notch_filter applies one filter after the other along each of its dimensions, and the order of the dimensions does not matter. Dimensions that are not there or not evenly sampled are refused.", "quantifier": "every patch, every dimension, all limits with and without units, every line filter (linear for the order of dimensions)", "why_tests_cant": "Limits, units, labels and line filters are arbitrary; order independence is a claim about every pair of linear filters and every patch.", "anchors": ["dascore/proc/filter.py:pass_filter", "dascore/proc/filter.py:_get_sos", "dascore/proc/filter.py:notch_filter", "dascore/utils/misc.py:check_filter_range", "dascore/utils/misc.py:check_filter_sequence", "dascore/utils/patch.py:get_dim_sampling_rate"]}
{"id": "C78", "title": "Median, Savitzky-Golay and Gaussian filters use the windows asked for, along the dimensions given", "statement": "patch.median_filter replaces every sample by the median of the samples in the box around it, reflected at the ends, with windows in samples or in the units of the dimensions; it gives no values outside the range of the data and commutes with every monotone function of the samples. savgol_filter and gaussian_filter apply the filter with that window to every line along each of the dimensions given, one after the other. Nothing else changes. No dimensions, unknown ones, uneven ones and windows without samples are refused.", "quantifier": "every patch with any number of dimensions, all windows, all boundary modes, all monotone functions, every line filter", "why_tests_cant": "Ranges over all data, shapes, windows and functions; the windows reach beyond the ends by any number of lengths.", "anchors": ["dascore/proc/filter.py:median_filter", "dascore/proc/filter.py:savgol_filter", "dascore/proc/filter.py:gaussian_filter", "dascore/proc/filter.py:_create_size_and_axes", "dascore/core/coords.py:get_sample_count"]}
{"id": "C79", "title": "Kurtosis and STA/LTA are those of the windows asked for", "statement": "With recursive=False, patch.kurtosis gives for every sample the Pearson kurtosis of the samples in the window around it, clipped at the ends: it is at least one, does not change if the data are scaled or shifted, and is nan where the window is constant. With recursive=True it gives the fading average of the fourth powers of the differences from the fading mean, normalised by the larger of the running and the total variance; scaling the data does not change it. patch.stalta gives the ratio of the means of the last samples in the short and in the long window, nan before the long window is full; it is one for constant data, unchanged by scaling, and between 0 and the ratio of the window lengths for data that are not negative. Coordinates are kept. Windows of fewer than two samples for kurtosis, and long windows not longer than the short one for stalta, are refused.", "quantifier": "every patch with any number of dimensions, all windows in samples or units, ascending and (kurtosis) descending labels, all scale factors and offsets", "why_tests_cant": "Ranges over all data and windows; the code uses running sums of powers and a recursion, whose agreement with the definition is an identity for all samples.", "anchors": ["dascore/transform/kurtosis.py:kurtosis", "dascore/transform/kurtosis.py:_windowed_kurtosis", "dascore/transform/kurtosis.py:_recursive_kurtosis", "dascore/transform/kurtosis.py:_get_window_samples", "dascore/transform/stalta.py:stalta"]}
{"id": "C80", "title": "The Hilbert transform is the analytic signal; phase weighted stacks are weighted means", "statement": "patch.hilbert(dim) keeps the coordinates and gives the analytic signal of every line along the dimension: the only complex signal whose real part is the data, with no negative frequencies and whose imaginary part has no constant (nor alternating) component. The transform is linear. patch.envelope(dim) is its absolute value: never less than that of the data, and the amplitude of a tone with a whole number of periods. patch.phase_weighted_stack gives for every sample the mean over the stacked dimension times a power of the length of the mean phase: never larger than the mean, the mean itself for power zero, and the common trace where all traces are alike. Coordinates are those of an aggregation (dim_reduce empty or squeeze). The transform dimension is the other one of two, and cannot be left out otherwise; dimensions that do not exist or are not even are refused.", "quantifier": "every real patch with any number of dimensions and samples, every even dimension to transform, every dimension to stack, all powers", "why_tests_cant": "Ranges over all signals and lengths; the code multiplies Fourier coefficients by weights that differ for even and odd lengths, and that the result is the analytic signal is an identity for every length.", "anchors": ["dascore/transform/hilbert.py:hilbert", "dascore/transform/hilbert.py:envelope", "dascore/transform/hilbert.py:phase_weighted_stack", "dascore/transform/hilbert.py:__infer_transform_dim"]}
{"id": "C81", "title": "A dispersion image says how well shifted phases agree", "statement": "patch.dispersion_phase_shift(velocities, ...) of a gather of channels (with the dimensions in either order) has a row for every velocity and a column for every frequency inside the limits, of as many as the samples or the resolution give from zero to the sampling rate. A sample is the length of the mean of the phases of the channels after they were shifted for a wave with the frequency and velocity of the labels: between zero and one, not changed by the strength of a channel nor by where distances are counted from, and one for a plane wave at its frequency and velocity. Velocities that are not positive or do not increase, a resolution that is not positive, limits out of order or not between zero and Nyquist, and combinations that leave no frequency are refused.", "quantifier": "every patch with distances and evenly sampled datetimes, all numbers of channels and samples, all velocities, resolutions and limits", "why_tests_cant": "Ranges over all gathers, sampling rates, resolutions and limits; that labels and spectrum belong to the same frequency has to hold for every number of samples, and the error of one sample in the labels is too small to show in plots of long records.", "anchors": ["dascore/transform/dispersion.py:dispersion_phase_shift"]}
{"id": "C82", "title": "Whitening keeps phases and flattens amplitudes", "statement": "patch.whiten(...) returns the patch whose spectrum along the dimension (time by default) has the phases of the spectrum of the patch and amplitude one, and with the patch's dimensions, labels and domain: a patch that is already transformed stays so. Gain does not matter. With smooth_size the amplitude is divided by the mean amplitude of the surrounding frequencies, which is raised to the water level; with limits the spectrum is tapered outside of them. More than one dimension, a missing one, sizes and levels out of range, and limits closer than two frequencies are refused.", "quantifier": "every patch with an evenly sampled dimension, real or complex samples, all lengths, smoothing sizes, water levels and limits", "why_tests_cant": "Ranges over all data, lengths (with and without padding) and bands; tests look at a few recordings and plots, in which leakage by padding and dead traces do not show.", "anchors": ["dascore/proc/whiten.py:whiten", "dascore/proc/whiten.py:_get_amp_envelope", "dascore/proc/whiten.py:_check_smooth", "dascore/proc/whiten.py:_check_freq_range"]}
{"id": "C83", "title": "Short-time Fourier transforms slice the samples and can be undone", "statement": "patch.stft(dim=window, taper_window=..., overlap=...) returns, for each centre that the window is moved to, the Fourier sum of the samples under the window, for every frequency of the window; the new axes are labelled with the frequencies and with the positions of the centres, no slice with samples under the window is missing, and coordinates not attached to the dimension are as before. istft of the result gives the patch again whenever the windows together see every sample. Missing or uneven dimensions, windows longer than what is transformed and patches shorter than half a window are refused; transforms with detrending, windows that leave samples out, and patches not made by stft are not inverted.", "quantifier": "every patch with an evenly sampled dimension, real or complex samples, all lengths, windows, overlaps and numbers of samples transformed", "why_tests_cant": "Ranges over all data, lengths, windows and overlaps; the number of slices, their alignment at both ends and the overlap sums depend on all of them.", "anchors": ["dascore/transform/fourier.py:stft", "dascore/transform/fourier.py:istft", "dascore/transform/fourier.py:_get_stft_coords", "dascore/transform/fourier.py:_get_istft_coord", "dascore/transform/fourier.py:_get_short_time_fft"]}
{"id": "C84", "title": "Limits of selections mean what they say", "statement": "In patch.select, a number stands for itself, or for seconds (rounded to nanoseconds) if the labels are times; a quantity stands for the same amount in the units of the coordinate; a percentage for that share of the extent of the coordinate; None and ... for no limit. With relative=True, and always for percentages, values count from the least label, or back from the greatest if negative, offsets in units being differences. The selection keeps exactly the samples whose labels lie between the limits so understood, an interval that ends before it begins being empty. Offsets for two coordinates of one dimension, and quantities of another kind than the units of the coordinate, are refused.", "quantifier": "every patch, every coordinate with any units, all numbers, times, quantities, percentages and combinations of them, relative or not", "why_tests_cant": "Ranges over all patches, units and values, and over the interplay of rounding, signs and units.", "anchors": ["dascore/core/coords.py:BaseCoord._get_compatible_value", "dascore/core/coords.py:BaseCoord._get_relative_values", "dascore/core/coords.py:BaseCoord.get_slice_tuple", "dascore/core/coords.py:get_compatible_values", "dascore/core/coordmanager.py:CoordManager.select", "dascore/core/coordmanager.py:CoordManager._check_multiple_relative", "dascore/proc/coords.py:select"]}
{"id": "C85", "title": "Attributes and coordinates tell the same", "statement": "patch.attrs always tells the dimensions of the patch and describes its coordinates: time_min and time_max are the least and the largest label, time_step the step, time_units the units. update_attrs with a name that has nothing to do with a dimension sets this attribute and nothing else; update_attrs(time_min=..), (time_max=..) or (time_step=..) moves or stretches the labels of this dimension accordingly and changes nothing else.", "quantifier": "every patch, however it was made and changed (constructor with attributes as object or dictionary, update_attrs, update(attrs=), update(coords=)), in any order; every attribute name and value", "why_tests_cant": "Ranges over all names of attributes, dimensions and coordinates, and over all histories of changes.", "anchors": ["dascore/core/attrs.py:PatchAttrs", "dascore/core/attrs.py:PatchAttrs.update", "dascore/utils/attrs.py:separate_coord_info", "dascore/utils/misc.py:is_valid_coord_str", "dascore/core/coordmanager.py:CoordManager.update_from_attrs", "dascore/core/patch.py:Patch.__init__", "dascore/core/patch.py:Patch.from_parts", "dascore/proc/basic.py:update_attrs", "dascore/proc/basic.py:update"]}
{"id": "C86", "title": "Arithmetic with units means what it says", "statement": "Adding, subtracting, multiplying, dividing and comparing patches and quantities treats numbers with units as amounts: each sample of the result is, as an amount, the result of the operation on the two amounts, the units of the result measure what the result measures, and comparisons have no units. It does not matter in which units the same amounts are given. Sums, differences and comparisons of amounts of different kinds raise a UnitError, everything else succeeds.", "quantifier": "every patch and every second patch, quantity or array of quantities, in either order, all units (and none), all data", "why_tests_cant": "Ranges over all units and pairs of operands; numbers differ with the units while the amounts must not.", "anchors": ["dascore/utils/array.py:_apply_binary_ufunc", "dascore/utils/array.py:_apply_unary_ufunc", "dascore/utils/array.py:_clear_units_if_bool_dtype", "dascore/utils/patch.py:_merge_models", "dascore/core/patch.py:Patch.__add__"]}
{"id": "C87", "title": "Febus files: reading part of a file is selecting from all of it", "statement": "Reading a zone of a Febus file gives the samples of its blocks in order without those that overlap, under the times and distances the header says; a scan tells the same coordinates. Reading with limits of time and distance gives exactly the samples a selection with these limits keeps of the patch read without limits, with their labels.", "quantifier": "every zone with any number and size of blocks, any overlap, either version of the header, all limits given or left open on either side", "why_tests_cant": "Ranges over block counts, sizes, overlaps and limits at and between any samples; tests use one file and only check that labels lie within the limits.", "anchors": ["dascore/io/febus/a1utils.py:_get_zone_time", "dascore/io/febus/a1utils.py:_get_time_coord", "dascore/io/febus/a1utils.py:_get_distance_coord", "dascore/io/febus/a1utils.py:_get_data_new_cm", "dascore/io/febus/a1utils.py:_read_febus"]}
{"id": "C88", "title": "TDMS files: every sample at its time and channel", "statement": "Reading a TDMS file returns every sample once, at the time and channel it has in the file, whether the values are stored in chunks or interleaved, in one segment or several; labels of time start at the time stamp and advance by the sampling interval, labels of distance start at the start position and advance by the resolution. Limits of time and distance keep exactly the samples between them.", "quantifier": "every number of channels and samples, every size of chunk, chunked and interleaved, one or more segments, all limits", "why_tests_cant": "Ranges over all layouts; the example file has less than two full chunks, and a wrong order of samples is not visible in shapes and labels.", "anchors": ["dascore/io/tdms/utils.py:_get_data", "dascore/io/tdms/utils.py:_get_time_coord", "dascore/io/tdms/utils.py:_get_distance_coord", "dascore/io/tdms/core.py:TDMSFormatterV4713.read"]}
{"id": "C89", "title": "Sintela files are read back as written", "statement": "Reading a Sintela binary file returns the samples of its packets in order: row by row, channel by channel, under labels of time that start with the first packet and advance by the sampling interval and labels of distance of the channels recorded; a scan tells the same coordinates. Limits of time and distance, alone or together, keep exactly the samples between them. A file which does not end with a whole packet is refused.", "quantifier": "every number and size of packets, channels and headers, every encoding of samples in four bytes, all limits", "why_tests_cant": "Ranges over all packet layouts and limits; one example file.", "anchors": ["dascore/io/sintela_binary/utils.py:_load_data", "dascore/io/sintela_binary/utils.py:_get_number_of_packets", "dascore/io/sintela_binary/utils.py:_get_time_coord", "dascore/io/sintela_binary/utils.py:_get_dist_coord", "dascore/io/sintela_binary/utils.py:_get_patches"]}
{"id": "C90", "title": "Terra15 files are read without their unfilled rows", "statement": "Reading a Terra15 file returns the filled rows of its table in order, without the unfilled rows at the end, under labels of time that start with the first time of the file and advance by the average interval and labels of distance that start with the range; a scan tells the same labels. The label of a row is near the time written beside it, as near as the clock is regular. Limits of time and distance, alone or together, keep exactly the samples between them, with or without snap_dims.", "quantifier": "every number of rows, channels and unfilled rows, every sequence of times, all limits", "why_tests_cant": "Ranges over all tables and limits; the example file has one length and one incomplete block.", "anchors": ["dascore/io/terra15/utils.py:_get_scanned_time_info", "dascore/io/terra15/utils.py:_read_terra15", "dascore/io/terra15/utils.py:_get_time_coord", "dascore/io/terra15/utils.py:_get_distance_coord", "dascore/io/terra15/core.py:Terra15FormatterV4.read"]}
{"id": "C91", "title": "SEGY files: what is written is read back", "statement": "A patch of evenly sampled times and channels written to a SEGY file and read back has the same labels of time and channel, and the same samples (as 32-bit floats) at each time and channel, whichever dimension came first; a patch which would not is refused, as are several patches and other dimensions. Reading a file with limits of time and channel, alone or together, keeps exactly the samples between them, and gives nothing if there are none.", "quantifier": "every patch, every file of equally long traces, all limits", "why_tests_cant": "Ranges over all start times, steps, orders of dimensions and limits; the tests use one example which starts with a whole second.", "anchors": ["dascore/io/segy/utils.py:_get_segy_compatible_patch", "dascore/io/segy/utils.py:_make_time_header_dict", "dascore/io/segy/utils.py:_write_segy", "dascore/io/segy/utils.py:_get_coords", "dascore/io/segy/utils.py:_get_filtered_data_and_coords"]}
{"id": "C92", "title": "where keeps the samples whose condition is true", "statement": "patch.where(cond, other) gives the sample of the patch where the condition at the same labels is true and the fill sample elsewhere, for conditions and fill samples that are scalars, arrays or patches; the result keeps the labels. A condition or fill that is an array is taken exactly if numpy can use it without changing the shape of the patch; samples without a counterpart in a patch given as condition or fill are dropped, and a condition which is not boolean is refused.", "quantifier": "every patch, every condition and fill (scalar, array or patch, with any coordinates)", "why_tests_cant": "Ranges over all coordinates and orders of dimensions of three patches; the tests use a condition with the coordinates of the patch.", "anchors": ["dascore/proc/basic.py:where", "dascore/utils/patch.py:align_patch_coords"]}
{"id": "C93", "title": "Simple HDF5 files are read as they are labelled", "statement": "Reading a simple HDF5 file gives every sample of its array of data under the labels in its other arrays: the dimension of each array is the one of its length (or the file names its dimensions), a dimension without an array is numbered, and snapping (the default) replaces the labels by evenly spaced ones with the same first and last. Limits select the same part as from the whole file, and a file that can be read can be read with any limits.", "quantifier": "every simple HDF5 file with any number of dimensions and arrays, every combination of limits, with and without snapping", "why_tests_cant": "Ranges over all arrays of labels and lengths; the tests read two files. Whether snapping succeeds depends on the remainder of the duration divided by the number of samples.", "anchors": ["dascore/io/h5simple/core.py:H5Simple.read", "dascore/io/h5simple/utils.py:_get_coord", "dascore/io/h5simple/utils.py:_get_coords_and_dims", "dascore/io/h5simple/utils.py:_fill_coords"]}
{"id": "C94", "title": "ProdML files are read as they are labelled", "statement": "Reading a ProdML file gives one patch for every band and every raw recording in it, in the order bands first, each with the samples of the file under the times which attributes and array of the recording give and the distances of its loci. With limits each patch is what selecting from the whole recording gives, recordings of which nothing is left are dropped, and reading does not fail.", "quantifier": "every ProdML file with any number of bands and raw recordings, in either order of dimensions, of any length; every combination of limits of time and distance", "why_tests_cant": "Ranges over all arrays of times; whether the labels come from the attributes or the array, and whether the number of labels is right, depends on what cutting the spacing to nanoseconds loses over the whole file. The tests read four files.", "anchors": ["dascore/io/prodml/utils.py:_get_time_coord", "dascore/io/prodml/utils.py:_get_distance_coord", "dascore/io/prodml/utils.py:_yield_data_nodes", "dascore/io/prodml/utils.py:_read_prodml"]}
{"id": "C95", "title": "Files of several instruments are read as they are labelled", "statement": "Reading a file of AP Sensing, Silixa, Neubrex (acoustic data and frequency shifts), GDR, OptoDAS or DASVader gives every sample of the file under the labels which its attributes and arrays define, in the order of dimensions of the file, with and without snapping where there is a choice. Limits of time and distance select the same part as from the whole file, nothing is returned if no sample is left, and reading does not fail.", "quantifier": "every file of these formats with any number of times and distances, any positive rate, every combination of limits", "why_tests_cant": "Ranges over all sampling rates and lengths; the number of labels made from start, stop and a step rounded to nanoseconds depends on the product of both. The tests read one or two files of each format.", "anchors": ["dascore/io/ap_sensing/utils.py:_get_patches", "dascore/io/silixah5/utils.py:_get_patches", "dascore/io/neubrex/utils_das.py:_get_coord_manager", "dascore/io/neubrex/utils_rfs.py:_get_coord_manager", "dascore/io/gdr/utils_das.py:_get_coord_manager", "dascore/io/optodas/utils.py:_read_opto_das", "dascore/io/dasvader/utils.py:_read_dasvader"]}
{"id": "C96", "title": "Stacking adds the patches that agree with the first", "statement": "Stacking a sequence of patches gives a patch with the dimensions and labels of the first in which every sample is the sum of the samples at the same labels of all patches that agree with the first: same dimensions and the same values on every coordinate both have, except that the coordinate of a dimension named as varying need only have as many labels. Patches which do not agree are left out, or raise if that is asked for. The dimension named as varying starts at zero in the result.", "quantifier": "every sequence of patches of any shapes, dimensions and coordinates, every choice of varying dimension and check behaviour", "why_tests_cant": "Ranges over all sequences of patches, agreeing or not, in any order; the tests stack three copies of one patch and one patch of another shape.", "anchors": ["dascore/utils/patch.py:stack_patches", "dascore/utils/patch.py:check_dims", "dascore/utils/patch.py:check_coords", "dascore/core/coords.py:CoordRange.update_limits"]}
{"id": "C97", "title": "Coordinates from tables and distances to a place", "statement": "Attaching a table to a patch (coords_from_df) makes every further column a coordinate of the dimension which one column names: at each label the value lies on the straight line between the two rows of the table around this label; outside of the table it is missing, or on the first or last line if extrapolation is asked for. Adding the distance to a place (add_distance_to) gives each label the norm of the difference between the place and the coordinates at this label, and keeps the place as single values. Data, dimensions and all other coordinates stay as they are. Tables that name no dimension or several, places with unknown coordinates, and places whose coordinates belong to different dimensions are refused.", "quantifier": "every patch, every table of any number of rows and columns, every place and norm", "why_tests_cant": "Ranges over all tables, orders of rows, labels inside and outside of the table and all places; the tests use tables of the labels themselves and one shot.", "anchors": ["dascore/proc/coords.py:coords_from_df", "dascore/proc/coords.py:add_distance_to"]}
{"id": "C98", "title": "Snapping the coordinates of a patch", "statement": "Snapping (snap_coords) gives the patch that sorting by the same coordinates gives, and only the labels of the coordinates asked for differ: there are as many labels, evenly spaced, in the order asked for, beginning at the first sorted label and ending at the last (for times up to half a nanosecond per step). Data, dimensions and the other coordinates are those of the sorted patch. A patch whose coordinates are even and in this order already is returned unchanged. Names that are no coordinates, coordinates along several dimensions, and several coordinates of one dimension are refused.", "quantifier": "every patch, every list of coordinates, both orders, every sorting permutation", "why_tests_cant": "Ranges over all labels, permutations and sets of coordinates; the tests snap one patch with a few disordered labels in one order.", "anchors": ["dascore/proc/coords.py:snap_coords", "dascore/core/coordmanager.py:CoordManager.snap"]}
{"id": "C99", "title": "Patches converted to data frames and data arrays, and back", "statement": "A patch of two dimensions becomes a pandas data frame with its samples, whose rows and columns carry the labels and names of the dimensions; the frame converted back, with any attributes, is a patch with the same samples, dimensions and labels (other coordinates are lost). Patches with another number of dimensions are refused; frames without names need the names in the attributes. A patch becomes an xarray data array with its samples, dimensions and all coordinates that have values, and the array converted back is a patch with the same samples, dimensions and coordinates; even coordinates stay even.", "quantifier": "every patch, all labels, any number of dimensions and coordinates, all attributes given", "why_tests_cant": "Ranges over all labels, classes of coordinates and their dimensions, and attributes; the tests convert the example patch.", "anchors": ["dascore/utils/pd.py:patch_to_dataframe", "dascore/utils/pd.py:dataframe_to_patch", "dascore/utils/io.py:patch_to_xarray", "dascore/utils/io.py:xarray_to_patch"]}
{"id": "C100", "title": "Reading directories of raw files with an XML header", "statement": "Reading a raw file within limits on time and distance gives what selecting from the whole file gives: the values frame after frame, times from the instant in the name of the file one sampling period apart, channel c at c - 1 sampling intervals. Reading a directory gives one patch per file kept, in order, and leaves out no file with a sample within the limits. Files of the wrong size and transposed data are refused. Reading after the header was rewritten uses the new header; zones with a stride are read with the distances of their channels.", "quantifier": "every header and file, all limits, any number of files, every history of reads and rewrites", "why_tests_cant": "Ranges over all numbers of channels, rates, files and limits, and over histories of the process; the tests read one directory with a few limits.", "anchors": ["dascore/io/xml_binary/core.py:XMLBinaryV1", "dascore/io/xml_binary/utils.py:_load_patches", "dascore/io/xml_binary/utils.py:_read_single_file", "dascore/io/xml_binary/utils.py:_read_xml_metadata"]}
{"id": "C101", "title": "Reading DAS-HDF5 files", "statement": "Reading a DAS-HDF5 file within limits on time and channel gives what selecting from the whole file gives: the array with its dimensions in the order in which they are stored, the channels with their places x, y and z, the times with their trace numbers; nothing is given if no sample is within the limits.", "quantifier": "every file, either order of the dimensions, all labels, all limits", "why_tests_cant": "Ranges over all arrays, sizes, orders of storage and limits; the tests read one file.", "anchors": ["dascore/io/dashdf5/core.py:DASHDF5", "dascore/io/dashdf5/utils.py:_get_cf_coords"]}
{"id": "C102", "title": "Radians to strain", "statement": "radians_to_strain multiplies every sample, taken in radians, by wave length / (4 pi refractive index gauge length stress constant), puts strain in the place of radians in the units of the data and keeps the coordinates. Applied again it changes nothing. Data without radians stay as they are; radians to another power than one are refused; a gauge length that is missing or not positive is refused.", "quantifier": "every patch, all units with any factors and powers, all constants", "why_tests_cant": "Ranges over all units, multiples and powers, gauge lengths from arguments and attributes, and data with NaN; the tests try a few units.", "anchors": ["dascore/transform/strain.py:radians_to_strain", "dascore/units.py:get_factor_and_unit"]}
{"id": "C103", "title": "RSF files hold the patch", "statement": "Writing a patch with evenly sampled dimensions (that have units) to RSF gives a header whose axes have the names, lengths and labels of the dimensions, in order (times in seconds, with origin zero and their start in starttime), and the samples with the first axis running fastest: the sample with index i is at offset i1 + n1*(i2 + n2*(...)). Patches with a dimension that is not evenly sampled or has no units are refused.", "quantifier": "every patch of any number of dimensions and any lengths, all kinds of coordinates", "why_tests_cant": "Ranges over all shapes and orders of dimensions; the tests compare a header or check that a file exists.", "anchors": ["dascore/io/rsf/core.py:RSFV1.write"]}
{"id": "C104", "title": "Directories of WAV files", "statement": "Writing a patch of two dimensions, one of them even ascending times, to a directory as WAV gives one file for each label of the other dimension, named by it, with the samples at this label in the order of the times, prepared, and the rounded number of samples in a second; other files of the directory stay. Patches without times or of another number of dimensions are refused and nothing is written.", "quantifier": "every patch, both orders of the dimensions, all labels and contents of the directory", "why_tests_cant": "Ranges over all labels, repeated ones included, both orders of dimensions and everything the directory held before.", "anchors": ["dascore/io/wav/core.py:WavIO.write", "dascore/io/wav/core.py:WavIO._get_wav_data"]}
{"id": "C105", "title": "ObsPy streams and back", "statement": "A patch with even ascending times and one other dimension becomes a stream with one trace for each label of the other dimension, in order, with the samples at this label, the first time as start, the sampling rate and the label; converting the stream gives a patch with the same samples and labels, and the times that floats make of the times. Patches of two dimensions without times, streams with traces of different lengths, and streams where a trace lacks the label are refused; an empty stream is an empty patch.", "quantifier": "every patch, both orders of the dimensions, all labels, every rounding of floats whose results can be stored, all streams", "why_tests_cant": "Ranges over all patches and streams and over the rounding of times; the tests convert one patch and compare lengths.", "anchors": ["dascore/utils/io.py:patch_to_obspy", "dascore/utils/io.py:obspy_to_patch", "dascore/utils/time.py:to_datetime64"]}
{"id": "C106", "title": "Numpy functions on patches keep labels or are refused", "statement": "A numpy function applied to a patch whose result has the patch's shape gives a patch with the result and all the labels of the patch at the same positions. A result of another shape is refused if the function has no axis argument, or has no fewer axes than the patch; it is never given labels. Elements which the function moves keep their labels, and patches with other labels are not combined.", "quantifier": "every function of arrays, every patch, every list of further patches among the arguments, every valid axis argument", "why_tests_cant": "Ranges over all numpy functions and shapes; the tests call a handful of functions on patches whose sides differ.", "anchors": ["dascore/utils/array.py:apply_array_func", "dascore/utils/array.py:_reassemble_patch", "dascore/utils/array.py:_get_dims_and_inds_from_signature"]}
{"id": "C107", "title": "Sentek files are read with the instant of their name", "statement": "The instant of a Sentek file is the one in its name, for every prefix. Reading a file with n channels and k measurements gives a patch of these lengths whose samples are those of the file, measurement by measurement, with the distances and times of the file; files that end too early are refused.", "quantifier": "every prefix of the name and every instant, all numbers of channels and measurements, all values", "why_tests_cant": "Ranges over all names and files; the tests have two files, both recorded later than ten seconds past the minute.", "anchors": ["dascore/io/sentek/utils.py:_get_time_from_file_name", "dascore/io/sentek/utils.py:_get_patch_attrs", "dascore/io/sentek/core.py:SentekV5"]}
{"id": "C108", "title": "SR-4731 files", "statement": "Every SR-4731 file whose blocks follow each other behind a map of them is read as these blocks, in any order and with further blocks among them; the trace has the instant, the samples (distances below the greatest number, scaled) and one distance for each sample at multiples of the spacing. Whatever the bytes are, the blocks found lie within the file and do not overlap, and a file of which anything is missing at the end is refused.", "quantifier": "all lists of blocks with names, versions and contents that can be written; all bytes; every point at which a file may be cut off", "why_tests_cant": "Ranges over all files and all truncations; the tests have a few files and a few damaged ones.", "anchors": ["dascore/io/sr4731/utils.py:_parse_blocks", "dascore/io/sr4731/utils.py:_block_payload", "dascore/io/sr4731/utils.py:_parse_fixed_params", "dascore/io/sr4731/utils.py:_parse_data_points", "dascore/io/sr4731/utils.py:_parse_sor"]}
{"id": "C109", "title": "Labels of the older transforms", "statement": "The labels Patch.rfft and Patch.spectrogram give to frequencies are those of oscillations with so many periods in the transformed samples; each slice of a spectrogram is labelled by the middle of its samples; the frequencies take the place of the transformed dimension, which becomes the last one.", "quantifier": "all evenly sampled coordinates (ascending or descending), windows and overlaps, all lists of dimensions", "why_tests_cant": "Ranges over all spacings, lengths, windows and overlaps; the tests look at names of dimensions and at one sampling rate.", "anchors": ["dascore/transform/fft.py:rfft", "dascore/transform/spectro.py:spectrogram", "dascore/transform/spectro.py:_get_new_original_coord", "dascore/transform/spectro.py:_get_new_dims"]}
{"id": "C110", "title": "XML headers turned into dictionaries", "statement": "Turning an XML document into a dictionary loses no element: an element without children becomes its text, one with children a dictionary with one key for each tag, under which is the value of the child, or, for several children of the same tag, the list of their values in order. Every text of an element without children is found under the tags that lead to it, as often as in the document, and nothing else is.", "quantifier": "all trees of elements, of any depth and with any tags repeated any number of times", "why_tests_cant": "Ranges over all trees; the tests have a few documents, with tags repeated once or twice.", "anchors": ["dascore/utils/xml.py:xml_to_dict", "dascore/utils/xml.py:_element_to_dict"]}
{"id": "C111", "title": "Namespaces of methods", "statement": "Reading a namespace from a patch or spool gives the class defined last under that name, by registration or by an entry point, with that object as host; afterwards it stays the same for that object whatever is registered. If there is none an AttributeError is raised, which leaves no trace: a class registered later is found.", "quantifier": "all histories of registrations and of reading attributes from any objects, all entry points", "why_tests_cant": "Ranges over all histories; the tests register a class or two and read them once.", "anchors": ["dascore/utils/namespace.py:NamespaceOwner.__getattr__", "dascore/utils/namespace.py:_MethodNameSpace.__init_subclass__", "dascore/utils/plugins.py:maybe_load_entry_point"]}
