{"claims": [
  {"property": "C01", "status": "partial", "theorems": ["Verif.C01_range_construction", "Verif.C01_range_from_length", "Verif.C01_range_from_limits_and_length_partial", "Verif.C01_int_length_violated"], "note": "Proved for start/stop/step, start/step/len, stop/step/len; start/stop/len is false for Python ints (violated witness), proved otherwise."},
  {"property": "C02", "status": "proved", "theorems": ["Verif.C02_slice", "Verif.C02_int"], "note": ""},
  {"property": "C03", "status": "proved", "theorems": ["Verif.C03_select_exact", "Verif.C03_select_exact_int", "Verif.C03_fudge_is_visible"], "note": "Exact up to the code's 1e-10-step fudge; exact for integer coordinates with step below 2e10."},
  {"property": "C04", "status": "partial", "theorems": ["Verif.C04_select_exact", "Verif.C04_labels_partial", "Verif.C04_labels_violated"], "note": "Selection on monotonic array coordinates keeps exactly the samples in range (any limits, ascending and descending). The labels of the kept part go through get_coord and can be re-snapped when nearly even (violated, witness); proved for data that get_coord does not snap."},
  {"property": "C05", "status": "partial", "theorems": ["Verif.C05_array_select_partial", "Verif.C05_array_indexer", "Verif.C05_representation_independent"], "note": "Selection on unsorted array coordinates and representation independence. The re-labelling step of get_coord is the same as in C14."},
  {"property": "C06", "status": "partial", "theorems": ["Verif.C06_sort_range", "Verif.C06_sort_array", "Verif.C06_sort_array_labels_partial", "Verif.C06_sort_labels_violated"], "note": "Sort on ranges and arrays; labels re-snapped by get_coord in the nearly even case (violated)."},
  {"property": "C07", "status": "partial", "theorems": ["Verif.C07_order", "Verif.C07_range_labels_violated", "Verif.C07_order_samples_partial", "Verif.C07_order_samples_violated"], "note": "Order by values: index list and data for every coordinate; order by non-negative sample numbers. Refuted: labels of ordered range coordinates, negative sample numbers."},
  {"property": "C08", "status": "partial", "theorems": ["Verif.C08_align_partial", "Verif.C08_violated", "Verif.C08_close_violated"], "note": "align_to proved where get_coord does not snap; general claim violated (witness)."},
  {"property": "C09", "status": "partial", "theorems": ["Verif.C09_change_length_time", "Verif.C09_change_length_number_partial", "Verif.C09_change_length_violated"], "note": "Full for time coordinates; numeric coordinates fail with AssertionError when the new stop is isclose to the old (violated witness)."},
  {"property": "C10", "status": "proved", "theorems": ["Verif.C10_summary_roundtrip"], "note": ""},
  {"property": "C11", "status": "partial", "theorems": ["Verif.C11_next_index_range", "Verif.C11_samples", "Verif.C11_out_of_bounds_partial", "Verif.C11_out_of_bounds_violated", "Verif.C11_next_index_mono_partial", "Verif.C11_first_label_violated"], "note": "In-bounds range lookup and sample mode complete; out of bounds only on-grid values; array coordinate above the first label. The remaining cases are false of the code (witnesses)."},
  {"property": "C12", "status": "partial", "theorems": ["Verif.C12_update_limits_ascending", "Verif.C12_update_limits_partial", "Verif.C12_descending_violated", "Verif.C12_min_max_violated", "Verif.C12_three_limits", "Verif.C12_array_shift"], "note": "Ascending ranges and arrays complete; descending ranges and the two-limit form are false of the code (witnesses)."},
  {"property": "C13", "status": "partial", "theorems": ["Verif.C13_snap_number", "Verif.C13_snap_time_partial", "Verif.C13_snap_time_violated"], "note": "Numbers complete; for time coordinates the far end moves by rounding (bounded; exact equality violated)."},
  {"property": "C14", "status": "partial", "theorems": ["Verif.C14_represents_partial", "Verif.C14_declared_partial", "Verif.C14_snap_violated", "Verif.C14_raises_violated"], "note": "get_coord(data) represents the data up to the near-even tolerance; exact labels and never-raising are violated (witnesses)."},
  {"property": "C15", "status": "partial", "theorems": ["Verif.C15_array_to_slice_partial", "Verif.C15_negative_violated", "Verif.C15_to_slice", "Verif.C15_union"], "note": "Index array to slice for non-negative indices, sample ranges to slices, union of several indexers equals applying them axis by axis; negative indices violated (witness)."},
  {"property": "C16", "status": "partial", "theorems": ["Verif.C16_built", "Verif.C16_step", "Verif.C16_history_partial", "Verif.C16_shape", "Verif.C16_distinct_violated"], "note": "Well-formedness (names, own coordinates, attachments, shapes) is preserved by every successful operation (update, drop, disassociate, set_dims, rename, transpose, squeeze, decimate, flip, select/order, sort), for every history. Distinctness of the dimensions holds for histories whose rename/set_dims targets are fresh; it is false otherwise (C16_distinct_violated)."},
  {"property": "C17", "status": "partial", "theorems": ["Verif.C17_select_partial", "Verif.C17_order_partial", "Verif.C17_sort_partial", "Verif.C17_negative_order_violated", "Verif.C17_name_violated", "Verif.C17_twice_violated", "Verif.C17_sort_class_violated", "Verif.C17_select_succeeds", "Verif.C17_drift_violated"], "note": "Select, order (by value or sample) and sort_coords on a patch with regular coordinates keep every data value under its original labels, keep exactly what was asked for, and sort by a permutation. Hypotheses exclude the cases proved to violate the property (negative order samples, a coordinate attached twice to one dimension, the name suffix rule); the class of coordinates moved along by a sort is wrong (proved violation). Selecting intervals or slices by monotonic coordinates never fails if float coordinates are evenly sampled; for other floats it can raise (proved violation)."},
  {"property": "C18", "status": "proved", "theorems": ["Verif.C18_dims", "Verif.C18_labels", "Verif.C18_back"], "note": "Success exactly on permutations (with ... and the empty request), labels kept, nothing lost, transposing back restores."},
  {"property": "C19", "status": "partial", "theorems": ["Verif.C19_rename_partial", "Verif.C19_swap_violated"], "note": "Renaming to fresh distinct names renames and nothing else. Exchanges and collisions violate the property (proved)."},
  {"property": "C20", "status": "partial", "theorems": ["Verif.C20_intervals", "Verif.C20_within", "Verif.C20_errors", "Verif.C20_coverage_keep_partial", "Verif.C20_keep_partial_violated", "Verif.C20_coverage_full_partial", "Verif.C20_one_sample_violated", "Verif.C20_off_grid_violated", "Verif.C20_overlap_eq_length"], "note": "Start, spacing, width and containment of every interval are proved for all arguments; coverage is an exact iff for keep_partial and proved for on-grid lengths otherwise. Refuted: a trailing one-sample remainder is dropped, one-sample chunks, off-grid lengths, overlap == length divides by zero."},
  {"property": "C21", "status": "partial", "theorems": ["Verif.C21_groups", "Verif.C21_order_independent", "Verif.C21_mixed_steps_violated", "Verif.C21_other_station_violated"], "note": "Exact characterisation of the groups for rows of one sampling step and any tie order of the sort; refuted for mixed steps (order dependence) and when rows of different stations are bridged."},
  {"property": "C22", "status": "partial", "theorems": ["Verif.C22_instructions", "Verif.C22_each_sample_once", "Verif.C22_end_to_end_partial", "Verif.C22_duplicate_violated"], "note": "Full statement for disjoint sorted sources, and end to end with overlap removal on a common grid without nested rows. Refuted with duplicated rows (a sample is taken twice)."},
  {"property": "C23", "status": "proved", "theorems": ["Verif.C23_streaming_merge"], "note": "One axis, dtype promotion not modelled; any estimate and any patches."},
  {"property": "C24", "status": "proved", "theorems": ["Verif.C24_split_size", "Verif.C24_split_count", "Verif.C24_count_violated", "Verif.C24_arguments", "Verif.C24_nonpositive_violated"], "note": "All lists and positive sizes/counts. Extra: the number of parts may be below the count asked for, a non-positive size or negative count never terminates, count=0 is a TypeError."},
  {"property": "C25", "status": "proved", "theorems": ["Verif.C25_map", "Verif.C25_empty"], "note": "Any list, positive batch size (or the default), any completion order of the batches; executors return results by position."},
  {"property": "C26", "status": "partial", "theorems": ["Verif.C26_filter_partial", "Verif.C26_bad_key", "Verif.C26_min_max_as_range", "Verif.C27_range_accepted", "Verif.C26_none_violated", "Verif.C26_ellipsis_violated", "Verif.C26_ignore_bad_violated", "Verif.C26_misdirected_range", "Verif.C26_range_forgotten_violated"], "note": "Exact row-by-row characterisation for all tables and queries that do not pass None/... for a column; acceptance of range queries; rejection of unknown keys. Refuted: None for a column matches nothing, time=... raises TypeError, ignore_bad_kwargs still raises KeyError for unknown *_max keys."},
  {"property": "C27", "status": "proved", "theorems": ["Verif.C27_adjust", "Verif.C27_nonempty", "Verif.C27_range_accepted"], "note": "Any table, query and earlier modification flags; which rows are kept is C26."},
  {"property": "C28", "status": "partial", "theorems": ["Verif.C28_disjoint_cover_partial", "Verif.C28_contained_violated", "Verif.C28_off_grid_violated", "Verif.C28_unsorted"], "note": "Rows on one grid, sorted, none ending before an earlier one. Refuted for nested rows and for mixed grids; unsorted input raises."},
  {"property": "C29", "status": "partial", "theorems": ["Verif.C29_complete_partial", "Verif.C29_exact_partial", "Verif.C29_crash_violated", "Verif.C29_millisecond_violated", "Verif.C29_stale_violated", "Verif.C29_delete_violated", "Verif.C29_old_violated"], "note": "completeness for every interleaving of writes, crashes and updates; exactly-once for quiet rounds; repeated, stale, deleted and old files violate the full statement (witnesses)"},
  {"property": "C30", "status": "partial", "theorems": ["Verif.C30_sound", "Verif.C30_complete_partial", "Verif.C30_limits", "Verif.C30_edge_violated", "Verif.C30_zero_violated"], "note": "soundness proved; completeness except for rows lying exactly one second outside the window at an end; limit 0 counts as unbounded"},
  {"property": "C31", "status": "partial", "theorems": ["Verif.C31_transparent_partial", "Verif.C31_keyword_violated", "Verif.C31_edge_violated", "Verif.C31_external_violated"], "note": "proved for one indexer, queries without reader keywords and rows not on the edge; the three exceptions are violations"},
  {"property": "C32", "status": "partial", "theorems": ["Verif.C32_detect_partial", "Verif.C32_error_iff", "Verif.C32_format_partial", "Verif.C32_version_only", "Verif.C32_extension_violated", "Verif.C32_late_violated"], "note": "Every reader for the type is asked in the order hint, extension, rest (newest first) and the first that recognises the file answers, after any history of lookups; partial for versions whose string order is not the numeric one, and violated for readers sharing an extension and for readers registered late."},
  {"property": "C33", "status": "partial", "theorems": ["Verif.C33_version", "Verif.C33_latest_string", "Verif.C33_newest_partial", "Verif.C33_order", "Verif.C33_newest_violated", "Verif.C33_order_violated", "Verif.C33_stale_violated", "Verif.C33_hidden_violated"], "note": "Version lookups and independence of order hold for readers with distinct keys; the newest is by string order, so 9 beats 10 (violated); lookups are cached and installed versions can be hidden (violated)."},
  {"property": "C34", "status": "partial", "theorems": ["Verif.C34_one_handle", "Verif.C34_opens", "Verif.C34_first", "Verif.C34_same", "Verif.C34_nested", "Verif.C34_leave", "Verif.C34_count", "Verif.C34_borrowed_violated", "Verif.C34_again_violated"], "note": "Opening, reuse, nesting and closing of handles are proved for the manager; two violations are proved: a caller's own handle is closed by the manager, and handles are closed again (and returned closed) after the context ends. Missing: close_all when one close raises."},
  {"property": "C35", "status": "partial", "theorems": ["Verif.C35_patch_partial", "Verif.C35_file_partial", "Verif.C35_append_partial", "Verif.C35_read_partial", "Verif.C35_names_partial", "Verif.C35_lost_violated", "Verif.C35_mixture_violated", "Verif.C35_units_violated", "Verif.C35_data_units_violated", "Verif.C35_step_violated", "Verif.C35_mangled_violated"], "note": "Proved: a consistent patch saved in a new group reads back with the same dims, data, attributes, coordinates and associations; files of patches with distinct names; appending; dc.read's open selection; distinct names for different seconds. Missing: names that clash (same second, same source file), overwriting mixes old and new, units and single-sample steps under names with underscores, names containing the format's prefixes (all shown as violations); single-null coordinates; float64 rounding."},
  {"property": "C36", "status": "partial", "theorems": ["Verif.C36_raise_partial", "Verif.C36_raise_error", "Verif.C36_raise_result", "Verif.C36_keep_first_partial", "Verif.C36_keep_first_succeeds", "Verif.C36_drop_partial", "Verif.C36_drop_coords", "Verif.C36_drop_succeeds", "Verif.C36_limits_partial", "Verif.C36_given", "Verif.C36_raise_violated", "Verif.C36_keep_first_violated", "Verif.C36_nan_violated", "Verif.C36_limits_violated"], "note": "Holds for the sets that have the merged coordinate; NaN attributes, sets without the coordinate and drop with differing coordinates violate the full statement (witnesses proved)."},
  {"property": "C37", "status": "partial", "theorems": ["Verif.C37_merge_partial", "Verif.C37_snap_partial", "Verif.C37_stream_partial", "Verif.C37_attached_violated", "Verif.C37_snap_violated", "Verif.C37_int_violated", "Verif.C37_order_violated", "Verif.C37_identical", "Verif.C37_limits_violated"], "note": "Merging all at once and one at a time: every sample is found, moved by the samples before it, with its label along the merged dimension (without snapping, or where the labels are even together); coordinates not attached to the dimension are those agreed on. Patches come in the order of their first labels, as chunk gives them. False of the code: other coordinates attached to the dimension get its labels, snapping moves labels across small gaps, whole-number labels without steps raise, patches with another order of dimensions raise when merged at once."},
  {"property": "C38", "status": "partial", "theorems": ["Verif.C38_float64", "Verif.C38_close_partial", "Verif.C38_nearest_partial", "Verif.C38_whole_seconds", "Verif.C38_roundtrip_partial", "Verif.C38_words", "Verif.C38_nearest_violated", "Verif.C38_roundtrip_violated", "Verif.C38_view_violated", "Verif.C38_words_violated", "Verif.C38_units"], "note": "Proved for numbers with short significands, whole seconds and times within 26 days of 1970. For today's times neither the nearest nanosecond nor the round trip holds (witnesses proved). Parsing and printing of dates is numpy's and not modelled."},
  {"property": "C39", "status": "partial", "theorems": ["Verif.C39_cells_partial", "Verif.C39_times_partial", "Verif.C39_gaps", "Verif.C39_one_cell", "Verif.C39_places", "Verif.C39_factor_violated", "Verif.C39_times_violated", "Verif.C39_empty", "Verif.C39_accepts"], "note": "Proved for a gap factor that is absent or at least 1 and for datetimes at least 2 ns apart; for smaller factors and 1 ns datetimes the cells are shown not to be ordered."},
  {"property": "C40", "status": "partial", "theorems": ["Verif.C40_sequence_partial", "Verif.C40_call", "Verif.C40_requirements", "Verif.C40_newBody", "Verif.C40_nested", "Verif.C40_entry", "Verif.C40_roll_violated", "Verif.C40_text_violated", "Verif.C40_attr_violated"], "note": "For functions that keep the history themselves, from a history that is a tuple; functions calling other recorded functions, histories that are a string, and missing required values violate the full statement (witnesses proved). Identity of returned objects is an explicit case of the result."},
  {"property": "C41", "status": "partial", "theorems": ["Verif.C41_accepts", "Verif.C41_values", "Verif.C41_violated"], "note": "Success and errors characterised exactly; results in request order with axis and value. Violated: a dimension named like a reserved keyword, repeated names (C41_violated)."},
  {"property": "C42", "status": "partial", "theorems": ["Verif.C42_count_partial", "Verif.C42_samples", "Verif.C42_window_step_partial", "Verif.C42_sizes_partial", "Verif.C42_sizes_accepted", "Verif.C42_negative_violated", "Verif.C42_odd_violated"], "note": "For increasing evenly sampled coordinates and non-negative amounts. Violated for negative windows, decreasing coordinates and odd sizes at the coordinate's length."},
  {"property": "C43", "status": "partial", "theorems": ["Verif.C43_rolling_partial", "Verif.C43_centred_partial", "Verif.C43_centre_violated"], "note": "Numpy engine with any window function. Centred only for step one or 2*step | window-1; otherwise violated. The pandas engine is not modelled."},
  {"property": "C44", "status": "partial", "theorems": ["Verif.C44_aligned_partial", "Verif.C44_full", "Verif.C44_valid", "Verif.C44_reverse", "Verif.C44_others_violated", "Verif.C44_fill_violated", "Verif.C44_raises_violated"], "note": "Success assumed (valid raises if nothing is common, decreasing coordinates cannot be aligned); shifts which are not whole steps are rounded differently depending on other traces."},
  {"property": "C45", "status": "partial", "theorems": ["Verif.C45_flip_partial", "Verif.C45_flip_twice_partial", "Verif.C45_flip_violated", "Verif.C45_flip_data_only", "Verif.C45_pad_partial", "Verif.C45_pad_violated", "Verif.C45_roll_partial", "Verif.C45_roll_back", "Verif.C45_roll_violated"], "note": "flip: proved when no coordinate is attached to two flipped dimensions (violated otherwise); pad: proved for evenly increasing labels (violated for decreasing ones), amounts in samples; roll: data rotation proved, labels of the dimension move along, but other coordinates attached to it do not (violated)."},
  {"property": "C46", "status": "partial", "theorems": ["Verif.C46_taper_partial", "Verif.C46_range4_partial", "Verif.C46_range2_partial", "Verif.C46_ranges", "Verif.C46_invert_partial", "Verif.C46_ends_violated", "Verif.C46_negative_violated", "Verif.C46_decreasing_violated", "Verif.C46_open_end_violated", "Verif.C46_overlap_violated", "Verif.C46_invert_violated"], "note": "taper: exactly when it succeeds and what it touches, for increasing evenly sampled coordinates and positive lengths; taper_range for increasing requests. Violations are proved for the rest."},
  {"property": "C47", "status": "partial", "theorems": ["Verif.C47_dropna_partial", "Verif.C47_no_nulls_left", "Verif.C47_fillna"], "note": "Kept labels characterised exactly; coordinates attached to the dimension other than its own are dropped by the code, so their labels are lost."},
  {"property": "C48", "status": "partial", "theorems": ["Verif.C48_groups_partial", "Verif.C48_once", "Verif.C48_succeeds", "Verif.C48_raises", "Verif.C48_negative_violated"], "note": "Proved with exact contents (data, labels, history) of every joined or stacked group and when concatenation succeeds; the property fails for negative group sizes, which silently lose all patches."},
  {"property": "C49", "status": "partial", "theorems": ["Verif.C49_equals_iff", "Verif.C49_reflexive_partial", "Verif.C49_symmetric_partial", "Verif.C49_deep_iff", "Verif.C49_deep_symmetric", "Verif.C49_nan_violated", "Verif.C49_asymmetric_violated", "Verif.C49_null_violated", "Verif.C49_attachment_violated", "Verif.C49_class_violated"], "note": "equals = true exactly if dims, public coordinates (near), compared attributes and data agree; reflexive exactly without NaN data; symmetric for tight labels; deep equality = no distinguishing path of keys, on all finite (cyclic) object graphs, reflexive and symmetric. Violations: NaN data, asymmetric tolerance, missing labels equal anything (not transitive), attachment and units ignored, object classes ignored"},
  {"property": "C50", "status": "partial", "theorems": ["Verif.C50_contents", "Verif.C50_eq", "Verif.C50_hash", "Verif.C50_hash_iff", "Verif.C50_new_partial", "Verif.C50_frozen", "Verif.C50_new_violated"], "note": "Contents, equality, hash and immutability proved; new() proved for string keys. new() with a non-string key raises TypeError (C50_new_violated)."},
  {"property": "C51", "status": "partial", "theorems": ["Verif.C51_axes", "Verif.C51_reduction_partial", "Verif.C51_aggregate", "Verif.C51_squeeze", "Verif.C51_value_partial", "Verif.C51_keepdims_violated", "Verif.C51_integer_violated"], "note": "Axis arguments, numpy reductions without keepdims and aggregations. Violated for keepdims=True and for integer-valued dim_reduce on integer coordinates."},
  {"property": "C52", "status": "partial", "theorems": ["Verif.C52_decimate_partial", "Verif.C52_negative_violated"], "note": "Positive factors proved (coordinates attached to the dimension are dropped); violated for negative factors, which are accepted."},
  {"property": "C53", "status": "partial", "theorems": ["Verif.C53_lags_partial", "Verif.C53_zero", "Verif.C53_short_violated", "Verif.C53_long_violated", "Verif.C53_name_violated"], "note": "correlate_shift: succeeds for two or more samples and puts every sample at its wrapped lag, lag zero on the first sample; violated (raises) for one sample, for odd counts with steps below the np.isclose tolerance or 200001+ float samples; an existing coordinate named lag_<dim> is replaced. Correlations themselves (FFT) are not modelled."},
  {"property": "C54", "status": "proved", "theorems": ["Verif.C54_exact", "Verif.C54_once", "Verif.C54_dot_violated"], "note": "exact set and no repetition; for the base path \".\" directories are never handed out (C54_dot_violated records that HandsOut has this exception)"},
  {"property": "C55", "status": "partial", "theorems": ["Verif.SpoolT.C55_history_partial", "Verif.SpoolT.C55_new", "Verif.SpoolT.C55_getitem", "Verif.SpoolT.C55_slice_sources", "Verif.SpoolT.C55_negative_violated", "Verif.SpoolT.C55_chunked_slice_violated", "Verif.SpoolT.C55_chunk_after_array_violated"], "note": "Refinement to lists over all histories for spools in which each source feeds one row (new, sliced, selected, sorted). Refuted: chunked spools duplicate samples after slicing, array selection does not restrict a later chunk, indices below -len wrap."},
  {"property": "C56", "status": "partial", "theorems": ["Verif.C56_drop", "Verif.C56_drop_patch", "Verif.C56_squeeze_partial", "Verif.C56_squeeze_violated"], "note": "drop_coords proved; squeeze proved when it succeeds and no dimension is empty; violated for single-sample and empty patches."},
  {"property": "C57", "status": "partial", "theorems": ["Verif.C57_update_partial", "Verif.C57_update_manager_partial"], "note": "Names such as time_min (attributes of coordinates) are excluded."},
  {"property": "C58", "status": "partial", "theorems": ["Verif.C58_append_partial"], "note": "New names must be new and not of the form time_min."},
  {"property": "C59", "status": "partial", "theorems": ["Verif.C59_step_partial", "Verif.C59_step_violated"], "note": "Parts without a step are ignored, so the merged coordinate may state a step they do not have (witness proved)."},
  {"property": "C60", "status": "partial", "theorems": ["Verif.C60_combine_partial", "Verif.C60_same", "Verif.C60_transpose_violated", "Verif.C60_close_violated", "Verif.C60_reordered_violated", "Verif.C60_second_violated", "Verif.C60_replaced_violated", "Verif.C60_array", "Verif.C60_array_total", "Verif.C60_disjoint"], "note": "Proved for patches whose dimension labels can be stored unaltered, are distinct, and equal when close (Joinable), whenever the operation succeeds; success is proved for equal coordinates. Order of dimensions, tolerance, reordered labels and coordinates of the second patch are proved violations. Units are not modelled."},
  {"property": "C61", "status": "partial", "theorems": ["Verif.C61_derivative_partial", "Verif.C61_short", "Verif.C61_many", "Verif.C61_strain_partial", "Verif.C61_edgeless", "Verif.C61_int_violated", "Verif.C61_unsorted", "Verif.C61_strides_refused"], "note": "Proved for order 2 and floats (integers with step 1). Violated for integers with step > 1: the result is truncated."},
  {"property": "C62", "status": "partial", "theorems": ["Verif.C62_indefinite_partial", "Verif.C62_definite", "Verif.C62_determined", "Verif.C62_linear", "Verif.C62_many", "Verif.C62_uneven_violated", "Verif.C62_int_violated"], "note": "Indefinite integral proved for floats along evenly sampled dimensions and the last dimension; violated for integers (truncated) and for uneven dimensions before the last. Definite integral proved for one dimension."},
  {"property": "C63", "status": "partial", "theorems": ["Verif.C63_transform_partial", "Verif.C63_again", "Verif.C63_refuses_complex", "Verif.C63_descending_violated", "Verif.C63_rest"], "note": "dft with output FFT over exact complex numbers; padding needs ascending labels (C63_descending_violated). Float rounding and units not modelled."},
  {"property": "C64", "status": "partial", "theorems": ["Verif.C64_roundtrip_partial", "Verif.C64_stays_padded_violated", "Verif.C64_unpadded_violated", "Verif.C64_stepwise_violated", "Verif.C64_two_single_violated", "Verif.C64_descending_violated", "Verif.C64_single_violated"], "note": "Round trip proved for one dft followed by one idft over the same dimensions; excluded cases are violations with witnesses: mixed padding, stepwise inverse, single samples, descending real dimension."},
  {"property": "C65", "status": "partial", "theorems": ["Verif.C65_range_partial", "Verif.C65_wedge_partial", "Verif.C65_strip_partial", "Verif.C65_slopes_partial", "Verif.C65_complement", "Verif.C65_again", "Verif.C65_count", "Verif.C65_unknown", "Verif.C65_opposite", "Verif.C65_slopes_refused", "Verif.C65_order_violated", "Verif.C65_relative_violated", "Verif.C65_flipped_violated", "Verif.C65_small_violated"], "note": "Muted samples are characterised for one dimension, lines that meet, parallel lines and slopes, on evenly sampled dimensions in the order of the patch; violated for other orders, flipped dimensions and small extents. Smoothing is not modelled."},
  {"property": "C66", "status": "partial", "theorems": ["Verif.C66_convert", "Verif.C66_round_trip", "Verif.C66_through", "Verif.C66_refused", "Verif.C66_history_partial", "Verif.C66_history_violated", "Verif.C66_unit_history_violated", "Verif.C66_labels_partial", "Verif.C66_labels_refused", "Verif.C66_set_labels", "Verif.C66_simplify_labels_partial", "Verif.C66_labels_violated", "Verif.C66_time_violated", "Verif.C66_zero_time_violated", "Verif.C66_patch_partial", "Verif.C66_patch_done", "Verif.C66_patch_refused", "Verif.C66_simplify_partial", "Verif.C66_simplify_violated", "Verif.C66_set_violated", "Verif.C66_reduced_violated"], "note": "Numbers exact over any field. Partial: histories only for units counting from zero (C66_history_violated for temperatures); labels which stay distinct enough to be stored (C66_labels_violated), not times or partial coordinates; simplify of data only for units counting from zero (C66_simplify_violated)."},
  {"property": "C67", "status": "partial", "theorems": ["Verif.C67_rates", "Verif.C67_cycles", "Verif.C67_one_limit", "Verif.C67_plain", "Verif.C67_refused", "Verif.C67_open_end_violated", "Verif.C67_angle_violated", "Verif.C67_factor_violated", "Verif.C67_sequence", "Verif.C67_to"], "note": "Holds for dimensions with a dimension of their own and units counting from zero; angles (dimensionless) are taken the wrong way round (C67_angle_violated), open ends with periods bound the other side (as documented, C67_open_end_violated), and dimensions with a factor in their units raise an AssertionError."},
  {"property": "C68", "status": "partial", "theorems": ["Verif.C68_linear", "Verif.C68_nearest", "Verif.C68_done", "Verif.C68_kept", "Verif.C68_same", "Verif.C68_straight", "Verif.C68_even", "Verif.C68_even_same", "Verif.C68_seconds_violated", "Verif.C68_units_violated"], "note": "Holds for distinct labels (at least two); the units of the coordinate are lost (C68_units_violated) and numbers given for times are not seconds (C68_seconds_violated)."},
  {"property": "C69", "status": "partial", "theorems": ["Verif.C69_number_partial", "Verif.C69_kind", "Verif.C69_step", "Verif.C69_between_partial", "Verif.C69_done", "Verif.C69_units", "Verif.C69_long_violated", "Verif.C69_descending_violated", "Verif.C69_times_violated"], "note": "Holds where the new step of times is a whole number of nanoseconds, and unless a step that does not fit is taken to fit (C69_long_violated); descending labels with a step that does not fit give an empty patch (C69_descending_violated); times drift or become uneven (C69_times_violated)."},
  {"property": "C70", "status": "partial", "theorems": ["Verif.C70_centred", "Verif.C70_agree", "Verif.C70_within", "Verif.C70_ends", "Verif.C70_accepted", "Verif.C70_ends_violated", "Verif.C70_even_violated"], "note": "Fails at the ends (C70_ends_violated) and for even windows (C70_even_violated), where the engines differ."},
  {"property": "C71", "status": "partial", "theorems": ["Verif.C71_rule", "Verif.C71_spike_partial", "Verif.C71_within", "Verif.C71_integers_partial", "Verif.C71_refused", "Verif.C71_first_violated", "Verif.C71_integers_violated"], "note": "Spikes in the first samples are kept (C71_first_violated), integers above 24 bits are changed (C71_integers_violated); the rule is proved for windows along one dimension away from the ends."},
  {"property": "C72", "status": "partial", "theorems": ["Verif.C72_normalize_partial", "Verif.C72_bit_partial", "Verif.C72_normalize_again", "Verif.C72_normalize_accepted", "Verif.C72_standardize_partial", "Verif.C72_constant", "Verif.C72_demean", "Verif.C72_demean_again", "Verif.C72_detrend", "Verif.C72_straight", "Verif.C72_detrend_constant", "Verif.C72_demedian", "Verif.C72_least_violated", "Verif.C72_constant_violated"], "note": "Missing: the least integer of a width (C72_least_violated) for normalize, constant lines for standardize (C72_constant_violated). Arithmetic is exact."},
  {"property": "C73", "status": "partial", "theorems": ["Verif.C73_history_partial", "Verif.C73_patches_partial", "Verif.C73_accepted", "Verif.C73_unknown_violated", "Verif.C73_min_violated", "Verif.C73_two_dims_violated"], "note": "Proved for ranges and conditions, over any history, for patches whose coordinates are those of their dimensions. Missing: coordinates sharing a dimension, rows of several sources, NaN labels. Violated: unknown keywords, {column}_min for other columns, patches with coordinates of two dimensions."},
  {"property": "C74", "status": "partial", "theorems": ["Verif.C74_file_partial", "Verif.C74_directory_partial", "Verif.C74_single", "Verif.C74_touching_violated", "Verif.C74_same_extent_violated", "Verif.C74_pattern_violated"], "note": "Proved for patches that can be told apart by their rows and whose texts match themselves as patterns, provided that loading succeeds. Violated for touching patches, for patches of the same extent, and for attributes with characters of patterns."},
  {"property": "C75", "status": "partial", "theorems": ["Verif.C75_even_partial", "Verif.C75_uneven_partial", "Verif.C75_refused", "Verif.C75_uneven_violated", "Verif.C75_descending_violated", "Verif.C75_order_violated", "Verif.C75_last_violated"], "note": "Proved for patches of distance and time in this order with ascending distances: all slownesses for even distances, positive ones for uneven distances, times before the last sample. Violated for negative slownesses with uneven distances, for descending distances, for the other order of dimensions and for the last sample."},
  {"property": "C76", "status": "partial", "theorems": ["Verif.C76_gain", "Verif.C76_filter_partial", "Verif.C76_split_partial", "Verif.C76_pass_all_partial", "Verif.C76_transformed", "Verif.C76_refused", "Verif.C76_unsorted_violated", "Verif.C76_nan_violated", "Verif.C76_half_violated", "Verif.C76_complex_violated"], "note": "Proved with exact arithmetic and without units: the mask, the filtered patch as the weighted sum of its waves, the filter and its inversion add up to the patch, a filter that passes everything returns the patch, patches already transformed, refusals. Needs ascending labels and two samples along each dimension. Violated: lists of limits that do not ascend are accepted; equal last limits make the result nan; a patch transformed along one of the dimensions comes back fully untransformed; complex data lose their imaginary part."},
  {"property": "C77", "status": "partial", "theorems": ["Verif.C77_pass_partial", "Verif.C77_accepted_partial", "Verif.C77_pass_lines", "Verif.C77_refused", "Verif.C77_dimension", "Verif.C77_units", "Verif.C77_notch_partial", "Verif.C77_notch_coords", "Verif.C77_notch_refused", "Verif.C77_notch_units", "Verif.C77_order", "Verif.C77_edges_violated", "Verif.C77_open_violated", "Verif.C77_descending_violated"], "note": "Limits zero and Nyquist and dimensions with descending labels are refused (proved violations); an open range with ... is an AssertionError."},
  {"property": "C78", "status": "partial", "theorems": ["Verif.C78_median_partial", "Verif.C78_median_within", "Verif.C78_median_monotone", "Verif.C78_median_accepts", "Verif.C78_savgol_partial", "Verif.C78_savgol_refused", "Verif.C78_savgol_last", "Verif.C78_gaussian_partial", "Verif.C78_refused", "Verif.C78_sigma_violated", "Verif.C78_descending_violated", "Verif.C78_even_violated", "Verif.C78_savgol_violated"], "note": "Median: odd windows with reflection, any number of dimensions. Savitzky-Golay: one dimension. Gaussian: whole samples and ascending labels. Violated: even windows give the upper of two middle values; several Savitzky-Golay dimensions use only the last; fractional standard deviations are rounded up; with descending labels a Gaussian filter does nothing."},
  {"property": "C79", "status": "partial", "theorems": ["Verif.C79_windowed", "Verif.C79_recursive", "Verif.C79_affine", "Verif.C79_least", "Verif.C79_scale", "Verif.C79_nonneg", "Verif.C79_refused", "Verif.C79_stalta", "Verif.C79_ratio", "Verif.C79_stalta_refused", "Verif.C79_offset_violated", "Verif.C79_causal_violated", "Verif.C79_windows_violated"], "note": "Kurtosis of a patch is exactly that of the windows; the recursive method depends on a constant offset and on later samples, and STA/LTA accepts windows of the same number of samples (violations proved). Missing: windows with units, NaN samples, float rounding of the sums of powers."},
  {"property": "C80", "status": "partial", "theorems": ["Verif.C80_hilbert", "Verif.C80_unique", "Verif.C80_real", "Verif.C80_envelope", "Verif.C80_linear", "Verif.C80_tone", "Verif.C80_refused", "Verif.C80_stack", "Verif.C80_infer", "Verif.C80_weight", "Verif.C80_coherent_partial", "Verif.C80_squeezed", "Verif.C80_stack_refused", "Verif.C80_faint_violated"], "note": "Everything is proved for exact real arithmetic; that equal traces stack to themselves holds only where the envelope is at least the floating point epsilon (C80_faint_violated shows the weaker signals)."},
  {"property": "C81", "status": "partial", "theorems": ["Verif.C81_image_partial", "Verif.C81_bounded", "Verif.C81_gain", "Verif.C81_origin", "Verif.C81_plane_partial", "Verif.C81_refused", "Verif.C81_velocity_violated"], "note": "Labels are at k/((n-1)dt) but phases at k/(n dt): C81_velocity_violated. Distances in metres, datetimes, exact arithmetic."},
  {"property": "C82", "status": "partial", "theorems": ["Verif.C82_white_partial", "Verif.C82_flat_partial", "Verif.C82_gain", "Verif.C82_smooth_partial", "Verif.C82_band4_partial", "Verif.C82_band2_partial", "Verif.C82_transformed", "Verif.C82_refused", "Verif.C82_padded_violated", "Verif.C82_dead_violated", "Verif.C82_domain_violated"], "note": "Not white when the transform pads the samples, dead traces become spikes, and other transformed dimensions are transformed back (violations proved). Proved exactly for what the code does; NaN where the smoothed spectrum is zero is not modelled."},
  {"property": "C83", "status": "partial", "theorems": ["Verif.C83_slices_partial", "Verif.C83_samples_partial", "Verif.C83_roundtrip_partial", "Verif.C83_refused", "Verif.C83_not_inverted", "Verif.C83_descending_violated", "Verif.C83_extra_coordinate_violated", "Verif.C83_window_violated", "Verif.C83_transposed_violated"], "note": "Proved for windows that can be stored unaltered and without detrending; the slices for ascending labels, the round trip for coordinates that belong to dimensions. Violated for descending labels, other coordinates, nearly even windows, transposed results."},
  {"property": "C84", "status": "partial", "theorems": ["Verif.C84_limit_partial", "Verif.C84_seconds", "Verif.C84_select_partial", "Verif.C84_relative_partial", "Verif.C84_refused", "Verif.C84_crossing_violated", "Verif.C84_zero_violated", "Verif.C84_epoch_violated", "Verif.C84_free_violated"], "note": "What is missing: offsets in units with another zero (false, C84_zero_violated), limits that cross (turned round, C84_crossing_violated), percentages of coordinates sharing a dimension, infinite values; and what is missing from C17."},
  {"property": "C85", "status": "partial", "theorems": ["Verif.C85_agree_partial", "Verif.C85_attr_partial", "Verif.C85_limit_partial", "Verif.C85_prefix_violated", "Verif.C85_minutes_violated", "Verif.C85_ignored_violated", "Verif.C85_underscore_violated", "Verif.C85_describes_violated", "Verif.C85_overwrite_violated", "Verif.C85_units_violated", "Verif.C85_dimension_violated", "Verif.C85_old_name"], "note": "Agreement for all histories in which names of attributes are clear; exact effect of ordinary attributes and of one limit or step of an ascending range. Missing: units given as attributes, several fields at once, other coordinates (C12 has their limits)."},
  {"property": "C86", "status": "partial", "theorems": ["Verif.C86_quantity_partial", "Verif.C86_compare_quantity_partial", "Verif.C86_patches_partial", "Verif.C86_compare_patches_partial", "Verif.C86_patches_refused", "Verif.C86_patches_total", "Verif.C86_quantity_total", "Verif.C86_quantity_refused_partial", "Verif.C86_any_units_partial", "Verif.C86_function_partial", "Verif.C86_power_violated", "Verif.C86_function_violated", "Verif.C86_different_violated", "Verif.C86_zeros_violated", "Verif.C86_number_violated", "Verif.C86_question_partial"], "note": "Units with a zero of their own (temperatures), powers, floor division and remainders of quantities are not modelled; pint's rules are taken from its documentation. Patch functions of one sample only where they keep proportions. Violations: powers and other functions keep the units of the data, patches with different units are refused, refusals depend on whether all samples are zero, numbers without units are taken as numbers of the patch's units."},
  {"property": "C87", "status": "partial", "theorems": ["Verif.C87_whole", "Verif.C87_gives", "Verif.C87_distance", "Verif.C87_time_partial", "Verif.C87_both_refused", "Verif.C87_zones", "Verif.C87_time_violated", "Verif.C87_both_violated"], "note": "Reading all of a zone, the scan, limits of distance and several zones are proved in full. With limits of time the reader compares and returns labels one sampling step too late (C87_time_partial says exactly what it does, C87_time_violated shows the failure); limits of time and distance together never give a patch (C87_both_refused, C87_both_violated). Limits of time are taken to be whole nanoseconds in order."},
  {"property": "C88", "status": "partial", "theorems": ["Verif.C88_read_partial", "Verif.C88_order", "Verif.C88_mixed", "Verif.C88_full_refused", "Verif.C88_segments_refused", "Verif.C88_chunks_violated", "Verif.C88_full_violated", "Verif.C88_segments_violated"], "note": "Interleaved files and files of at most one full chunk and a rest are read right, with any limits (C88_read_partial). With several full chunks C88_order says exactly which sample each row holds, and C88_mixed that it is wrong for every such file. Files of full chunks only (C88_full_refused) and of several segments (C88_segments_refused) are never read; witnesses C88_chunks_violated, C88_full_violated, C88_segments_violated."},
  {"property": "C89", "status": "proved", "theorems": ["Verif.C89_read", "Verif.C89_limits", "Verif.C89_scan", "Verif.C89_refused"], "note": "Integers of the header are unbounded (numpy's 32-bit integers limit files to 4 GiB); float error not modelled; limits with the tolerance of selections."},
  {"property": "C90", "status": "partial", "theorems": ["Verif.C90_read", "Verif.C90_limits", "Verif.C90_labels", "Verif.C90_scan", "Verif.C90_unsnapped_refused", "Verif.C90_limits_violated", "Verif.C90_unfilled_violated"], "note": "Read with snap_dims (the default): whole, limits, labels, scan, proved for files with at least two filled rows. With snap_dims=False files with unfilled rows are refused with limits of time and read with samples of 1970 without limits (violated)."},
  {"property": "C91", "status": "partial", "theorems": ["Verif.C91_read_partial", "Verif.C91_no_channel_refused", "Verif.C91_write", "Verif.C91_labels_partial", "Verif.C91_step_refused", "Verif.C91_refused", "Verif.C91_start_violated", "Verif.C91_step_violated", "Verif.C91_channel_violated", "Verif.C91_decreasing_violated", "Verif.C91_empty_violated"], "note": "Round trip proved for ascending, evenly sampled times, with what becomes of the labels (C91_write) and equality for whole seconds and microseconds; reading with limits. Violated: fraction of a second lost, up to 3 ns of the step lost, channel numbers lost, decreasing times mislabelled, limits without a channel are an error. The calendar fields of headers and segyio are not modelled."},
  {"property": "C92", "status": "partial", "theorems": ["Verif.C92_condition_partial", "Verif.C92_other_partial", "Verif.C92_arrays", "Verif.C92_same", "Verif.C92_not_boolean", "Verif.C92_transposed_violated", "Verif.C92_position_violated"], "note": "where. Proved: a patch as condition with an array or scalar as fill, an array as condition with a patch as fill (assumed: labels can be stored, close labels are equal, dimensions labelled, the other patch has no further dimension nor the same ones in another order), arrays for both (exactly when), patches with the same coordinates for both, refusal of conditions that are not boolean. Missing: two patches with different coordinates. Violated: a condition with the dimensions in another order is used without transposing; an array as condition is used at positions after the alignment with the fill."},
  {"property": "C93", "status": "partial", "theorems": ["Verif.C93_read_partial", "Verif.C93_snapped", "Verif.C93_snap_exact", "Verif.C93_drift_refused", "Verif.C93_limits", "Verif.C93_limits_succeed", "Verif.C93_drift_violated", "Verif.C93_twice_violated", "Verif.C93_other_violated", "Verif.C93_single_violated", "Verif.C93_several_missing"], "note": "Whole reads without snapping need labels that can be stored (C14); with snapping the labels are evenly spaced and reading succeeds exactly if cutting the distance of times to nanoseconds loses at most a twentieth of a sample (C93_snapped, C93_drift_refused). Violations: a regular recording with a slightly wrong clock, two arrays for one dimension, an array of another length and a single channel cannot be read."},
  {"property": "C94", "status": "partial", "theorems": ["Verif.C94_read_partial", "Verif.C94_limits", "Verif.C94_regular", "Verif.C94_zone_violated", "Verif.C94_end_violated", "Verif.C94_correction_violated", "Verif.C94_band_violated", "Verif.C94_unlucky_violated", "Verif.C94_single_violated"], "note": "Proved for recordings whose array of times agrees with the attributes, in zones not ahead of UTC, with storable times (C14) and for which cutting the spacing to nanoseconds does not happen to lose a multiple of it (Unlucky). Violations: zones ahead of UTC, wrong ends, correction by the median difference, absolute numbers of loci of bands, unlucky spacings, single samples."},
  {"property": "C95", "status": "partial", "theorems": ["Verif.C95_ap", "Verif.C95_silixa", "Verif.C95_neubrex", "Verif.C95_shifts", "Verif.C95_gdr", "Verif.C95_vader", "Verif.C95_vader_iff", "Verif.C95_vader_fits", "Verif.C95_opto", "Verif.C95_drift", "Verif.C95_drift_violated", "Verif.C95_vader_violated", "Verif.C95_gdr_violated", "Verif.C95_gdr_single_violated"], "note": "Proved for every layout named in Spec/Instruments; OptoDAS with evenly spaced channels, frequency shifts with evenly spaced depths and storable ascending times, DASVader if the rounded step does not lose the end (exact criterion). Violations: drift, DASVader at some rates, GDR snapping and single times."},
  {"property": "C96", "status": "partial", "theorems": ["Verif.C96_sum_raise", "Verif.C96_sum_partial", "Verif.C96_zero_partial", "Verif.C96_succeeds", "Verif.C96_dims_violated", "Verif.C96_broadcast_violated", "Verif.C96_descending_violated", "Verif.C96_times_violated"], "note": "Patches are added sample by sample and the others left out or refused; success for agreeing patches. Violated: patches with other dimensions are added anyway, broadcast; descending coordinates do not start at zero; irregular times raise."},
  {"property": "C97", "status": "partial", "theorems": ["Verif.C97_table_partial", "Verif.C97_extrapolate_partial", "Verif.C97_table_refused", "Verif.C97_table_succeeds", "Verif.C97_distance_partial", "Verif.C97_distance_refused", "Verif.C97_descending_violated", "Verif.C97_time_violated", "Verif.C97_distance_violated"], "note": "Proved for ascending tables (any order with extrapolate=True), provided the values can be stored unaltered (values that are nearly even are evened); violated for descending tables, for times without extrapolate, and for origins with a coordinate called distance. The units argument and coordinates of several dimensions are not modelled."},
  {"property": "C98", "status": "partial", "theorems": ["Verif.C98_snap_partial", "Verif.C98_even", "Verif.C98_refused", "Verif.C98_reverse_violated", "Verif.C98_constant_refused"], "note": "Snapping proved to relabel the sorted patch evenly in the order asked for, for every coordinate asked; unchanged when even already; refusals. Missing: with reverse, labels that occur twice come out in ascending order on data in descending order (C98_reverse_violated)."},
  {"property": "C99", "status": "partial", "theorems": ["Verif.C99_frame", "Verif.C99_frame_refused", "Verif.C99_frame_names", "Verif.C99_array", "Verif.C99_attrs_violated", "Verif.C99_unattached_violated"], "note": "Round trips through data frames and data arrays proved, refusals too. Missing: PatchAttrs cannot name the dimensions of a frame (C99_attrs_violated), patches with an array of no dimension become no data array (C99_unattached_violated). Attributes, and streams of ObsPy, are not modelled."},
  {"property": "C100", "status": "partial", "theorems": ["Verif.C100_file", "Verif.C100_directory", "Verif.C100_refused", "Verif.C100_fresh", "Verif.C100_stride_violated", "Verif.C100_stale_violated"], "note": "Files and directories: full. Two parts of the statement are false and proved so: zones with a stride other than one are refused (AssertionError), and a header rewritten in the lifetime of the process is not read again. Parsing of the header and of file names, attributes and units are not modelled."},
  {"property": "C101", "status": "partial", "theorems": ["Verif.C101_read_partial", "Verif.C101_square_violated", "Verif.C101_square_read"], "note": "Files with different numbers of channels and times: full where reading succeeds (success itself is not proved, for arrays of places). False and proved so for files with as many channels as times, stored times first: the axes are taken for each other. Instants as nanoseconds; attributes and units are not modelled."},
  {"property": "C102", "status": "partial", "theorems": ["Verif.C102_strain", "Verif.C102_idempotent", "Verif.C102_otherwise", "Verif.C102_nan_violated"], "note": "Full for gauge lengths which are numbers. A gauge length NaN (default of the attributes of some formats) is not refused and turns all samples to NaN, proved as a violation. Exact arithmetic, pi a parameter; parsing and printing of units by pint are assumed (a unit prints its names); the warning is not modelled."},
  {"property": "C103", "status": "partial", "theorems": ["Verif.C103_rsf", "Verif.C103_refused"], "note": "The sample with index i is at the Fortran offset, and the axes describe the dimensions, for all shapes. Printing of numbers, the conversion to float32 and the choice of one or two files are outside the model."},
  {"property": "C104", "status": "partial", "theorems": ["Verif.C104_directory", "Verif.C104_refused", "Verif.C104_lost_violated"], "note": "For labels with different names. Labels that come twice lose channels (C104_lost_violated). Detrending and normalizing of a trace is a parameter, resampling is left out."},
  {"property": "C105", "status": "partial", "theorems": ["Verif.C105_restored", "Verif.C105_refused", "Verif.C105_backwards_violated", "Verif.C105_drift_violated", "Verif.C105_single_violated"], "note": "For ascending times whose floats can be stored. Descending times get wrong labels (C105_backwards_violated), floats make times drift (C105_drift_violated), one dimension fails (C105_single_violated). What ObsPy does is assumed; attributes are left out."},
  {"property": "C106", "status": "partial", "theorems": ["Verif.C106_same", "Verif.C106_refused", "Verif.C106_moved_violated", "Verif.C106_others_violated"], "note": "Labels at the same positions are kept and other shapes refused for every function. Violated for functions which move elements (np.transpose of a square patch keeps the labels in place) and for several patches (only the labels of the first are looked at)."},
  {"property": "C107", "status": "partial", "theorems": ["Verif.C107_name_partial", "Verif.C107_read_partial", "Verif.C107_seconds_violated", "Verif.C107_spacing_violated", "Verif.C107_truncated_violated"], "note": "The instant is right from ten seconds past the minute on; before, the text has one digit for the seconds and numpy refuses it. Samples, number of labels and first labels are right if the duration is a multiple of the number of measurements; the step of the distances is too short, and truncated steps of time make files unreadable."},
  {"property": "C108", "status": "proved", "theorems": ["Verif.C108_blocks", "Verif.C108_within", "Verif.C108_trace", "Verif.C108_truncated", "Verif.C108_sound"], "note": "Names of blocks as bytes; text fields, attributes and selection left out."},
  {"property": "C109", "status": "partial", "theorems": ["Verif.C109_rfft_iff", "Verif.C109_rfft_violated", "Verif.C109_spectrogram_partial", "Verif.C109_window", "Verif.C109_descending_violated", "Verif.C109_dims"], "note": "rfft passes the sampling rate where numpy expects the spacing: its labels are right if and only if samples are one unit apart (C109_rfft_iff, C109_rfft_violated). Spectrograms of ascending coordinates are labelled half a sample after the mean of each slice, as scipy does; those of descending coordinates get labels outside of the coordinate (C109_descending_violated). Spectrograms along times (labels rounded to nanoseconds) and the values of spectra are not modelled here."},
  {"property": "C110", "status": "proved", "theorems": ["Verif.C110_children", "Verif.C110_texts"], "note": "Attributes of elements and text beside children are ignored by the code (and said to be so), and not part of the claim; parsing of the text into elements is Python's."},
  {"property": "C111", "status": "partial", "theorems": ["Verif.C111_stable", "Verif.C111_access", "Verif.C111_replaced_violated", "Verif.C111_entry_point_violated"], "note": "Holds for every history as stated. Two expectations fail and are shown: objects that had a namespace keep it when another class is registered under its name (C111_replaced_violated), and a registered class is replaced by that of an entry point when the name is first read (C111_entry_point_violated). Wrapping of methods is not modelled."}
]}
