{
 "claims": [
  {
   "property": "C01",
   "status": "proved",
   "theorems": [
    "Nimble.C01_names_consistent_after_any_history",
    "Nimble.C01_construction"
   ],
   "note": ""
  },
  {
   "property": "C02",
   "status": "partial",
   "theorems": [
    "Nimble.C02_setNames_list_accepts_iff",
    "Nimble.C02_setNames_list_exact",
    "Nimble.C02_setNames_none",
    "Nimble.C02_setNames_list_refusal",
    "Nimble.C02_setNames_dict_exact_partial",
    "Nimble.C02_setNames_dict_violated"
   ],
   "note": "Lists: proved in full. Dictionaries: the code accepts dictionaries giving two names the same index (C02_setNames_dict_violated); under distinct indices the result is exact (_partial)."
  },
  {
   "property": "C03",
   "status": "partial",
   "theorems": [
    "Nimble.C03_setNames_partial_exact_partial",
    "Nimble.C03_repeated_none_violated",
    "Nimble.C03_repeated_name_violated"
   ],
   "note": "Proved for distinct identifiers and distinct new names; repeated new names / repeated None are accepted by the code and break the invariant (witnesses)."
  },
  {
   "property": "C04",
   "status": "partial",
   "theorems": [
    "Nimble.C04_getIndex_int",
    "Nimble.C04_getIndex_str",
    "Nimble.C04_getIndex_valid",
    "Nimble.C04_getIndex_empty",
    "Nimble.C04_getIndex_float_partial",
    "Nimble.C04_float_violated",
    "Nimble.C04_hasName",
    "Nimble.C04_hasName_empty_violated"
   ],
   "note": "Integers and names proved in full. Floats are accepted without a range check and hasName raises on an empty axis (witnesses)."
  },
  {
   "property": "C05",
   "status": "partial",
   "theorems": [
    "Nimble.Obj.C05_axis_getitem_partial",
    "Nimble.Obj.C05_getitem_partial",
    "Nimble.Obj.C05_getitem_one",
    "Nimble.Obj.C05_negative_step_violated",
    "Nimble.Obj.C05_float_violated",
    "Nimble.Obj.C05_boolean_violated",
    "Nimble.Obj.C05_empty_axis_violated"
   ],
   "note": "Proved (accepted exactly when the key denotes positions, and the result shows exactly those) for keys without floats, without lists mixing booleans and identifiers and without a negative step with an omitted end, on non-empty axes; each excluded case has a witness that the documented meaning fails there."
  },
  {
   "property": "C06",
   "status": "proved",
   "theorems": [
    "Nimble.C06_extract_partition",
    "Nimble.C06_extract_refusal"
   ],
   "note": ""
  },
  {
   "property": "C07",
   "status": "proved",
   "theorems": [
    "Nimble.C07_copy_eq_extract",
    "Nimble.C07_delete_eq_extract",
    "Nimble.C07_retain_eq_extract",
    "Nimble.C07_count_eq_extract",
    "Nimble.C07_count_refuses_identifier"
   ],
   "note": ""
  },
  {
   "property": "C08",
   "status": "proved",
   "theorems": [
    "Nimble.C08_list_selector",
    "Nimble.C08_function_selector",
    "Nimble.C08_range_selector",
    "Nimble.C08_number_selector",
    "Nimble.C08_random_selector",
    "Nimble.C08_contradictory_selectors"
   ],
   "note": ""
  },
  {
   "property": "C09",
   "status": "proved",
   "theorems": [
    "Nimble.C09_permute_iff",
    "Nimble.C09_permute_lines",
    "Nimble.C09_permute_random",
    "Nimble.C09_permute_inverse"
   ],
   "note": ""
  },
  {
   "property": "C10",
   "status": "proved",
   "theorems": [
    "Nimble.C10_sort_lexicographic_stable",
    "Nimble.C10_sort_refuses_unknown_key",
    "Nimble.C10_sort_by_names"
   ],
   "note": ""
  },
  {
   "property": "C11",
   "status": "proved",
   "theorems": [
    "Nimble.C11_insert_position",
    "Nimble.C11_insert_lines",
    "Nimble.C11_insert_delete"
   ],
   "note": ""
  },
  {
   "property": "C12",
   "status": "proved",
   "theorems": [
    "Nimble.C12_insert_accepts_iff",
    "Nimble.C12_insert_matches_by_name"
   ],
   "note": ""
  },
  {
   "property": "C13",
   "status": "proved",
   "theorems": [
    "Nimble.C13_transpose_swaps",
    "Nimble.C13_transpose_involution"
   ],
   "note": ""
  },
  {
   "property": "C14",
   "status": "partial",
   "theorems": [
    "Nimble.Obj.C14_flatten_accepts_iff",
    "Nimble.Obj.C14_flatten",
    "Nimble.Obj.C14_unflatten_accepts_iff",
    "Nimble.Obj.C14_unflatten_data",
    "Nimble.Obj.C14_round_trip_data",
    "Nimble.Obj.C14_round_trip_names_partial",
    "Nimble.Obj.C14_unflatten_other_names",
    "Nimble.Obj.C14_single_element_violated",
    "Nimble.Obj.C14_partial_names_violated",
    "Nimble.Obj.C14_trailing_bar_violated",
    "Nimble.Obj.C14_flatten_collision_violated",
    "Nimble.Obj.C14_negative_dimensions_violated",
    "Nimble.Obj.C14_default_names_asked_violated"
   ],
   "note": "Acceptance of flatten and unflatten, the position of every element, and the round trip of the data proved in full for 2D objects; the round trip of names when each axis is fully named (no ' | ', no generated prefix, no point name ending in ' |') or unnamed and there are two elements or more. Single elements, partially named axes and names ending in ' |' lose or change names, colliding names leave a broken object, negative dimensions are accepted (witnesses)."
  },
  {
   "property": "C15",
   "status": "proved",
   "theorems": [
    "Nimble.C15_check_iff",
    "Nimble.C15_merge",
    "Nimble.C15_binary_operation"
   ],
   "note": ""
  },
  {
   "property": "C16",
   "status": "partial",
   "theorems": [
    "Nimble.Obj.C16_isIdentical_iff",
    "Nimble.Obj.C16_equivalence",
    "Nimble.Obj.C16_matrix_isIdentical_iff_partial",
    "Nimble.Obj.C16_matrix_equivalence_partial",
    "Nimble.Obj.C16_missing_violated",
    "Nimble.Obj.C16_matrix_violated"
   ],
   "note": "List storage: isIdentical holds exactly when names, sizes and elements agree, and is an equivalence, for every lawful element comparison. Matrix storage: proved for values without missing values, dates or the text 'nan'; None against nan, dates and 'nan' are witnesses of the excluded cases."
  },
  {
   "property": "C17",
   "status": "partial",
   "theorems": [
    "Nimble.Mem.Heap.C17_elements",
    "Nimble.Mem.Heap.C17_independent_partial",
    "Nimble.Mem.Heap.C17_no_resize_partial",
    "Nimble.Mem.Heap.C17_inplace_partial",
    "Nimble.Mem.Heap.C17_shape_violated",
    "Nimble.Mem.Heap.C17_operand_violated",
    "Nimble.Mem.Heap.C17_example"
   ],
   "note": "Heap with addresses for _data, rows and _dims of List objects. Elements: proved for every history. Shapes: proved for every history in which no object sharing its _dims is resized, in particular without arithmetic operators returning new objects, or without resizing; false in general (base.py:5436), with two witnesses. Names and the other representations are not in the heap model."
  },
  {
   "property": "C18",
   "status": "partial",
   "theorems": [
    "Nimble.Sp.Coo.C18_setitem",
    "Nimble.Sp.Coo.C18_ofDense",
    "Nimble.Sp.Coo.C18_getitem",
    "Nimble.Sp.Coo.C18_isIdentical",
    "Nimble.Sp.Coo.C18_zeroCount",
    "Nimble.Sp.Coo.C18_containsZero",
    "Nimble.Sp.Coo.C18_unique",
    "Nimble.Sp.Coo.C18_scalarStored",
    "Nimble.Sp.Coo.C18_transformStored_partial",
    "Nimble.Sp.Coo.C18_transpose",
    "Nimble.Sp.Coo.C18_select",
    "Nimble.Sp.Coo.C18_remaining",
    "Nimble.Sp.Coo.C18_permute",
    "Nimble.Sp.Coo.C18_insert",
    "Nimble.Sp.Coo.C18_repeat",
    "Nimble.Sp.Coo.C18_replaceConst_partial",
    "Nimble.Sp.Coo.C18_replaceObj_partial",
    "Nimble.Sp.Coo.C18_replaceZeros_partial",
    "Nimble.Sp.Coo.C18_replaceZeros_stale_violated",
    "Nimble.Sp.Coo.C18_transform_stale_violated",
    "Nimble.Sp.Coo.C18_mod_violated",
    "Nimble.Sp.Coo.C18_replace_example",
    "Nimble.Sp.Coo.C18_window",
    "Nimble.Sp.Coo.C18_vectorView",
    "Nimble.Sp.C18_history_partial",
    "Nimble.Sp.C18_history_example"
   ],
   "note": "Coordinate storage with its recorded order (Model/Sparse.lean): element access and assignment, transpose, permute, insert, select/delete, repeat, unique, views, equality, counts, zero-preserving scalar operations and any history of them agree with the dense table (full theorems; C18_history_partial). Missing: zero replacement and zero-preserving transformation leave a stale index (violated), % of two Sparse objects is wrong (violated), merge, splitByCollapsing and numpy dtypes are not modelled."
  },
  {
   "property": "C19",
   "status": "partial",
   "theorems": [
    "Nimble.Obj.C19_merge_on_feature_partial",
    "Nimble.Obj.C19_merge_on_feature_union_partial",
    "Nimble.Obj.C19_merge_on_feature_refused",
    "Nimble.Obj.C19_merge_on_index",
    "Nimble.C19_intersection_order_violated",
    "Nimble.C19_intersection_labels_violated",
    "Nimble.C19_left_on_violated",
    "Nimble.C19_fill_violated",
    "Nimble.C19_refused_merge_violated",
    "Nimble.C19_empty_violated",
    "Nimble.C19_sort_index_violated",
    "Nimble.Obj.C19_merge_on_points_partial",
    "Nimble.Obj.C19_merge_needs_names",
    "Nimble.Obj.C19_strict_points_unnamed",
    "Nimble.Obj.C19_strict_points_named",
    "Nimble.Obj.C19_strict_features_named",
    "Nimble.Obj.C19_strict_refused",
    "Nimble.Obj.C19_strict_on_partial",
    "Nimble.C19_strict_force_violated",
    "Nimble.C19_strict_leak_violated"
   ],
   "note": "Model/Merge.lean: merge of two List objects (left/union/intersection, one axis strict, onFeature by name or index) with in-place filling and name reassignment. Full join semantics proved for arbitrary name overlap, under the hypotheses that fail in the code, each with a proved counterexample: intersection lists features in dict order but labels them in index order (needs names created in order); onFeature with feature='left' uses the wrong column unless every earlier feature is common; a missing left value with several right matches is filled from the first one and then conflicts; empty objects raise IndexError; a refused merge leaves the caller changed (strict force renames); onFeature=0 with union is not sorted. Conversion of other representations before the merge is not modelled."
  },
  {
   "property": "C20",
   "status": "proved",
   "theorems": [
    "Nimble.C20_kfold_accepts_iff",
    "Nimble.C20_kfold_partition",
    "Nimble.C20_group_folds",
    "Nimble.C20_group_keeps_nonmissing"
   ],
   "note": "Proved for every shuffle that is a permutation and every number of folds; group folds for every list of group labels."
  },
  {
   "property": "C21",
   "status": "partial",
   "theorems": [
    "Nimble.C21_split_aligned",
    "Nimble.C21_all_folds_tested_partial",
    "Nimble.C21_validation_after_failure_violated",
    "Nimble.C21_collected_labels",
    "Nimble.C21_data_check"
   ],
   "note": "Alignment, disjointness and coverage proved for the fold iteration over any list of objects. Partial because a validation that raises leaves the fold iterator in the middle, so the next validation tests only the remaining folds (witness)."
  },
  {
   "property": "C22",
   "status": "proved",
   "theorems": [
    "Nimble.C22_combinations_complete",
    "Nimble.C22_combinations_once",
    "Nimble.C22_brute_force_run"
   ],
   "note": ""
  },
  {
   "property": "C23",
   "status": "partial",
   "theorems": [
    "Nimble.C23_best_result_partial",
    "Nimble.C23_nan_violated"
   ],
   "note": "Proved when the performance comparison is a strict weak order; a NaN performance recorded first is never replaced (witness)."
  },
  {
   "property": "C24",
   "status": "partial",
   "theorems": [
    "Nimble.C24_terminates",
    "Nimble.C24_no_combination_twice",
    "Nimble.C24_one_loop_partial",
    "Nimble.C24_single_value_violated",
    "Nimble.C24_all_loops_partial"
   ],
   "note": "Proved for any number of loops when every tuned argument has at least two values (for one loop the first and last may have one); an argument with a single value in the middle ends the tuning early (witness)."
  },
  {
   "property": "C25",
   "status": "partial",
   "theorems": [
    "Nimble.C25_get_after_set",
    "Nimble.C25_get_section",
    "Nimble.C25_get_section_answers",
    "Nimble.C25_get_all",
    "Nimble.C25_save_unobservable_partial",
    "Nimble.C25_save_file",
    "Nimble.C25_reload_partial",
    "Nimble.C25_setDefault",
    "Nimble.C25_history_partial",
    "Nimble.C25_percent_violated",
    "Nimble.C25_getAll_then_save_violated"
   ],
   "note": "get after set, get(section), get() and the file contents proved without assumptions on values; that saving is unobservable holds for values without interpolation syntax only: a percent sign changes on saving and get() copies interpolated values into the changes (witnesses). Reading/writing of the ini file itself is assumed to be faithful."
  },
  {
   "property": "C26",
   "status": "partial",
   "theorems": [
    "Nimble.C26_hook_called_partial",
    "Nimble.C26_no_other_calls",
    "Nimble.C26_none_is_permanent",
    "Nimble.C26_set_back_violated"
   ],
   "note": "Setting an option back to the value in the file changes the effective value without calling the hook (witness); every other successful set calls it."
  },
  {
   "property": "C27",
   "status": "proved",
   "theorems": [
    "Nimble.C27_alternate_restores",
    "Nimble.C27_setSeed_refused_inside",
    "Nimble.C27_settable_again"
   ],
   "note": ""
  },
  {
   "property": "C28",
   "status": "partial",
   "theorems": [
    "Nimble.Fill.C28_constant",
    "Nimble.Fill.C28_forwardFill",
    "Nimble.Fill.C28_backwardFill",
    "Nimble.Fill.C28_stats",
    "Nimble.Fill.C28_interpolate",
    "Nimble.Obj.C28_fillMatching_function",
    "Nimble.Obj.C28_fillMatching_object_partial",
    "Nimble.Obj.C28_fillMatching_order_violated",
    "Nimble.Obj.C28_fillMatching_name_violated"
   ],
   "note": "Vector functions constant/forwardFill/backwardFill/mean-median-mode/interpolate proved in full (np.interp as documented by numpy, statistic a parameter). fillMatching with a match function proved for every selection; with a boolean object it is correct only when the selection is in increasing order (witnesses: unsorted points and a single name use the wrong row of the matcher)."
  },
  {
   "property": "C29",
   "status": "partial",
   "theorems": [
    "Nimble.Query.C29_axis_comparison",
    "Nimble.Query.C29_element_comparison",
    "Nimble.Query.C29_axis_comparison_sound",
    "Nimble.Query.C29_ambiguous_refused",
    "Nimble.Query.C29_axis_is",
    "Nimble.Query.C29_axis_is_sound",
    "Nimble.Query.C29_element_is",
    "Nimble.Query.C29_newline_violated"
   ],
   "note": "Proved for the parser on all strings; the conversion of the value to a number is outside the model. Element queries containing a newline are truncated (C29_newline_violated)."
  },
  {
   "property": "C30",
   "status": "partial",
   "theorems": [
    "Nimble.C30_mapReduce_calls",
    "Nimble.C30_mapReduce_result_partial",
    "Nimble.C30_mapReduce_header_violated",
    "Nimble.C30_mapReduce_empty"
   ],
   "note": "The calls made to the mapper and reducer are proved in full. The returned object equals the reductions when automatic name detection does not fire on them; otherwise the first reduction becomes the header (witness)."
  },
  {
   "property": "C31",
   "status": "partial",
   "theorems": [
    "Nimble.Obj.C31_groupByFeature",
    "Nimble.Obj.C31_groups_partition",
    "Nimble.Obj.C31_groupCount",
    "Nimble.Obj.C31_key",
    "Nimble.Obj.C31_prettyKey_faithful",
    "Nimble.Obj.C31_groupByFeature_missing_violated"
   ],
   "note": "Proved for every object whose grouping values have a printable key; a NaN other than numpy.nan makes the call raise, and the text 'numpy.nan' shares a key with a missing value (witness)."
  },
  {
   "property": "C32",
   "status": "proved",
   "theorems": [
    "Nimble.Obj.C32_transformFeatureToIntegers"
   ],
   "note": "Proved in full for elements with a reflexive equality (nan objects unequal to themselves are outside the model)."
  },
  {
   "property": "C33",
   "status": "partial",
   "theorems": [
    "Nimble.Obj.C33_replaceFeatureWithBinaryFeatures_partial",
    "Nimble.Obj.C33_one_hot",
    "Nimble.Obj.C33_order",
    "Nimble.Obj.C33_default_name_violated",
    "Nimble.Obj.C33_atomic_violated",
    "Nimble.Sp.C33_sparse_elements",
    "Nimble.Sp.C33_sparse_partial",
    "Nimble.Sp.C33_sparse_zero_violated"
   ],
   "note": "Proved when the feature is named or the object has no feature names, values print differently and the new names are free; otherwise the call raises after the feature was removed (witnesses). For Sparse objects (C33_sparse_*) the encoding is one-hot only when the feature holds no zero: the new feature for zero is never set (C33_sparse_zero_violated)."
  },
  {
   "property": "C34",
   "status": "partial",
   "theorems": [
    "Nimble.Obj.C34_no_labels",
    "Nimble.Obj.C34_label_object",
    "Nimble.Obj.C34_label_identifiers_partial",
    "Nimble.Obj.C34_fraction_refused",
    "Nimble.Obj.C34_label_identifiers_violated",
    "Nimble.Obj.C34_label_default_name_violated"
   ],
   "note": "No labels and label objects proved in full; identifiers when at least one test point results. With an empty test set the training labels are empty, and a label object with a default name raises (witnesses). The product testFraction*n is exact in the model."
  },
  {
   "property": "C35",
   "status": "partial",
   "theorems": [
    "Nimble.Obj.C35_unique_partial",
    "Nimble.Obj.C35_unique_distinct",
    "Nimble.Obj.C35_unique_idempotent",
    "Nimble.Obj.C35_unique_missing_violated",
    "Nimble.Obj.C35_unique_no_points_violated",
    "Nimble.Obj.C35_repeat_partial",
    "Nimble.Obj.C35_repeat_bounds",
    "Nimble.Obj.C35_repeat_default_names_violated",
    "Nimble.Obj.C35_repeat_no_points_violated"
   ],
   "note": "unique: proved when the stored cells are unchanged by nimble.data (text such as 'NA' becomes nan, witness) and there is at least one point. repeat: proved unless names were created as default only (raises TypeError, witness) or there are no points."
  },
  {
   "property": "C36",
   "status": "partial",
   "theorems": [
    "Nimble.Collapse.C36_combine",
    "Nimble.Collapse.C36_combine_conflict_refused",
    "Nimble.Collapse.C36_combine_accepted",
    "Nimble.Collapse.C36_split",
    "Nimble.Collapse.C36_split_accepted_iff",
    "Nimble.Collapse.C36_round_trip",
    "Nimble.Collapse.C36_example",
    "Nimble.Collapse.C36_example_hypotheses",
    "Nimble.Collapse.C36_values_before_names_violated",
    "Nimble.Collapse.C36_list_mixed_violated",
    "Nimble.Collapse.C36_refused_changed_violated"
   ],
   "note": "Proved for the List, Matrix and DataFrame code (Sparse has its own): the split table, names and acceptance in full when what is turned into a numpy array keeps its cells; combine when the feature with names precedes (or lies among) the retained features as documented and the features with values are given by name or are one; the round trip for named collapsed features and at least one point. Witnesses: values before names lose data silently, a List with mixed cells has its numbers turned into texts, a refused split leaves a changed, inconsistent object."
  },
  {
   "property": "C37",
   "status": "partial",
   "theorems": [
    "Nimble.Csv.C37_roundtrip_partial",
    "Nimble.Csv.C37_automatic_partial",
    "Nimble.Csv.C37_quotes_violated",
    "Nimble.Csv.C37_linebreak_violated",
    "Nimble.Csv.C37_lost_points_violated",
    "Nimble.Csv.C37_mixed_violated",
    "Nimble.Csv.C37_automatic_violated",
    "Nimble.Csv.C37_blank_header_violated",
    "Nimble.Csv.C37_partial_names_violated",
    "Nimble.Csv.C37_numeric_string_violated",
    "Nimble.Csv.C37_carriage_return_violated"
   ],
   "note": "Proved for objects whose features are numbers, truth values or strings with at least one word, whose texts and names are safe for the writer, for names flagged by the user and for automatic detection. Violated otherwise: quotes without a comma are lost, line breaks without a comma split points, a first value beginning with # or a blank only value loses the point, carriage returns never come back, numeric strings become numbers, partially named axes cannot be saved (TypeError), automatic detection misses or mistakes names. Not modelled: separator detection (csv.Sniffer), encoding, keepPoints/keepFeatures, treatAsMissing, names given as a dictionary; floats are abstract with Python's repr/float laws assumed as hypotheses (met by a concrete parser)."
  },
  {
   "property": "C38",
   "status": "proved",
   "theorems": [
    "Nimble.C38_mergeArguments",
    "Nimble.C38_mergeArguments_fresh"
   ],
   "note": ""
  },
  {
   "property": "C39",
   "status": "partial",
   "theorems": [
    "Nimble.MatMul.C39_accepted_iff",
    "Nimble.MatMul.C39_nonsquare_refused",
    "Nimble.MatMul.C39_power",
    "Nimble.MatMul.C39_powers_add",
    "Nimble.MatMul.C39_example",
    "Nimble.MatMul.C39_empty_violated"
   ],
   "note": "Exact arithmetic over a field; linalg.inv is a parameter assumed to return the inverse. The power of an empty object to 0 is refused (witness)."
  },
  {
   "property": "C40",
   "status": "partial",
   "theorems": [
    "Nimble.Obj.C40_view",
    "Nimble.View.C40_view_of_view_partial",
    "Nimble.View.C40_pointView_of_view",
    "Nimble.View.C40_featureView_of_view",
    "Nimble.View.C40_list_view_read_only",
    "Nimble.View.C40_matrix_view_read_only_violated",
    "Nimble.View.C40_view_of_view_violated"
   ],
   "note": "Proved for views of objects (every window, both axes) and for views of views with in-window non-negative positions; names, negative and out-of-window positions of a view of a view resolve against the source, and assigning through a Matrix view writes the source (witnesses)."
  },
  {
   "property": "C41",
   "status": "partial",
   "theorems": [
    "Nimble.C41_shown_rows",
    "Nimble.C41_shown_rows_within",
    "Nimble.C41_shown_range_partial",
    "Nimble.C41_range_start_violated",
    "Nimble.C41_one_point_range_violated",
    "Nimble.C41_range_outside_violated",
    "Nimble.C41_points_one_violated",
    "Nimble.C41_points_number"
   ],
   "note": "Proved in full without a point filter, for a number of points (at least 2) and for in-object ranges of at least two points with room for three rows or all of them; a range with room for two rows shows point 0 even when it is outside the range, one-point ranges are refused, ranges beyond the object raise TypeError and points=1 raises IndexError (witnesses)."
  },
  {
   "property": "C42",
   "status": "partial",
   "theorems": [
    "Nimble.C42_confusion_no_labels_partial",
    "Nimble.C42_confusion_unseen_violated",
    "Nimble.C42_confusion_percent_violated",
    "Nimble.C42_confusion_dict",
    "Nimble.C42_confusion_list",
    "Nimble.C42_confusion_list_refused",
    "Nimble.C42_confusion_total",
    "Nimble.C42_fraction",
    "Nimble.C42_metric_refused",
    "Nimble.C42_fraction_is_diagonal",
    "Nimble.C42_binary_metrics",
    "Nimble.C42_binary_counts",
    "Nimble.C42_binary_range",
    "Nimble.C42_binary_refused",
    "Nimble.C42_unseen_witness_violated",
    "Nimble.C42_percent_witness_violated",
    "Nimble.C42_f1_zero_violated"
   ],
   "note": "Model/Metrics.lean: confusionMatrix (no labels, list, dict, fractions), the validation of performance functions, fractionCorrect/Incorrect and all binary metrics, with exact arithmetic. Proved for all label vectors: counts, row/column sums, total, diagonal = fractionCorrect, textbook formulas, range, refusals. Violated: without labels a predicted value never known raises ValueError; a label like '50%' raises ValueError (Python formatting); f1Score is undefined when there is no true positive."
  },
  {
   "property": "C43",
   "status": "partial",
   "theorems": [
    "Nimble.C43_linear_partial",
    "Nimble.C43_multiply_partial",
    "Nimble.C43_equal_ends_violated",
    "Nimble.C43_never_returns_violated",
    "Nimble.C43_descending_range_violated",
    "Nimble.C43_linear_accepts"
   ],
   "note": "Exact rationals; rounding to 12 digits is a function within eps of its argument. Equal ends raise, some accepted multiplicative ranges never end and Tune(range(a, b, -s)) misses the documented end (witnesses)."
  },
  {
   "property": "C44",
   "status": "partial",
   "theorems": [
    "Nimble.MultiClass.C44_pairs",
    "Nimble.MultiClass.C44_pair_training_partial",
    "Nimble.MultiClass.C44_pair_training_violated",
    "Nimble.MultiClass.C44_relabel",
    "Nimble.MultiClass.C44_one_vs_all",
    "Nimble.MultiClass.C44_one_vs_all_order_violated",
    "Nimble.MultiClass.C44_one_vs_all_best",
    "Nimble.MultiClass.C44_one_vs_all_scores",
    "Nimble.MultiClass.C44_one_vs_one",
    "Nimble.MultiClass.C44_one_vs_one_best",
    "Nimble.MultiClass.C44_one_vs_one_scores_partial",
    "Nimble.MultiClass.C44_one_vs_one_scores_violated",
    "Nimble.MultiClass.C44_one_vs_one_order_violated",
    "Nimble.MultiClass.C44_single_label_violated",
    "Nimble.MultiClass.C44_strategy_violated",
    "Nimble.MultiClass.C44_pair_ratios",
    "Nimble.MultiClass.C44_format_scores"
   ],
   "note": "Model/MultiClass.lean: training data, votes and the three score modes; learners are abstract (their outcomes are inputs). Proved: each pair trained once, training data (labels last or all features named), winners, bestScore, allScores, combination of pairwise scores (except which format three scores have, decided by a trial run). Violated: OneVsOne with an index of another feature than the last and no feature names trains on wrong data; ties depend on the order of a set; allScores with text labels raises ValueError; a single label (OneVsOne) cannot be trained; strategies in lower case are accepted and ignored."
  },
  {
   "property": "C45",
   "status": "partial",
   "theorems": [
    "Nimble.SparseDup.C45_accepted_iff",
    "Nimble.SparseDup.C45_numeric_accepted",
    "Nimble.SparseDup.C45_nonnumeric_refused",
    "Nimble.SparseDup.C45_coordinates_distinct",
    "Nimble.SparseDup.C45_no_stored_zero",
    "Nimble.SparseDup.C45_matrix_unchanged",
    "Nimble.SparseDup.C45_stored_iff",
    "Nimble.SparseDup.C45_idempotent",
    "Nimble.SparseDup.C45_clean_unchanged",
    "Nimble.SparseDup.C45_example",
    "Nimble.SparseDup.C45_numeric_text_violated",
    "Nimble.SparseDup.C45_error_class_violated"
   ],
   "note": "Values are exact rationals or text, float(text) is a parameter. Witnesses: numeric text first seen as a duplicate raises TypeError, not the documented error."
  },
  {
   "property": "C46",
   "status": "partial",
   "theorems": [
    "Nimble.C46_permute_atomic",
    "Nimble.C46_setNames_atomic",
    "Nimble.C46_insert_atomic",
    "Nimble.C46_extract_atomic",
    "Nimble.C46_retain_atomic",
    "Nimble.C46_transpose_total",
    "Nimble.C46_sort_refused_state_partial",
    "Nimble.C46_rename_atomic",
    "Nimble.C46_refused_sort_violated"
   ],
   "note": "setNames (both forms), permute, insert/append, extract/delete, retain and transpose are modelled as sequences of writes in the order of the code (Model/Atomic.lean); proved that a refusal leaves data, shape and names as shown before and that no refusal can follow the first write. sort by several keys sorts key by key and raises midway: the witness shows the object changed, C46_sort_refused_state_partial says exactly what it is then. Missing: operations not listed (fill, transform, merge, replace...)."
  },
  {
   "property": "C47",
   "status": "partial",
   "theorems": [
    "Nimble.C47_agreeing_names_accepted_partial",
    "Nimble.C47_append_partial_names_violated"
   ],
   "note": "The code refuses compatible partial names (witness); C47_agreeing_names_accepted_partial and C12_insert_accepts_iff give the exact condition."
  },
  {
   "property": "C48",
   "status": "proved",
   "theorems": [
    "Nimble.C48_alternate_reproducible",
    "Nimble.C48_setSeed_reproducible"
   ],
   "note": ""
  },
  {
   "property": "C49",
   "status": "proved",
   "theorems": [
    "Nimble.C49_data_generators",
    "Nimble.C49_data_reproducible",
    "Nimble.C49_sparse_dense_agree",
    "Nimble.C49_nonzero_count"
   ],
   "note": ""
  },
  {
   "property": "C50",
   "status": "partial",
   "theorems": [
    "Nimble.C50_refused_setSeed_violated",
    "Nimble.C50_setSeed_partial"
   ],
   "note": "numpy refuses a seed after Python's generator has been reseeded (witness); otherwise proved."
  },
  {
   "property": "C51",
   "status": "partial",
   "theorems": [
    "Nimble.Obj.C51_calculate_values",
    "Nimble.Obj.C51_calculate_partial",
    "Nimble.Obj.C51_calculate_all",
    "Nimble.Obj.C51_calculate_violated"
   ],
   "note": "Values, order and number proved in full; names proved when all points (in order) or fewer than all are selected; false when all points are listed in another order (witness)."
  },
  {
   "property": "C52",
   "status": "partial",
   "theorems": [
    "Nimble.Obj.C52_transform",
    "Nimble.Obj.C52_transform_atomic_violated",
    "Nimble.Obj.C52_transform_succeeds"
   ],
   "note": "Success and acceptance proved in full; atomicity is false (C52_transform_atomic_violated)."
  },
  {
   "property": "C53",
   "status": "partial",
   "theorems": [
    "Nimble.C53_data_explicit",
    "Nimble.C53_data_automatic_no_header",
    "Nimble.C53_data_automatic_header",
    "Nimble.C53_data_automatic_both",
    "Nimble.C53_data_ragged_refused",
    "Nimble.C53_data_invents_values_violated",
    "Nimble.C53_data_duplicate_header_violated"
   ],
   "note": "Explicit names, automatic with and without a header, and ragged rows proved for every list of rows with at least one column; rows without columns and a given width get uninitialised values, a repeated header raises (witnesses)."
  },
  {
   "property": "C54",
   "status": "partial",
   "theorems": [
    "Nimble.Obj.C54_setitem_partial",
    "Nimble.Obj.C54_whole_axis_violated"
   ],
   "note": "Proved for two single identifiers and for two list/slice/boolean keys that do not select a whole axis; a whole axis or one single and one list key raises TypeError (witness)."
  },
  {
   "property": "C55",
   "status": "partial",
   "theorems": [
    "Nimble.C55_columns_partial",
    "Nimble.C55_fitting_columns_shown",
    "Nimble.C55_never_ends_violated",
    "Nimble.C55_fitting_column_violated"
   ],
   "note": "Termination, order, placeholder and width bound proved for every number of columns and widths except one column of width 2 in a width of 5, where the loop never ends (witness). All columns are shown when they fit if there are two or more, each at least two wide; a single fitting column may be left out (witness). Column widths are parameters of the model."
  },
  {
   "property": "C56",
   "status": "proved",
   "theorems": [
    "Nimble.MatMul.C56_accepted_iff",
    "Nimble.MatMul.C56_product",
    "Nimble.MatMul.C56_associative",
    "Nimble.MatMul.C56_example"
   ],
   "note": "Proved over any semiring, for every object and all names."
  },
  {
   "property": "C57",
   "status": "partial",
   "theorems": [
    "Nimble.Obj.C57_const",
    "Nimble.Obj.C57_obj",
    "Nimble.Obj.C57_default_partial",
    "Nimble.Obj.C57_default_end_violated",
    "Nimble.Obj.C57_default_fit_violated",
    "Nimble.Obj.C57_example",
    "Nimble.Sp.Coo.C57_sparse_empty_rows_violated"
   ],
   "note": "List: full for given ends. Without ends the code uses the number of points for the width and does not check that the object fits (violated). Sparse: the in-place walk is proved for constants and objects unless all stored elements lie above the rectangle, where it raises (violated)."
  },
  {
   "property": "C58",
   "status": "proved",
   "theorems": [
    "Nimble.C58_best_is_bound",
    "Nimble.C58_perfect_is_best",
    "Nimble.C58_best_only_perfect",
    "Nimble.C58_mean_prediction",
    "Nimble.C58_cosine_multiple"
   ],
   "note": "Real arithmetic, vectors of equal length; the decorator's validation is in Model/Metrics.lean. Full for all seven functions with a declared best value (meanFeaturewiseRootMeanSquareError is the mean of RMSE over features and is not stated separately)."
  },
  {
   "property": "C59",
   "status": "partial",
   "theorems": [
    "Nimble.C59_range",
    "Nimble.C59_mean",
    "Nimble.C59_std",
    "Nimble.C59_percentile_partial",
    "Nimble.C59_percentile_order",
    "Nimble.C59_percentile_missing_violated",
    "Nimble.C59_percentile_single_violated",
    "Nimble.C59_percentile_repeated_min_violated"
   ],
   "note": "Model/Normalize.lean: the vectors (exact numbers, missing values) of all five functions; getting the vector out of the object and back is not modelled. Range, mean and standard deviation: full. Percentiles: proved for any order in which argsort leaves equal values, with at most one missing value. Violated: the divisor is n-2 for any number of missing values, so with two or more every percentile is too small; a single value raises ZeroDivisionError; a repeated minimum (maximum) gets 0 (1) in values2 and another percentile in values1."
  },
  {
   "property": "C60",
   "status": "partial",
   "theorems": [
    "Nimble.Csv.C60_column_type_partial",
    "Nimble.Csv.C60_first_empty_violated"
   ],
   "note": "Proved if the first value of the feature is not empty in both orders; violated if it is empty (the feature is then text)."
  },
  {
   "property": "C61",
   "status": "partial",
   "theorems": [
    "Nimble.Csv.C61_given_names_partial",
    "Nimble.Csv.C61_single_row_violated",
    "Nimble.Csv.C61_no_feature_names_violated",
    "Nimble.Csv.C61_wrong_number_violated"
   ],
   "note": "Proved for files of at least two rows whose first value is not empty. Violated: files of one row, featureNames=False with given point names, and a wrong number of point names (names a, l, l instead of an error from the reader)."
  },
  {
   "property": "C62",
   "status": "partial",
   "theorems": [
    "Nimble.Stat.C62_proportion_missing",
    "Nimble.Stat.C62_proportion_zero_partial",
    "Nimble.Stat.C62_minmax",
    "Nimble.Stat.C62_mean",
    "Nimble.Stat.C62_variance",
    "Nimble.Stat.C62_mode_value",
    "Nimble.Stat.C62_mode_partial",
    "Nimble.Stat.C62_unique_count_partial",
    "Nimble.Stat.C62_order",
    "Nimble.Stat.C62_stored_zero_violated"
   ],
   "note": "Model/Statistic.lean over exact numbers, elements numbers or missing. Proved: proportionMissing, minimum, maximum, mean, variance for any stored entries; proportionZero, mode, uniqueCount when no zero is stored (and violated otherwise: a scipy matrix given by the user may store zeros); the mode is characterised independently of the program; all statistics are invariant under permutation. Not modelled: non-numeric elements, rounding, median and quartiles (which convert to a dense array first)."
  },
  {
   "property": "C63",
   "status": "partial",
   "theorems": [
    "Nimble.C63_python_list_partial",
    "Nimble.C63_flat_list",
    "Nimble.C63_list_of_dict_partial",
    "Nimble.C63_list_of_dict_features_partial",
    "Nimble.C63_dict_of_list_partial",
    "Nimble.C63_dict_of_list_points_partial",
    "Nimble.C63_list_of_dict_back_partial",
    "Nimble.C63_list_of_dict_reordered_partial",
    "Nimble.C63_dict_of_list_back_partial",
    "Nimble.C63_unnamed_violated",
    "Nimble.C63_python_list_violated",
    "Nimble.C63_dict_of_list_back_violated"
   ],
   "note": "Model/Convert.lean. Proved for names without duplicates (at most one unnamed feature or point) and objects with points and features. Violated: with two or more unnamed features all keys are None and only the last value is left; copy('python list', rowsArePoints=False) turns numbers beside texts into texts (numpy promotion); a dictionary of lists whose first list is text above numbers is refused by nimble.data unless featureNames=False. Conversions to numpy, scipy and pandas are not modelled."
  },
  {
   "property": "C64",
   "status": "partial",
   "theorems": [
    "Nimble.C64_stretch_point_partial",
    "Nimble.C64_stretch_feature_partial",
    "Nimble.C64_stretch_both_partial",
    "Nimble.C64_stretch_single_partial",
    "Nimble.C64_stretch_refused",
    "Nimble.C64_read_names_violation",
    "Nimble.C64_single_named_violation",
    "Nimble.C64_logical_names_violation",
    "Nimble.C64_read_names_both_violation",
    "Nimble.C64_single_conflict_violation"
   ],
   "note": "Model/Stretch.lean. Proved for a single point or feature with at least two entries whose repeated axis was never given generated default names, for nameless 1x1 objects, and for two stretches with at least two entries each. Violated: reading the default names of the stretched axis first makes the operation fail (InvalidArgumentValue, or TypeError with two stretches); a named 1x1 object raises IndexError against a longer named vector, and contradicting names on the really shared axis are not reported; logical operators (&, |, ^) drop all names. Conversion to numbers, zero division and the Sparse implementation are not modelled."
  },
  {
   "property": "C65",
   "status": "proved",
   "theorems": [
    "Nimble.Knn.C65_prediction",
    "Nimble.Knn.C65_scores",
    "Nimble.Knn.C65_scores_sum",
    "Nimble.Knn.C65_prediction_has_top_score",
    "Nimble.Knn.C65_no_neighbour_refused",
    "Nimble.Knn.C65_tie_differs_from_k1"
   ],
   "note": "Model/Knn.lean, exact arithmetic; the square root enters only through its monotonicity. The module's description of ties (use k=1) differs from the code: C65_tie_differs_from_k1."
  },
  {
   "property": "C66",
   "status": "partial",
   "theorems": [
    "Nimble.Knn.C66_imputed",
    "Nimble.Knn.C66_material_complete",
    "Nimble.Knn.C66_nothing_missing_left",
    "Nimble.Knn.C66_missing_in_test_only_violated",
    "Nimble.Knn.C66_missing_in_training_only_violated",
    "Nimble.Knn.C66_points_lost_violated"
   ],
   "note": "Model/Knn.lean, for any neighbour learner. Proved when applied to the training data. Violated for other data: the positions filled are those missing in the training data, so values missing only in the new data stay missing, present ones are replaced and points beyond the training data are lost."
  },
  {
   "property": "C67",
   "status": "proved",
   "theorems": [
    "Nimble.Ridge.C67_minimises",
    "Nimble.Ridge.C67_penalised_succeeds",
    "Nimble.Ridge.C67_unpenalised_succeeds_iff",
    "Nimble.Ridge.C67_failure",
    "Nimble.Ridge.C67_prediction",
    "Nimble.Ridge.C67_training_order",
    "Nimble.Ridge.C67_columns",
    "Nimble.Ridge.C67_multi_output"
   ],
   "note": "Model/Ridge.lean, Mathlib matrices over any ordered field: exact arithmetic, numpy's inverse is the inverse. A negative lamb is not refused by the code and not covered."
  },
  {
   "property": "C68",
   "status": "partial",
   "theorems": [
    "Nimble.Log.C68_all_recorded",
    "Nimble.Log.C68_new_number",
    "Nimble.Log.C68_number_kept",
    "Nimble.Log.C68_sequential_sessions",
    "Nimble.Log.C68_overlapping_sessions_violated",
    "Nimble.Log.C68_user_entry"
   ],
   "note": "Model/Log.lean; the sqlite table is a list, each insert is committed at once. Violated: a logger opened while another one is open that has not logged yet shares its session number. Reading and writing of the database file by sqlite is trusted."
  },
  {
   "property": "C69",
   "status": "partial",
   "theorems": [
    "Nimble.Log.C69_date_strings",
    "Nimble.Log.C69_selected",
    "Nimble.Log.C69_output",
    "Nimble.Log.C69_levels",
    "Nimble.Log.C69_preparation_level_violated",
    "Nimble.Log.C69_accepted_iff",
    "Nimble.Log.C69_sessions_ago",
    "Nimble.Log.C69_most_sessions_excluded_violated",
    "Nimble.Log.C69_limit_counts_hidden_violated",
    "Nimble.Log.C69_datetime_object_violated",
    "Nimble.Log.C69_loose_date_violated",
    "Nimble.Log.C69_search_finds",
    "Nimble.Log.C69_search_exact_partial",
    "Nimble.Log.C69_search_wildcards_violated"
   ],
   "note": "Model/Log.lean. The filters, their order, the dates in all three formats and the search are proved as described, with sessions least <= ago < most. Violated: the session mostSessionsAgo before the newest is excluded and equal bounds show nothing; datetime objects raise AttributeError; parts of dates may be signed or padded with blanks; % and _ in the searched text are wildcards; 'prep' entries are hidden at level 1 although documented there; maximumEntries counts entries hidden by the level of detail. Regular expressions are a parameter; the text of an entry (repr) and its layout are not modelled."
  },
  {
   "property": "C70",
   "status": "partial",
   "theorems": [
    "Nimble.EntryPoint.C70_user_calls_recognised",
    "Nimble.EntryPoint.C70_first_inner_call_partial",
    "Nimble.EntryPoint.C70_recognised_iff",
    "Nimble.EntryPoint.C70_later_inner_calls_violated",
    "Nimble.EntryPoint.C70_threads_violated"
   ],
   "note": "Model/Entry.lean. Proved for the user's calls in one thread. Violated: every nested call after the first is taken for the user's; a user's call in a second thread during another call is not."
  },
  {
   "property": "C71",
   "status": "partial",
   "theorems": [
    "Nimble.Match.C71_missing",
    "Nimble.Match.C71_numeric",
    "Nimble.Match.C71_complements",
    "Nimble.Match.C71_sign_finite",
    "Nimble.Match.C71_sign_infinite",
    "Nimble.Match.C71_sign_none",
    "Nimble.Match.C71_sign_exclusive",
    "Nimble.Match.C71_types",
    "Nimble.Match.C71_true_false_partial",
    "Nimble.Match.C71_true_false_violated",
    "Nimble.Match.C71_constant",
    "Nimble.Match.C71_container",
    "Nimble.Match.C71_function",
    "Nimble.Match.C71_iterator_violated",
    "Nimble.Match.C71_anyAll_object",
    "Nimble.Match.C71_any_iff",
    "Nimble.Match.C71_all_iff",
    "Nimble.Match.C71_duality",
    "Nimble.Match.C71_anyValues_const",
    "Nimble.Match.C71_list_typeError_violated"
   ],
   "note": "Model/Match.lean. Proved for all predicates, containers and any/all. Violated: numpy's True/False are not matched by true/false (identity test); a one-shot iterator given as container is used up by earlier calls; for plain lists a TypeError of the match function is masked by AttributeError."
  },
  {
   "property": "C72",
   "status": "partial",
   "theorems": [
    "Nimble.LearnFill.C72_fill",
    "Nimble.LearnFill.C72_failure_unchanged_partial",
    "Nimble.LearnFill.C72_unmatched_refused",
    "Nimble.LearnFill.C72_unmatched_refused_object",
    "Nimble.LearnFill.C72_mask_names_violated",
    "Nimble.LearnFill.C72_succeeds",
    "Nimble.LearnFill.C72_none_left",
    "Nimble.LearnFill.C72_shape_violated",
    "Nimble.LearnFill.C72_shape_silent_violated"
   ],
   "note": "Model/LearnFill.lean. Proved for learners whose result has the shape of trainX. Violated: the shape of the learner's result is not checked (values of another feature, or a half changed trainX); a boolean object without names is refused for a trainX with names."
  },
  {
   "property": "C73",
   "status": "partial",
   "theorems": [
    "Nimble.Learner.C73_isolation",
    "Nimble.Learner.C73_history",
    "Nimble.Learner.C73_retrain_partial",
    "Nimble.Learner.C73_arguments_violated",
    "Nimble.Learner.C73_required_violated",
    "Nimble.Learner.C73_failed_retrain_violated",
    "Nimble.Learner.C73_tune_violated",
    "Nimble.Learner.C73_incremental_violated",
    "Nimble.Learner.C73_multi_class_violated",
    "Nimble.Learner.C73_refused",
    "Nimble.Learner.C73_accepted",
    "Nimble.Learner.C73_apply_arguments"
   ],
   "note": "Model/Learner.lean: learners, dictionaries and backends in a memory with sharing. Proved: isolation over all histories, the effect of retrain, the arguments of apply. Violated: arguments after retrain lacks values still in force; required arguments must be repeated; a failing retrain or a refused Tune changes the learner; incrementalTrain after retrain forgets arguments; retrain of a multi-class learner does not train its learners."
  },
  {
   "property": "C74",
   "status": "partial",
   "theorems": [
    "Nimble.Learner.C74_performances",
    "Nimble.Learner.C74_returned_partial",
    "Nimble.Learner.C74_returned_predictions",
    "Nimble.Learner.C74_others_unchanged",
    "Nimble.Learner.C74_returned_violated"
   ],
   "note": "Model/Holdout.lean. Proved: performances (without incremental training, sets with the same names), best result, model of the returned learner, other learners unchanged. Violated: the arguments (and the stored arguments used by apply) of the returned learner are those of a set validated later. Not modelled: randomSeed and multiClassStrategy are not passed to nimble.train (tune.py:605-606)."
  },
  {
   "property": "C75",
   "status": "partial",
   "theorems": [
    "Nimble.C75_values",
    "Nimble.C75_first",
    "Nimble.C75_limit",
    "Nimble.C75_best",
    "Nimble.C75_local_optimum_partial",
    "Nimble.C75_both_better_violated",
    "Nimble.C75_joint_move_violated",
    "Nimble.C75_copy_partial",
    "Nimble.C75_copy_violated",
    "Nimble.Learner.C75_returned_model_violated",
    "Nimble.Learner.C75_trial_performances_violated"
   ],
   "note": "Model/Iterative.lean (performance an arbitrary function of the set) and the validator of Model/Holdout.lean. Proved: values, first set, limit, best of the selected, local optimum for one tuned argument whose value never has two better neighbours, copy. Violated: if both neighbours are better the worse is taken and the index goes the other way; improvements are combined without checking; for every learner that cannot be trained incrementally all trials after the first measure the same model and the returned learner has the model of the first set; Tuning.copy always raises TypeError for iterative selection. Timeouts and incremental learners not modelled."
  },
  {
   "property": "C76",
   "status": "partial",
   "theorems": [
    "Nimble.C76_results",
    "Nimble.C76_own_function",
    "Nimble.C76_first_call",
    "Nimble.C76_reuse_violated",
    "Nimble.C76_no_function",
    "Nimble.C76_failed_tuning_violated",
    "Nimble.C76_cross_results",
    "Nimble.C76_fold_results",
    "Nimble.C76_choice",
    "Nimble.C76_cross_selection"
   ],
   "note": "Proved for the ranking, its alignment and stability, the fold results and the accepted choices. Violated: the Tuning object keeps the performance function of the first trainAndTest call, so a later call with another function selects by the old one (C76_reuse_violated); after a tuning that raises, best* belongs to the failed tuning and all* to the earlier one (C76_failed_tuning_violated)."
  },
  {
   "property": "C77",
   "status": "partial",
   "theorems": [
    "Nimble.Scores.C77_label_list",
    "Nimble.Scores.C77_test_shape",
    "Nimble.Scores.C77_predictions",
    "Nimble.Scores.C77_all_scores",
    "Nimble.Scores.C77_best_score",
    "Nimble.Scores.C77_modes",
    "Nimble.Scores.C77_spelling_violated",
    "Nimble.Scores.C77_retrain_names_violated",
    "Nimble.Scores.C77_failed_incremental_violated",
    "Nimble.Scores.C77_best_name_violated"
   ],
   "note": "Proved: the label list after any history, predictions, allScores, bestScore against both, point names, accepted test shapes and modes. The learner proper and the one-vs-one test for three labels are parameters. Violated: other spellings of a mode pass the check and are refused after the work (C77_spelling_violated); retrain keeps the old label names (C77_retrain_names_violated); a refused incrementalTrain adds labels and breaks the scores (C77_failed_incremental_violated); a label feature called bestScore (C77_best_name_violated)."
  },
  {
   "property": "C78",
   "status": "partial",
   "theorems": [
    "Nimble.C78_proportion",
    "Nimble.C78_proportion_accepts",
    "Nimble.C78_empty_violated",
    "Nimble.C78_groups",
    "Nimble.C78_group_out",
    "Nimble.C78_same_feature_violated",
    "Nimble.C78_validate_labels",
    "Nimble.C78_lengths"
   ],
   "note": "Proved: the split of HoldoutProportion (a permutation of the points, sizes, labels aligned; accepted for every p in (0,1) and label object of equal length), LeaveOneGroupOut (points kept, labels aligned, folds are the groups of equal values), default validation labels, equal lengths. Violations proved: with p*n < 1 the validation data is empty and the object is made; the check that foldFeature and Y differ compares identifiers as written, so the same feature by name and by index, or by 0 and -n, is accepted. Not modelled: lists of identifiers for Y and foldFeature, float rounding of p*n."
  },
  {
   "property": "C79",
   "status": "partial",
   "theorems": [
    "Nimble.Run.C79_apply",
    "Nimble.Run.C79_test_partial",
    "Nimble.Run.C79_test_labels_violated",
    "Nimble.Run.C79_on_training_data",
    "Nimble.Run.C79_normalize",
    "Nimble.Run.C79_normalize_identifier_violated",
    "Nimble.Run.C79_incremental_violated"
   ],
   "note": "Model/TrainRun.lean, learner proper and performance function are parameters. Proved: trainAndApply and normalizeData in full, trainAndTest whenever the labels used belong to the test data, trainAndTestOnTrainingData = trainAndTest without test data. Violations proved: with testX but no testY a label object of trainX is used as the labels of testX (without comparing lengths); testY without testX raises AttributeError; normalizeData with labels given as a feature of trainX is refused for every learner and data; incrementalTrain does not separate labels given as a feature. Not modelled: arguments, seeds, tuning, multi-class strategies, score modes (C77), cross-validation in trainAndTestOnTrainingData (C20, C21)."
  },
  {
   "property": "C80",
   "status": "partial",
   "theorems": [
    "Nimble.Custom.C80_validate",
    "Nimble.Custom.C80_arguments",
    "Nimble.Custom.C80_accepted",
    "Nimble.Custom.C80_train_partial",
    "Nimble.Custom.C80_apply",
    "Nimble.Custom.C80_apply_required_violated",
    "Nimble.Custom.C80_shared_parameter_violated",
    "Nimble.Custom.C80_scores_violated",
    "Nimble.Custom.C80_keyword_only_violated",
    "Nimble.Custom.C80_choose",
    "Nimble.Custom.C80_choose_violated",
    "Nimble.Custom.C80_apply_argument_violated",
    "Nimble.Custom.C80_hidden_default_violated",
    "Nimble.Custom.C80_short_signature_violated",
    "Nimble.Custom.C80_incremental_violated"
   ],
   "note": "Model/CustomSig.lean: signatures, Python's binding of keyword arguments, the validation of classes and arguments. Proved: which classes and arguments are accepted (iff), apply works with all accepted arguments, train exactly when none of them is a parameter of apply only, the choice among parameter sets. Violations proved: arguments of apply are passed to train (TypeError), so an apply parameter without default makes a learner untrainable; a required parameter of both methods is always reported missing; a default of one method hides that the other needs it; getScores is called without the parameters it must have; parameters after * cannot be given; incrementalTrain gets all arguments; the last parameter set that lacks nothing is chosen although an earlier one matches; short signatures give IndexError. Not modelled: *args, values of arguments."
  },
  {
   "property": "C81",
   "status": "partial",
   "theorems": [
    "Nimble.DetectBest.C81_trial",
    "Nimble.DetectBest.C81_declared",
    "Nimble.DetectBest.C81_returned_max",
    "Nimble.DetectBest.C81_increasing_change",
    "Nimble.DetectBest.C81_decreasing_change",
    "Nimble.DetectBest.C81_returned_min",
    "Nimble.DetectBest.C81_finds_max",
    "Nimble.DetectBest.C81_finds_min",
    "Nimble.DetectBest.C81_label_functions",
    "Nimble.DetectBest.C81_inconsistent_refused_violated",
    "Nimble.DetectBest.C81_same_answer_violated",
    "Nimble.DetectBest.C81_best_scores_violated"
   ],
   "note": "Model/DetectBest.lean, the function under test is any pure function, the random numbers are universally quantified. Proved: what a trial means (iff), completeness for consistent functions, soundness of the returned direction, invariance under increasing and reversal under decreasing changes. Violations proved: the trials with only zeros / only ones are compared with each other but not with the main result, so an inconsistent function is accepted for all random numbers; with labels the single repeated trial is always forgiven, so the answer can depend on the random numbers; a function of best scores is refused when all drawn scores are 0. Not modelled: functions that change their arguments, infinities, messages."
  },
  {
   "property": "C82",
   "status": "partial",
   "theorems": [
    "Nimble.Obj.C82_refused_unchanged",
    "Nimble.Obj.C82_replace_located",
    "Nimble.Obj.C82_accepts_iff",
    "Nimble.Obj.C82_replace_by_name",
    "Nimble.Obj.C82_replace_all",
    "Nimble.Obj.C82_flat_list",
    "Nimble.Obj.C82_rows_as_object",
    "Nimble.Obj.C82_matching_names_violated",
    "Nimble.Obj.C82_single_feature_violated"
   ],
   "note": "Model/AxisReplace.lean on two-dimensional objects. Proved for all objects and locations: exact effect with locations, by name, of equal shape; acceptance iff; flat lists on both axes; rows as objects; refused calls change nothing. Violations proved: with data of the same shape the names of the data are ignored (point a gets the values of b); rows of one value are always taken for one point, so an object with one feature cannot have several points replaced by a list of rows. Not modelled: dataKwds other than names, objects with more than two dimensions, Sparse internals."
  },
  {
   "property": "C83",
   "status": "partial",
   "theorems": [
    "Nimble.C83_keep",
    "Nimble.C83_keep_succeeds",
    "Nimble.C83_keep_all",
    "Nimble.C83_rows_are_features",
    "Nimble.C83_rows_are_features_violated",
    "Nimble.C83_rows_are_features_names_violated"
   ],
   "note": "Proved for rowsArePoints=True (C83_keep, C83_keep_succeeds, C83_keep_all). Violated for rowsArePoints=False: the keep lists are applied to the rows, i.e. to features (C83_rows_are_features, two witnesses). In-memory lists of rows only; convertToType not modelled."
  },
  {
   "property": "C84",
   "status": "partial",
   "theorems": [
    "Nimble.Csv.C84_keep_points",
    "Nimble.Csv.C84_keep_features",
    "Nimble.Csv.C84_keep_all",
    "Nimble.Csv.C84_unnamed_violated",
    "Nimble.Csv.C84_index_violated",
    "Nimble.Csv.C84_reorder_violated",
    "Nimble.Csv.C84_ambiguous_violated",
    "Nimble.Csv.C84_guessed_names_violated"
   ],
   "note": "Proved for files whose point names are given, read or absent (not guessed). Violated: two unnamed features cannot both be kept; the index after the last feature gives IndexError; all features by index (reordering) is refused without a header; a duplicate header name silently takes the first; with guessed point names the kept features are shifted after a repetition. ignoreNonNumericalFeatures=True and floats in keep lists are not modelled."
  },
  {
   "property": "C85",
   "status": "partial",
   "theorems": [
    "Nimble.Elements.C85_transform",
    "Nimble.Elements.C85_transform_succeeds",
    "Nimble.Elements.C85_dict",
    "Nimble.Elements.C85_matrix",
    "Nimble.Elements.C85_bool_matrix_violated",
    "Nimble.Elements.C85_sparse",
    "Nimble.Elements.C85_sparse_none_violated",
    "Nimble.Elements.C85_sparse_header_violated",
    "Nimble.Elements.C85_atomic_violated",
    "Nimble.Elements.C85_false_violated"
   ],
   "note": "Proved for List/DataFrame (C85_transform, C85_transform_succeeds, C85_dict), Matrix with a non-boolean array (C85_matrix) and Sparse when zeros are preserved, or the function never returns None and the result does not look like a table under names (C85_sparse). Violated: integers put into a boolean Matrix become True; a Sparse object loses its first point (or is left inconsistent) if the new values look like a header (C85_sparse_header_violated); None is not stored in Sparse; a failing call leaves the elements before changed; False is taken for 0. Functions with state, float rounding, datetimes not modelled."
  },
  {
   "property": "C86",
   "status": "partial",
   "theorems": [
    "Nimble.Elements.C86_calculate",
    "Nimble.Elements.C86_calculate_only",
    "Nimble.Elements.C86_matching",
    "Nimble.Elements.C86_probe_violated",
    "Nimble.Elements.C86_empty_violated",
    "Nimble.Elements.C86_first_type_violated",
    "Nimble.Elements.C86_header_violated",
    "Nimble.Elements.C86_count",
    "Nimble.Elements.C86_count_violated",
    "Nimble.Elements.C86_sparse_zeros",
    "Nimble.Elements.C86_sparse_subset_violated"
   ],
   "note": "Proved: C86_calculate, C86_calculate_only, C86_matching, C86_count, C86_sparse_zeros. Violated: an empty list counts as all points (C86_empty_violated); numpy gives all values the type of the first, so 1/2 after an integer is 0 and None after a string is 'None' (C86_first_type_violated); a first point of strings over numbers becomes feature names and is lost (C86_header_violated); matchingElements calls a three-argument function at (0,0,0) (C86_probe_violated); countElements does not count False (C86_count_violated); Sparse with preserveZeros and a subset returns the wrong shape or a TypeError (C86_sparse_subset_violated)."
  },
  {
   "property": "C87",
   "status": "partial",
   "theorems": [
    "Nimble.Iter.C87_iterate",
    "Nimble.Iter.C87_iterate_refused",
    "Nimble.Iter.C87_iterate_sparse",
    "Nimble.Iter.C87_iterate_sparse_zero_violated",
    "Nimble.Iter.C87_count",
    "Nimble.Iter.C87_count_total",
    "Nimble.Iter.C87_count_sparse",
    "Nimble.Iter.C87_count_element_violated",
    "Nimble.Iter.C87_count_missing_violated",
    "Nimble.Iter.C87_count_sparse_zeros_violated"
   ],
   "note": "Proved for dense objects and for Sparse with every internal order of the entries (the iterator as a state machine, the tally from numpy's distinct values and the code's own mapping of objects to numbers). Violated: iterateElements of Sparse asks `only` about 0 even if no element is zero, so a predicate undefined at 0 raises; countUniqueElements(i, j) with two single identifiers raises; in object arrays missing numbers that are different Python objects get a key each; a Sparse object of object dtype without stored entries is refused. numpy's copying of an object to an array (dtype, object identities) is a parameter; changing a Matrix during iteration is not modelled."
  },
  {
   "property": "C88",
   "status": "partial",
   "theorems": [
    "Nimble.C88_create",
    "Nimble.C88_create_refused",
    "Nimble.C88_copy_list_partial",
    "Nimble.C88_round_trip_partial",
    "Nimble.C88_point",
    "Nimble.C88_points_copy",
    "Nimble.C88_points_extract",
    "Nimble.C88_points_delete_retain",
    "Nimble.C88_points_accepts",
    "Nimble.C88_flatten",
    "Nimble.C88_unflatten",
    "Nimble.C88_flatten_unflatten",
    "Nimble.C88_isIdentical_iff",
    "Nimble.C88_points_insert_partial",
    "Nimble.C88_ragged_accepted_violated",
    "Nimble.C88_value_repeated_violated",
    "Nimble.C88_text_split_violated",
    "Nimble.C88_points_list_flattened_violated",
    "Nimble.C88_append_other_dimensions_violated",
    "Nimble.C88_copy_list_retyped_violated"
   ],
   "note": "Proved for nested lists of any depth: creation, refusal of points of different (rectangular) dimensions, copy to lists and round trip (when numpy keeps the values), points[i], copy/extract/delete/retain, insert of equal dimensions, flatten/unflatten, isIdentical. Violated by the code: data ragged off the first path is accepted, a single value is repeated over a row, text is taken apart, points[[..]] loses the dimensions, append compares only the number of flattened values, copy('python list') retypes mixed values."
  },
  {
   "property": "C89",
   "status": "partial",
   "theorems": [
    "Nimble.Scalar.C89_scalar",
    "Nimble.Scalar.C89_refused",
    "Nimble.Scalar.C89_inplace",
    "Nimble.Scalar.C89_inplace_text_violated",
    "Nimble.Scalar.C89_bool_violated",
    "Nimble.Scalar.C89_neg",
    "Nimble.Scalar.C89_abs_partial",
    "Nimble.Scalar.C89_abs_violated",
    "Nimble.Scalar.C89_logical",
    "Nimble.Scalar.C89_logical_refused",
    "Nimble.Scalar.C89_invert",
    "Nimble.Scalar.C89_example"
   ],
   "note": "Scalar operators (also reflected and in place), unary and logical operators with numeric conversion, validation and error classification are proved for every object; the arithmetic itself is a parameter. Partial because the code violates parts: abs(obj) loses the point names if the features have none (base.py:5205); a refused in-place operation has already converted text to numbers; booleans plus a boolean is `or`, minus is a TypeError. Dates, DataFrames with boolean next to other features and Sparse shortcuts (C18) are not modelled."
  },
  {
   "property": "C90",
   "status": "partial",
   "theorems": [
    "Nimble.Sources.C90_list_of_dicts",
    "Nimble.Sources.C90_list_of_dicts_accepted",
    "Nimble.Sources.C90_dict_of_elements_partial",
    "Nimble.Sources.C90_dict_of_elements_featureNames_violated",
    "Nimble.Sources.C90_dict_of_rows_partial",
    "Nimble.Sources.C90_dict_of_rows_accepted",
    "Nimble.Sources.C90_dict_of_rows_text_violated",
    "Nimble.Sources.C90_dict_of_rows_lost_violated",
    "Nimble.Sources.C90_dict_of_dicts",
    "Nimble.Sources.C90_list_of_elements_partial",
    "Nimble.Sources.C90_list_of_elements_featureNames_violated",
    "Nimble.Sources.C90_vectors_partial",
    "Nimble.Sources.C90_vectors_accepted",
    "Nimble.Sources.C90_vectors_unnamed_violated",
    "Nimble.Sources.C90_vectors_mixed_violated"
   ],
   "note": "proved: content, names and exact acceptance for lists of dictionaries, dictionaries of elements/lists/dictionaries, lists of elements, lists of nimble vectors. Violated (proved): featureNames=False is ignored for a dictionary of elements or a list of elements; a dictionary of lists whose first list is text loses that list as a header or is refused; vectors without names mixed with named ones."
  },
  {
   "property": "C91",
   "status": "partial",
   "theorems": [
    "Nimble.ConvType.C91_converted",
    "Nimble.ConvType.C91_accepted",
    "Nimble.ConvType.C91_refused",
    "Nimble.ConvType.C91_nimble_data",
    "Nimble.ConvType.C91_rows_are_features_violated",
    "Nimble.ConvType.C91_dictionary_used_up_violated",
    "Nimble.ConvType.C91_negative_index_violated",
    "Nimble.ConvType.C91_empty_list_violated",
    "Nimble.ConvType.C91_sparse_stored_only_violated",
    "Nimble.ConvType.C91_rows_are_features_refused_violated"
   ],
   "note": "proved: what is converted, exact acceptance (iff), the errors, and the same through nimble.data. Violated (proved): the caller's dictionary is emptied so a second call converts nothing; a negative index is silently ignored (names) or refused (no names); with rowsArePoints=False the types go to the points of the result; the empty list for an object without features is an IndexError; for Sparse only stored entries are converted."
  },
  {
   "property": "C92",
   "status": "partial",
   "theorems": [
    "Nimble.Parse.C92_split",
    "Nimble.Parse.C92_accepted_partial",
    "Nimble.Parse.C92_parts",
    "Nimble.Parse.C92_items",
    "Nimble.Parse.C92_refused_unchanged",
    "Nimble.Parse.C92_taken_name_violated",
    "Nimble.Parse.C92_list_separator_violated",
    "Nimble.Parse.C92_places_violated",
    "Nimble.Parse.C92_sparse_partial",
    "Nimble.Parse.C92_sparse_numbers_violated"
   ],
   "note": "Violated: a new name that is already taken by another feature is only noticed after the data were replaced (C92_taken_name_violated: refused with changed data and a stale names table); a separator of several characters in a list is only skipped by one character (C92_list_separator_violated); a list of places with a place before the preceding one (C92_places_violated); Sparse: numbers among the parts (C92_sparse_numbers_violated). C92_accepted_partial/C92_sparse_partial are proved for the rules of the predicate Plain (separator, position, function), lists of places by C92_items."
  },
  {
   "property": "C93",
   "status": "partial",
   "theorems": [
    "Nimble.NormF.C93_one",
    "Nimble.NormF.C93_both",
    "Nimble.NormF.C93_accepted",
    "Nimble.NormF.C93_refused_unchanged",
    "Nimble.NormF.C93_identifiers",
    "Nimble.NormF.C93_single_index_violated",
    "Nimble.NormF.C93_single_name_violated",
    "Nimble.NormF.C93_atomic_violated"
   ],
   "note": "Violated: not atomic if the function returns a wrong number of values for the second object (C93_atomic_violated); with applyResultTo a single identifier is refused: an integer always, a name is iterated character by character (C93_single_index_violated, C93_single_name_violated). Everything else proved, including acceptance iff (C93_accepted)."
  },
  {
   "property": "C94",
   "status": "partial",
   "theorems": [
    "Nimble.Obj.C94_df_join_partial",
    "Nimble.Obj.C94_df_union_rows",
    "Nimble.Obj.C94_df_on_partial",
    "Nimble.Obj.C94_df_on_union_partial",
    "Nimble.C94_df_order_violated",
    "Nimble.C94_df_missing_violated",
    "Nimble.C94_df_refused_violated",
    "Nimble.Obj.C94_matrix_same_partial",
    "Nimble.Obj.C94_matrix_join_partial",
    "Nimble.Obj.C94_matrix_missing_violated",
    "Nimble.Sp.C94_sparse_join_partial",
    "Nimble.Sp.C94_sparse_on_partial",
    "Nimble.Sp.C94_sparse_zero_violated",
    "Nimble.Sp.C94_sparse_lost_violated",
    "Nimble.Sp.C94_sparse_moved_violated",
    "Nimble.Sp.C94_sparse_refused_violated"
   ],
   "note": "Matrix: the same as List (state and outcome, C94_matrix_same_partial) if the caller has no missing value in a common feature; violated otherwise: a Matrix never fills a missing value of the caller (C94_matrix_missing_violated, the assignment goes to a copy). Sparse: the documented join, on point names and on a feature, for any internal order of the stored entries (C94_sparse_join_partial, C94_sparse_on_partial) under the conditions that fail in the code, each with a proved counterexample: a zero in the feature merged on (C94_sparse_zero_violated, C94_sparse_lost_violated: places of stored values are taken for point indices), zeros in features only the other object has (C94_sparse_moved_violated: values move to the wrong features), text or an empty join (C94_sparse_refused_violated). DataFrame: pandas' documented join is an assumption (Model/MergeDf.lean); the documented join on point names for every mode, for 'union' if the names are in alphabetical order or equal (C94_df_join_partial), and on a feature (C94_df_on_partial, C94_df_on_union_partial: any order pandas may give). Violated: for 'union' the points get each other's names otherwise (C94_df_order_violated, exactly described by C94_df_union_rows); missing values of the feature merged on are equal to each other (C94_df_missing_violated); a refused merge leaves pandas' frame in the object (C94_df_refused_violated)."
  },
  {
   "property": "C95",
   "status": "partial",
   "theorems": [
    "Nimble.SpArith.C95_zero_division",
    "Nimble.SpArith.C95_scalar_partial",
    "Nimble.SpArith.C95_scalar_violated",
    "Nimble.SpArith.C95_objects_refused",
    "Nimble.SpArith.C95_objects",
    "Nimble.SpArith.C95_silent_violated",
    "Nimble.SpArith.C95_pow",
    "Nimble.SpArith.C95_floordiv_partial",
    "Nimble.SpArith.C95_floordiv_violated",
    "Nimble.SpArith.C95_mod_partial",
    "Nimble.SpArith.C95_mod_violated"
   ],
   "note": "Partial because the code violates the claim: a Sparse object multiplied by an infinity or nan, or divided by nan, keeps its zeros (C95_scalar_violated); floating point errors are silent in + - * / of two Sparse objects (C95_silent_violated); // of two Sparse objects is the rounded quotient, which differs from // (C95_floordiv_violated); sparse % sparse is refused with ValueError as soon as the left object has a zero (C95_mod_violated). numpy's and scipy's arithmetic are parameters with the laws stated in Lawful and Agrees."
  },
  {
   "property": "C96",
   "status": "partial",
   "theorems": [
    "Nimble.Sp.C96_split_partial",
    "Nimble.Sp.C96_split_zero_violated",
    "Nimble.Sp.C96_split_written",
    "Nimble.Sp.C96_split_shift_violated",
    "Nimble.Sp.C96_split_order_violated",
    "Nimble.Sp.C96_combine",
    "Nimble.Sp.C96_combine_stored_violated",
    "Nimble.Sp.C96_combine_table",
    "Nimble.Sp.C96_split_stored_violated"
   ],
   "note": "Partial because the code violates the claim: one zero in a collapsed feature makes splitByCollapsingFeatures fail with an index error (C96_split_zero_violated), zeros among the retained values are moved to the end (C96_split_shift_violated), features not given from left to right can get each other's values (C96_split_order_violated), and zeros are stored explicitly (C96_split_stored_violated, C96_combine_stored_violated). What is written is stated exactly by C96_split_written; combineByExpandingFeatures is proved equal to the other types without condition on zeros (C96_combine)."
  },
  {
   "property": "C97",
   "status": "proved",
   "theorems": [
    "Nimble.SpCsv.C97_csv"
   ],
   "note": "Proved: the text written for a Sparse object is the text written for the table of its elements by the code of the List type (C51), for every well-formed storage, and the object keeps its elements. Hypothesis: the text of the zero of the data type has no comma."
  },
  {
   "property": "C98",
   "status": "partial",
   "theorems": [
    "Nimble.Mtx.C98_names_partial",
    "Nimble.Mtx.C98_default_refused",
    "Nimble.Mtx.C98_lost_violated",
    "Nimble.Mtx.C98_values"
   ],
   "note": "Proved for names without commas and line breaks whose last one does not end in white space (all object types, each axis with or without names). Violated: any other names are never read back (C98_lost_violated: no file text makes the loader return them); the code saves such names without refusing. Objects with some but not all names are refused with a TypeError. Values are proved for List, whose writer is nimble code; for the other types scipy writes them."
  },
  {
   "property": "C99",
   "status": "partial",
   "theorems": [
    "Nimble.Sp.C99_names_partial",
    "Nimble.Sp.C99_point_duplicate_refused",
    "Nimble.Sp.C99_zero_point_violated",
    "Nimble.Sp.C99_zero_features_refused",
    "Nimble.Sp.C99_feature_duplicate_violated",
    "Nimble.Sp.C99_detect_partial",
    "Nimble.Sp.C99_one_row_violated"
   ],
   "note": "Proved: names and remaining table are exact whenever the names are different (and, if both axes are taken out, no point is named zero); duplicate point names and two zero feature names are refused; with two or more rows detection agrees with the list of rows. Violated: one feature name occurring twice is accepted and one of the two features is called '0' (C99_feature_duplicate_violated); a point named zero is refused when feature names are taken out too (C99_zero_point_violated); the only row of a matrix of texts is taken for feature names (C99_one_row_violated)."
  },
  {
   "property": "C100",
   "status": "partial",
   "theorems": [
    "Nimble.Typed.C100_matrix_partial",
    "Nimble.Typed.C100_matrix_accepted_partial",
    "Nimble.Typed.C100_sparse_partial",
    "Nimble.Typed.C100_sparse_atomic",
    "Nimble.Typed.C100_sparse_accepted_partial",
    "Nimble.Typed.C100_matrix_int32_violated",
    "Nimble.Typed.C100_sparse_float32_violated"
   ],
   "note": "Proved for arrays of dtype bool, int64, float64 and object, up to the type of numbers and of missing values. For other numeric dtypes it is false: a Matrix of 32-bit integers cuts off fractions (C100_matrix_int32_violated), transforming one point of a float32 Sparse object can change other points (C100_sparse_float32_violated)."
  },
  {
   "property": "C101",
   "status": "partial",
   "theorems": [
    "Nimble.FeatureReport.C101_names_distinct_partial",
    "Nimble.FeatureReport.C101_report",
    "Nimble.FeatureReport.C101_dtypes",
    "Nimble.FeatureReport.C101_accepted_partial",
    "Nimble.FeatureReport.C101_names_violated",
    "Nimble.FeatureReport.C101_no_features_refused"
   ],
   "note": "The statistics are parameters of the model (any value or exception). C101_report and C101_dtypes: every report that is made shows the right values under the right names, whatever raises. Distinct names fail for names that already look numbered (f, f, 'f (0)': C101_names_violated), hence the hypothesis Plain in C101_names_distinct_partial and C101_accepted_partial; an object without features is refused (C101_no_features_refused)."
  },
  {
   "property": "C102",
   "status": "partial",
   "theorems": [
    "Nimble.Elements.C102_range",
    "Nimble.Elements.C102_same",
    "Nimble.Elements.C102_false_definite",
    "Nimble.Elements.C102_shape",
    "Nimble.Elements.C102_value",
    "Nimble.Elements.C102_true",
    "Nimble.Elements.C102_change_seen",
    "Nimble.Elements.C102_missing_violated"
   ],
   "note": "Float arithmetic is a parameter (Arith) for C102_range, C102_same and C102_false_definite; C102_value, C102_true and C102_change_seen are for exact arithmetic with arbitrary rational weights. 'Every two objects can be compared' is false: round(nan) raises, so an object with a missing value cannot be compared with anything of its shape, not even with itself (C102_missing_violated)."
  },
  {
   "property": "C103",
   "status": "partial",
   "theorems": [
    "Nimble.LogArgs.C103_arguments_partial",
    "Nimble.LogArgs.C103_call_partial",
    "Nimble.LogArgs.C103_raises_violated",
    "Nimble.LogArgs.C103_lambda_partial",
    "Nimble.LogArgs.C103_lambda_violated",
    "Nimble.LogArgs.C103_readable",
    "Nimble.LogArgs.C103_unchanged"
   ],
   "note": "An argument whose comparison with its default raises anything but TypeError (a numpy array against None: ValueError) makes the call raise after the object was changed, without a log entry (C103_raises_violated); hence the hypothesis in C103_arguments_partial and C103_call_partial. The text of a lambda is cut at a bracket in a string constant and at the comma after a default value with a colon (C103_lambda_violated); C103_lambda_partial is for one source line with matching brackets. literal_eval/repr of constants are parameters of C103_readable and C103_unchanged."
  },
  {
   "property": "C104",
   "status": "partial",
   "theorems": [
    "Nimble.Confidence.C104_mae",
    "Nimble.Confidence.C104_rmse_partial",
    "Nimble.Confidence.C104_fraction_partial",
    "Nimble.Confidence.C104_equal_errors",
    "Nimble.Confidence.C104_rmse_violated",
    "Nimble.Confidence.C104_fraction_violated",
    "Nimble.Confidence.C104_missing_violated",
    "Nimble.Confidence.C104_wrong_fraction_violated"
   ],
   "note": "Real arithmetic; scipy's quantile function is a parameter (Quantile: zero at 1/2, monotone). The lower end of the interval of the root mean square error is nan whenever the half-width exceeds the mean squared error, e.g. two predictions of which one is right (C104_rmse_violated); the interval of the fraction leaves [0, 1] (C104_fraction_violated); points with missing values count as observations (C104_missing_violated) and as incorrect, and a feature against a point is compared by broadcasting (C104_wrong_fraction_violated)."
  },
  {
   "property": "C105",
   "status": "partial",
   "theorems": [
    "Nimble.AxisStats.C105_statistics",
    "Nimble.AxisStats.C105_names_partial",
    "Nimble.AxisStats.C105_count_violated",
    "Nimble.AxisStats.C105_empty",
    "Nimble.AxisStats.C105_methods",
    "Nimble.AxisStats.C105_groups",
    "Nimble.AxisStats.C105_groupByFeature_calculate"
   ],
   "note": "The accepted name 'count' has no function: ValueError for every object (C105_count_violated). The functions of nimble.calculate are parameters here (their values are C57); case and whitespace of ASCII characters."
  },
  {
   "property": "C106",
   "status": "partial",
   "theorems": [
    "Nimble.Similarities.C106_similarities_partial",
    "Nimble.Similarities.C106_names",
    "Nimble.Similarities.C106_symmetric",
    "Nimble.Similarities.C106_correlation_range",
    "Nimble.Similarities.C106_diagonal",
    "Nimble.Similarities.C106_units",
    "Nimble.Similarities.C106_transposed",
    "Nimble.Similarities.C106_empty_violated",
    "Nimble.Similarities.C106_dotProduct_call",
    "Nimble.Similarities.C106_dotProduct",
    "Nimble.Similarities.C106_covariance_psd",
    "Nimble.Similarities.C106_example"
   ],
   "note": "Exact real arithmetic; nan and infinite values are both missing (np.isfinite). Vectors of length zero: the sample covariance is 0 although undefined (C106_empty_violated). The dot product is stated for complete data (C106_dotProduct); positive semidefiniteness for complete data."
  },
  {
   "property": "C107",
   "status": "proved",
   "theorems": [
    "Nimble.Report.C107_report",
    "Nimble.Report.C107_bounds",
    "Nimble.Report.C107_empty",
    "Nimble.Report.C107_arrangement"
   ],
   "note": "Rational numbers or missing values; the result is the list of names and values, not the object made of it."
  },
  {
   "property": "C108",
   "status": "partial",
   "theorems": [
    "Nimble.Solve.C108_solve",
    "Nimble.Solve.C108_leastSquares",
    "Nimble.Solve.C108_passed_on",
    "Nimble.Solve.C108_refused_partial",
    "Nimble.Solve.C108_single_violated",
    "Nimble.Solve.C108_shape_violated",
    "Nimble.Solve.C108_leastSquares_example",
    "Nimble.Solve.C108_example"
   ],
   "note": "scipy's routines are parameters with their contracts (SolvesExactly, SolvesLeastSquares), exact arithmetic. The code does not compare a b of a single value with A (C108_single_violated), and the result is always one point although the documentation promises the shape of b (C108_shape_violated)."
  },
  {
   "property": "C109",
   "status": "partial",
   "theorems": [
    "Nimble.Lookup.C109_resolve",
    "Nimble.Lookup.C109_unknown",
    "Nimble.Lookup.C109_available",
    "Nimble.Lookup.C109_names",
    "Nimble.Lookup.C109_names_once",
    "Nimble.Lookup.C109_names_resolve",
    "Nimble.Lookup.C109_names_of",
    "Nimble.Lookup.C109_class",
    "Nimble.Lookup.C109_dotted_alias_violated"
   ],
   "note": "Proved for every world of interfaces whose names do not overlap and every history of calls: resolution, refusals, growth of the available interfaces, learnerNames and its round trip, classes. Violated part: the aliases 'tensorflow.keras' and 'tf.keras' of keras are known to learnerNames(package), but 'tf.keras.X' as the name of a learner is always refused with InvalidArgumentValue, since it is split at the first dot (C109_dotted_alias_violated). Not modelled: the options set in the configuration when an interface becomes available, and the registration of the user's own learners."
  },
  {
   "property": "C110",
   "status": "partial",
   "theorems": [
    "Nimble.TableText.C110_table",
    "Nimble.TableText.C110_aligned",
    "Nimble.TableText.C110_refused",
    "Nimble.TableText.C110_limit_violated",
    "Nimble.TableText.C110_headers_violated",
    "Nimble.TableText.C110_snip"
   ],
   "note": "Proved for every table whose rows have the same number of cells, all headers, justifications and separators (C110_table, C110_aligned, C110_refused, C110_snip). Violated parts: with maxRowsToShow below the number of lines the call always fails with an IndexError, because the table is read at the index at which it was just cut (C110_limit_violated); the caller's list of headers is changed by the call, since it becomes the first row of the table after the copy was made (C110_headers_violated). Cells are texts already: rounding of floats and str are not modelled, nor the ValueError for unknown justifications."
  },
  {
   "property": "C111",
   "status": "proved",
   "theorems": [
    "Nimble.Residuals.C111_unique",
    "Nimble.Residuals.C111_residuals",
    "Nimble.Residuals.C111_refused",
    "Nimble.Residuals.C111_again"
   ],
   "note": "Proved over every linearly ordered field with exact arithmetic, for every routine which returns a minimiser of the squared errors of each column (contract LeastSquares, met by the example one): shape, names, the three defining facts of the residuals, and their uniqueness. Not modelled: rounding of floats, the conversion of types, and the checks that the arguments are objects and scipy is installed."
  }
 ]
}