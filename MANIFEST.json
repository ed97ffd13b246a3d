{"claims":[
{"property": "C01", "status": "proved", "theorems": ["Onex.C01_pairwise_is_rms", "Onex.C01_pairwise_length_mismatch"], "note": "Exact arithmetic; the length-mismatch exception for every number type."},
{"property": "C02", "status": "proved", "theorems": ["Onex.C02_pairwise_dropout", "Onex.C02_pairwise_dropout_rounded"], "note": "Exact arithmetic. For every rounding only: the answer is INF or the distance without dropout (C02_pairwise_dropout_rounded); that nothing is lost is not proved there."},
{"property": "C03", "status": "proved", "theorems": ["Onex.C03_pairwise_metric", "Onex.C03_pairwise_rounded"], "note": "Metric laws in exact arithmetic; symmetry and zero on equal series for every rounding."},
{"property": "C04", "status": "proved", "theorems": ["Onex.C04_warped_is_optimum"], "note": "Exact arithmetic, all positive lengths within the band."},
{"property": "C05", "status": "partial", "theorems": ["Onex.C05_warped_infinite_partial", "Onex.C05_warped_infinite_counterexample", "Onex.C05_one_point", "Onex.C05_exactly"], "note": "False when exactly one series has one point (counterexample theorem); proved otherwise. C05_exactly says exactly when the statement on infinity is true; C05_one_point gives the distance from a single point."},
{"property": "C06", "status": "partial", "theorems": ["Onex.C06_warped_dropout_partial", "Onex.C06_warped_dropout_rounded", "Onex.C06_warped_dropout_counterexample", "Onex.C06_one_point", "Onex.C06_one_point_right", "Onex.C06_exactly"], "note": "False in the same corner as C05 (counterexample theorem); proved otherwise; never-a-wrong-finite-answer half for every rounding. C06_exactly says exactly when the statement is true; C06_one_point and C06_one_point_right say what the dropout does with a single point."},
{"property": "C07", "status": "proved", "theorems": ["Onex.C07_warped_laws"], "note": "Every rounding."},
{"property": "C08", "status": "proved", "theorems": ["Onex.C08_warped_le_pairwise"], "note": "Exact arithmetic."},
{"property": "C09", "status": "proved", "theorems": ["Onex.C09_keogh_lower_bound"], "note": "Every monotone odd idempotent rounding, every dropout, all positive lengths."},
{"property": "C10", "status": "proved", "theorems": ["Onex.C10_cascade", "Onex.C10_cascade_exact"], "note": "Pruning half for every rounding; last sentence in exact arithmetic."},
{"property": "C11", "status": "proved", "theorems": ["Onex.C11_envelope", "Onex.C11_envelope_ordered", "Onex.C11_envelope_any", "Onex.C11_envelope_unique"], "note": "Reals, and any number type whose comparison is a linear order on the values. For any values at all (not-a-number included) it runs without undefined behaviour and outputs values of the window."},
{"property": "C12", "status": "proved", "theorems": ["Onex.C12_deque_refines_list"], "note": "Refinement of a bounded list, all operation sequences."},
{"property": "C13", "status": "partial", "theorems": ["Onex.C13_envelope_current_partial", "Onex.C13_envelope_current_real_partial", "Onex.C13_stale_after_write_counterexample", "Onex.C13_stale_after_assignment_counterexample", "Onex.C13_models_agree", "Onex.C13_series_envelope"], "note": "False after a write through operator[] and after assignment to a series that has a cached envelope (counterexample theorems); proved for histories that avoid these on series with a cached envelope."},
{"property": "C14", "status": "proved", "theorems": ["Onex.C14_band_size", "Onex.C14_band_value"], "note": ""},
{"property": "C15", "status": "partial", "theorems": ["Onex.C15_dropout_partial", "Onex.C15_lower_bound_partial", "Onex.C15_short_counterexample", "Onex.C15_overlap_counterexample", "Onex.C15_exactly"], "note": "Proved in exact arithmetic: a lower bound on every warping path exactly for the lengths with min 1, min 4, or min at least 3 and max at least 6, with or without a dropout. False of the code at all other lengths: min 2 throws, and overlapping rings overcount (both proved)."},
{"property": "C16", "status": "proved", "theorems": ["Onex.C16_element_access", "Onex.C16_element_access_reachable", "Onex.C16_value_access", "Onex.C16_models_agree"], "note": "All states reachable by legal histories."},
{"property": "C17", "status": "proved", "theorems": ["Onex.C17_reachable_in_bounds", "Onex.C17_throws_iff", "Onex.C17_never_undefined", "Onex.C17_window_values", "Onex.C17_whole_row", "Onex.C17_window_element"], "note": "Throwing condition in every state; values for every dataset that is a table; reading in bounds on every reachable dataset."},
{"property": "C18", "status": "proved", "theorems": ["Onex.C18_load_rectangular"], "note": "Every number type and every parser; lines and tokens are specified by separate relations."},
{"property": "C19", "status": "proved", "theorems": ["Onex.C19_failed_load_is_empty", "Onex.C19_load_outcome", "Onex.C19_successful_load_readable", "Onex.C19_negative_start_column_undefined"], "note": "Also: exact condition for success, and no undefined behaviour for start columns >= 0."},
{"property": "C20", "status": "partial", "theorems": ["Onex.C20_normalize_partial", "Onex.C20_normalize_rounded_partial", "Onex.C20_empty", "Onex.C20_odd_length_counterexample", "Onex.C20_single_column_counterexample", "Onex.C20_odd_length", "Onex.C20_single_column", "Onex.C20_exactly"], "note": "False for an odd item length and an even item count (counterexample theorems), except where the last values are not the extremes: C20_exactly says exactly when it is true, C20_odd_length and C20_single_column what happens otherwise. Proved for all other shapes in exact arithmetic, extremes also under every rounding."},
{"property": "C21", "status": "proved", "theorems": ["Onex.C21_order_preserved", "Onex.C21_order_not_reversed_rounded", "Onex.C21_idempotent", "Onex.C21_idempotent_odd", "Onex.C21_order_exactly"], "note": "Exact arithmetic, on the shapes where C20 holds (as the property says); order never reversed under every rounding. Beyond these shapes: C21_idempotent_odd, and C21_order_exactly says when the order is kept."},
{"property": "C22", "status": "proved", "theorems": ["Onex.C22_paa_means", "Onex.C22_paa_blocks", "Onex.C22_bad_block_size"], "note": "Means in exact arithmetic; block sums and quotients for every number type."},
{"property": "C23", "status": "proved", "theorems": ["Onex.C23_paa_one", "Onex.C23_paa_range", "Onex.C23_paa_sum", "Onex.C23_paa_compose"], "note": "Exact arithmetic."},
{"property": "C24", "status": "proved", "theorems": ["Onex.C24_save_load", "Onex.C24_save_fails"], "note": "Every number type; the printed form and its reparse are parameters."},
{"property": "C25", "status": "proved", "theorems": ["Onex.C25_partition"], "note": "Every number type and every loaded dataset: for each length the members of the groups are a permutation of all subsequences of that length."},
{"property": "C26", "status": "proved", "theorems": ["Onex.C26_within_half_rounded", "Onex.C26_within_half"], "note": "Exact arithmetic with the stated bound; for every rounding the computed distance is not above the computed half threshold."},
{"property": "C27", "status": "proved", "theorems": ["Onex.C27_members_close"], "note": "Exact arithmetic, the euclidean distance (the pairwise metric)."},
{"property": "C28", "status": "proved", "theorems": ["Onex.C28_separated"], "note": "Exact arithmetic: a group founded later is farther than st/2 from every earlier representative of its length."},
{"property": "C29", "status": "proved", "theorems": ["Onex.C29_members_exact"], "note": "Every interleaving of insertions of distinct coordinates into any number of groups; the whole list and its order; every number type."},
{"property": "C30", "status": "proved", "theorems": ["Onex.C30_best_group"], "note": "Exact arithmetic; the pairwise, warped and cascade distances; caches in any consistent state. Not proved for other roundings."},
{"property": "C31", "status": "proved", "theorems": ["Onex.C31_group_best_match", "Onex.C31_group_match_rounded"], "note": "Exact arithmetic: the first member with the least warped distance; every rounding: the answer is a member and its reported distance is the one computed for it."},
{"property": "C32", "status": "proved", "theorems": ["Onex.C32_traverse_order", "Onex.C32_nearest_first", "Onex.C32_traverse_rounded"], "note": "Exact arithmetic: the order lists exactly the lengths with finite warped distance, each once, by distance from the query length; for every rounding: no length twice and every listed length fits."},
{"property": "C33", "status": "proved", "theorems": ["Onex.C33_api_match", "Onex.C33_match_is_real"], "note": "Every rounding; every state reached by a grouping and any number of earlier queries; also for the API call that takes a result id and a query id."},
{"property": "C34", "status": "partial", "theorems": ["Onex.C34_rejected_partial", "Onex.C34_long_query_counterexample", "Onex.C34_unknown_distance_counterexample"], "note": "Proved: ungrouped datasets and queries shorter than two points are rejected and change nothing. False of the code: queries longer than the series, and queries after a failed grouping, are undefined behaviour (both proved)."},
{"property": "C35", "status": "proved", "theorems": ["Onex.C35_best_of_representatives", "Onex.C35_nearest_group"], "note": "Exact arithmetic, every state reached by a grouping and any number of earlier queries. C35_nearest_group says which group answers and with which member."},
{"property": "C36", "status": "partial", "theorems": ["Onex.C36_exactly", "Onex.C36_counterexample", "Onex.C36_completes_partial"], "note": "False of the code: a progress report that is due while fewer than five sub-series of a length are grouped divides by zero (C36_counterexample). C36_exactly: on finite data grouping completes if and only if this does not happen, and is undefined otherwise."},
{"property": "C37", "status": "proved", "theorems": ["Onex.C37_function_of_data", "Onex.C37_regroup"], "note": "Every number type: the result depends on the data, the distance and the threshold only, whatever was grouped or searched before."},
{"property": "C38", "status": "proved", "theorems": ["Onex.C38_reload"], "note": "Every number type and formatting whose printed numbers read back; every state reached by grouping, querying and reloading; sizes within int range."},
{"property": "C39", "status": "partial", "theorems": ["Onex.C39_rejected_partial", "Onex.C39_other_shape_partial", "Onex.C39_counterexample", "Onex.C39_grouping_partial", "Onex.C39_grouping_counterexample"], "note": "Proved: a load that throws leaves everything unchanged unless the file names an unknown distance or a length beyond the series; files of another version or shape are rejected unchanged; grouping an unloaded dataset changes nothing and no rejected grouping changes the data. False of the code: an unknown distance is noticed after the old groups are gone, in loading and in grouping (both proved)."},
{"property": "C40", "status": "partial", "theorems": ["Onex.C40_current_partial", "Onex.C40_match_partial", "Onex.C40_paa_counterexample", "Onex.C40_reload_counterexample", "Onex.C40_normalize_counterexample"], "note": "False as stated: PAA and reloading keep the old groups, whose centroids then point at freed memory (C40_paa_counterexample, C40_reload_counterexample, for every dataset and every answerable query), and after normalize a stale cached envelope can hide the best match (C40_normalize_counterexample). Proved for every number type: over every history without such a call (a PAA or normalize that is rejected does not count), all data held by groups is the current data and match/saveGroups never touch freed memory."},
{"property": "C41", "status": "proved", "theorems": ["Onex.C41_count", "Onex.C41_load", "Onex.C41_unload", "Onex.C41_bound", "Onex.C41_ids_small"], "note": "Every number type, every history of API calls: ids in use are counted exactly, a load takes the least free id, an unload frees just that id, and ids stay below the greatest number of datasets ever loaded at once (C41_ids_small)."},
{"property": "C42", "status": "proved", "theorems": ["Onex.C42_unknown_id", "Onex.C42_failed_load"], "note": "Every number type and state: calls on an unknown id throw and change nothing; a failed load changes nothing."},
{"property": "C43", "status": "proved", "theorems": ["Onex.C43_others_unchanged", "Onex.C43_no_influence"], "note": "Every number type and state: a call changes only the dataset it names, and its outcome does not depend on datasets it does not name."},
{"property": "C44", "status": "proved", "theorems": ["Onex.C44_listing"], "note": "Every number type and every history: the listing enumerates exactly the ids in use in increasing order; each entry is the info of its id and agrees field by field with the bound dataset."},
{"property": "C45", "status": "partial", "theorems": ["Spec.C45_asymmetric_partial", "Spec.C45_separated_partial", "Spec.C45_counterexample", "Spec.C45_int_abs_counterexample", "Spec.C45_exactly"], "note": "Proved: irreflexive and asymmetric always; a strict weak order on candidates whose distances are equal or at least EPS apart. False of the code in general: three candidates closer than EPS break transitivity of equivalence (proved), and also when abs resolves to the int overload (proved). C45_exactly, under every rounding: a strict weak order if and only if being closer than EPS is transitive among the distances."},
{"property": "C46", "status": "partial", "theorems": ["Onex.C46_ends_partial", "Onex.C46_error_intact_partial", "Onex.C46_crash_partial", "Onex.C46_usage", "Onex.C46_non_numeric", "Onex.C46_non_numeric_threshold", "Onex.C46_match_counterexample", "Onex.C46_paa_counterexample"], "note": "Proved for every line and session: lines that are no command or have non-numeric arguments change nothing; a line that fails leaves all data, ids and the timer unchanged; the session ends only on quit/exit or by paa on a dataset of negative length; undefined behaviour only from the library call or the five word match. False of the code: five word match reads out of bounds, and paa after loading past the last column ends the session (both proved)."},
{"property": "C47", "status": "partial", "theorems": ["Onex.C47_memory_safe_partial", "Onex.C47_self_assignment_counterexample", "Onex.C47_moved_from_counterexample", "Onex.C47_copy_values", "Onex.C47_copy_assign_values", "Onex.C47_move_assign_values", "Onex.C47_owners_independent"], "note": "False for self copy-assignment of an owner and for use of a moved-from series (counterexample theorems); proved for histories without them."},
{"property": "C48", "status": "partial", "theorems": ["Onex.C48_overlap", "Onex.C48_exactly", "Onex.C48_add_length_mismatch", "Onex.C48_add_pointwise_partial", "Onex.C48_overlap_counterexample"], "note": "False when the loop reads what it wrote (counterexample theorem); proved otherwise. C48_overlap says what += computes then, C48_exactly exactly when the sum is right."},
{"property": "C49", "status": "partial", "theorems": ["Onex.C49_value_partial", "Onex.C49_abandon_partial", "Onex.C49_keeps_better", "Onex.C49_decides", "Onex.C49_rejects_worse", "Onex.C49_huge_counterexample"], "note": "Proved in exact arithmetic for least costs up to 1e20: the value without abandoning, and with valid cumulative bounds the search neither loses a better candidate nor accepts a worse one. False of the code beyond 1e20, its stand-in for infinity (proved)."},
{"property": "C50", "status": "partial", "theorems": ["Onex.C50_kim_exactly", "Onex.C50_kim_partial", "Onex.C50_kim_five_counterexample", "Onex.C50_keogh", "Onex.C50_keogh_data"], "note": "Exact arithmetic. The two envelope bounds are proved for every length, order and best value, with the cumulated array valid for dtw; the Kim bound for six values or more. False for five: C50_kim_five_counterexample (7.8125 for a cost of 6.25); C50_kim_exactly: false for every length from two to five."},
{"property": "C51", "status": "partial", "theorems": ["Onex.C51_first_nearest_partial", "Onex.C51_every_chunk_partial", "Onex.C51_answer_unique", "Onex.C51_scaled_copy_partial", "Onex.C51_five_counterexample", "Onex.C51_wide_band_undefined", "Onex.C51_constant_query"], "note": "Exact arithmetic. Proved for 6 <= m <= 100000, r < m and a query that varies: first window of least cost among those that vary, with its cost. False otherwise: m = 5 returns the wrong window (C51_five_counterexample), r >= m is undefined (C51_wide_band_undefined), a constant query matches nothing (C51_constant_query)."},
{"property": "C52", "status": "partial", "theorems": ["Onex.C52_result_determined_partial", "Onex.C52_short_file_counterexample"], "note": "False for a query file with fewer than m values: the result depends on old memory (C52_short_file_counterexample). Proved in exact arithmetic for m >= 3, r < m and a query file with m values or more; chunk sizes from m up to m + 999999. Not proved: other roundings, where the chunks may matter (the running sums start afresh), and the inputs C67 shows to be undefined."},
{"property": "C53", "status": "partial", "theorems": ["Onex.C53_distances_defined", "Onex.C53_grouping_completes_partial", "Onex.C53_search_partial", "Onex.C53_nan_query_counterexample", "Onex.C53_nan_grouping_counterexample", "Onex.C53_nan_lost_counterexample"], "note": "Proved for any number type: every distance is defined; grouping completes when infinity is above half the threshold (with the clock condition of C36). For any values and rounding: a match is answered with a window of the data, or dereferences a null pointer. False of the code: a query that ends in not-a-number always dereferences null; an infinite or not-a-number threshold with not-a-number data uses an index never set; not-a-number can be lost and the warped distance be 0."},
{"property": "C54", "status": "proved", "theorems": ["Onex.C54_answer_unaffected"], "note": "Any number type; band ratios that give no negative band. In the model a search that throws keeps no cache refreshed so far."},
{"property": "C55", "status": "proved", "theorems": ["Onex.C55_near_best", "Onex.C55_near_equal_length", "Onex.C55_known_series", "Onex.C55_not_exact_counterexample"], "note": "Exact arithmetic, real data. C55_not_exact_counterexample shows that a query in the data need not be answered with distance 0."},
{"property": "C56", "status": "proved", "theorems": ["Onex.C56_moved_twice", "Onex.C56_same_distance", "Three.C56_one_move_counterexample"], "note": "C56_same_distance in exact arithmetic; C56_moved_twice for any number type. C56_one_move_counterexample shows that one move can change the window."},
{"property": "C57", "status": "proved", "theorems": ["Onex.C57_double", "Onex.C57_pairwise_accurate", "Onex.C57_warped_accurate", "Onex.C57_group_accurate", "Onex.C57_match_accurate"], "note": "No overflow or underflow; lengths are converted exactly. The band is the one computed (the product of ratio and length is itself rounded)."},
{"property": "C58", "status": "proved", "theorems": ["Onex.C58_best_of_representatives", "Onex.C58_near_best", "Onex.C58_double"], "note": "For the lengths visited, which include that of the query; C32_traverse_rounded does not show that every length that fits is visited. No overflow or underflow."},
{"property": "C59", "status": "proved", "theorems": ["Onex.C59_leader", "Onex.C59_leader_unique"], "note": "Exact arithmetic; with rounding, early abandoning may make a computed nearest representative differ."},
{"property": "C60", "status": "proved", "theorems": ["Onex.C60_answer", "Onex.C60_answer_unique"], "note": "Exact arithmetic. C60_answer_unique: the conditions have only one solution."},
{"property": "C61", "status": "partial", "theorems": ["Onex.C61_same_groups", "Onex.C61_same_answer", "Onex.C61_normalized_partial", "Onex.C61_normalized_exactly", "Onex.C61_normalized_counterexample", "Onex.C61_normalized_single_column"], "note": "Exact arithmetic. Groups and answers: proved in full. Normalising: proved on the shapes where C20 holds (C61_normalized_partial) and false in a corner of the others (C61_normalized_counterexample: two series of three values and an offset of 1); C61_normalized_exactly says exactly when it is true, for all shapes but an even number of series of one value, whose values become NaN either way (C61_normalized_single_column)."},
{"property": "C62", "status": "partial", "theorems": ["Onex.C62_bands", "Onex.C62_distances", "Onex.C62_load", "Onex.C62_dataset", "Onex.C62_group_partial", "Onex.C62_match", "Onex.C62_progress_counterexample", "Onex.C62_count_counterexample", "Onex.C62_envelope_counterexample"], "note": "False for large groupings: C62_progress_counterexample (21 million values and a progress report), C62_count_counterexample (2^31 groups). C62_group_partial says exactly when grouping overflows; everything else within the limit is proved not to (C62_load, C62_dataset, C62_distances, C62_match). The UCR search is covered by C67; group files, the API and the command line are not covered."},
{"property": "C63", "status": "partial", "theorems": ["Onex.C63_accepted", "Onex.C63_searchable_partial", "Onex.C63_nearest_partial", "Onex.C63_twice_counterexample", "Onex.C63_cut_counterexample", "Onex.C63_header_counterexample", "Onex.C63_outside_counterexample", "Onex.C63_no_groups_counterexample", "Onex.C63_no_members_counterexample"], "note": "Files that fit are accepted (C63_accepted); they are searchable if every length has a group and every group a member (C63_searchable_partial, C63_nearest_partial), and not otherwise (C63_no_groups_counterexample, C63_no_members_counterexample). That other files are rejected is false: C63_twice_counterexample, C63_cut_counterexample, C63_header_counterexample, C63_outside_counterexample. Numbers are separated as the library separates them; other layouts are not covered."},
{"property": "C64", "status": "proved", "theorems": ["Onex.C64_call", "Onex.C64_unambiguous", "Onex.C64_otherwise", "Onex.C64_otherwise_unambiguous", "Onex.C64_session_any", "Onex.C64_session", "Onex.C64_end_of_input"], "note": "C64_session is for sessions without quit, exit, paa and the undefined match; each of these lines is covered by C64_call and C64_otherwise."},
{"property": "C65", "status": "proved", "theorems": ["Onex.C65_history", "Onex.C65_answered", "Onex.C65_determined", "Onex.C65_session"], "note": "For exact arithmetic and the calls of Lib.Covers, as the property says; C65_session adds the command line."},
{"property": "C66", "status": "proved", "theorems": ["Onex.C66_leaked", "Onex.C66_all_released", "Onex.C66_forever", "Onex.C66_move_counterexample", "Onex.C66_centroids", "Onex.C66_grouping", "Onex.C66_loading"], "note": "C66_move_counterexample shows that freedom from leaks, without the condition on moves, fails; C66_grouping and C66_loading say how much is lost."},
{"property": "C67", "status": "proved", "theorems": ["Onex.C67_exactly", "Onex.C67_reports", "Onex.C67_same", "Onex.C67_long_query", "Onex.C67_short_query", "Onex.C67_short_file_counterexample"], "note": "C67_short_query is for exact arithmetic and a query file of at least m values; C67_short_query and C67_long_query are about ints without bounds (undefined there is undefined with bounds too). C67_short_file_counterexample has the answer that depends on old memory."},
{"property": "C68", "status": "proved", "theorems": ["Onex.C68_total", "Onex.C68_bounds", "Onex.C68_packing", "Onex.C68_halving", "Onex.C68_negative", "Onex.C68_zero", "Onex.C68_coarse", "Onex.C68_monotone_counterexample"], "note": "C68_monotone_counterexample shows that halving cannot be weakened to any larger threshold."},
{"property": "C69", "status": "partial", "theorems": ["Onex.C69_euclidean", "Onex.C69_euclidean_mismatch", "Onex.C69_warped", "Onex.C69_rejected_partial", "Onex.C69_never_undefined", "Onex.C69_negative_counterexample"], "note": "False when start and start + length are both negative: the whole series is compared instead of the request being rejected (C69_negative_counterexample). Otherwise proved: C69_euclidean, C69_euclidean_mismatch, C69_warped (infinite just if no path fits: for two points and more, as in C05), C69_rejected_partial. C69_never_undefined needs a series that is not empty and a band ratio for which the band is defined."},
{"property": "C70", "status": "partial", "theorems": ["Onex.C70_means", "Onex.C70_blocks", "Onex.C70_same_as_dataset", "Onex.C70_zero_counterexample", "Onex.C70_negative_counterexample", "Onex.C70_empty_counterexample"], "note": "Proved for n >= 1 and L >= 1: C70_means (exact arithmetic), C70_blocks and C70_same_as_dataset (every number type). False otherwise: n = 0 divides by zero (C70_zero_counterexample), a negative n of at least L without its sign is taken as one block of all values (C70_negative_counterexample, which also shows that the other negative ones throw), and an empty series with n >= 2 becomes a zero (C70_empty_counterexample)."}
]}
