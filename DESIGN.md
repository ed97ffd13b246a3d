# ONEX: formal model and proofs in Lean 4

The properties are in `properties.jsonl`; which theorem states which is in `MANIFEST.json`; the wrong programs the theorems
were tried on are in `seeded/LOG.jsonl`.

## Layout

* `lean/Verif/Model/*`: the model, function by function. Every definition cites the lines of `/repo` it follows.
* `lean/Verif/Spec/*`: small specifications the properties are stated with: warping paths, sliding windows, tables, partitions, ids in use, and so on. They do not use the helper functions of the model.
* `lean/Verif/Proofs/*`: lemmas.
* `lean/Verif/Props/*`: the property theorems (named `C01_...`), each with an `example` in which its hypotheses hold.

A name ending in `_partial` means: the property as worded does not hold of the code (or is not proved) in full; the docstring says
what is missing. A name ending in `_counterexample` is a proof that the property is false of the modelled code in the case it names.

## Trusted base

* Lean 4.33.0's kernel, and Mathlib as supplied.
* The axioms `propext`, `Classical.choice` and `Quot.sound`. No theorem depends on any other (`#print axioms` on each); there is no `sorry`,
  no added axiom, no `native_decide`, no `bv_decide`.
* The reading of the C++ recorded in the model. Nothing was compiled or run: the link between the model and the program is the citation in each comment.
* The modelling decisions and the list of what is left out, both below.

## Modelling decisions

* **Undefined behaviour is an outcome.** Computations return `Res`: `ok v`, `throw e` or `ub why`. Out-of-bounds access, access to freed memory,
  `x % 0`, conversion of an unrepresentable double to `int`, null dereference, use of an uninitialised index: all `ub`. `throw` keeps
  the kinds of exception apart that some caller distinguishes (`OnexException`, `invalid_argument`, `out_of_range`, `length_error`, `bad_alloc`).
* **State survives exceptions.** Operations on objects are `Eff σ β`: an outcome and the state afterwards, also after a `throw`.
* **`int`** is Lean's `Int`. In the main model overflow is considered only where a double is converted to `int` and where decimal text is read.
  `Model/Int32` has the same functions with every other `int` expression checked as well, and C62 says when the two agree. There, loop counters that stay below a
  checked bound are not checked again, and sizes of containers are taken to fit (`int` from `size_t`). Not covered: group files, the API, the command line. `Model/Ucr32` does the same for the UCR search (C67).
* **`data_t`** is the class `DataT`, the operations the code performs. Its instances are Lean's `Float` (no theorem uses it) and
  `F ρ`: NaN, the infinities and the reals, every arithmetic result rounded by `ρ`. A `Rounding` is any monotone, odd, idempotent function on ℝ.
  Round-to-nearest with unbounded exponent is one (`Rounding.double`, see C57), and so is the identity, `Rounding.exact`. "Exact arithmetic" below means
  `F Rounding.exact`; "every rounding" means all `F ρ`; "every number type" means any `DataT` whatsoever. Not modelled: signed zeros, overflow of finite results to infinity,
  the x87 excess precision.
* **Loops** are `forInt lo hi` and `forBrk lo hi` (with `break`). `while` loops carry fuel equal to their obvious measure, and are `ub "diverges"` if it runs out, so
  termination is part of every theorem that concludes `ok`.
* **Buffers** are lists with checked access. The buffer of a dataset carries a generation number, increased at every reallocation; a pointer made under an
  older generation is dangling, and reading through it is `ub`. A window is resolved when it is used, as a whole, not element by element.
* **Series objects** have two models: `Model/Series` (values and cached envelope, used by the distances) and `Model/SeriesObj` (a heap of blocks, owners
  and views, used for copying and destruction). `C16_models_agree` and `C13_models_agree` relate them.
* **Shared member map.** Groups of a length share one table of linked cells, as in the code.
* **Files** are character lists. Tokenising, line splitting, decimal integers and the stream's fail bit are concrete. How a `data_t` is printed and parsed is
  a parameter (`Env`, `NumIO`); a theorem that needs something of it says so (`Spec.IOok`: a printed number followed by a space is read back as `rt` of it). Opening a file succeeds or
  not according to a parameter; errors while reading or writing an open file are not modelled.
* **The clock** used by the grouping log is a Boolean per step, unconstrained.
* **`qsort`** in `calculate` is any permutation.

## What is modelled, file by file

| file | modelled | not modelled |
|---|---|---|
| `src/TimeSeries.{hpp,cpp}` | constructors, destructor, copy and move, assignment, `operator[]`, `+=`, envelopes and their cache, candidates' `operator<` | `printData`, `getIdentifierString`; `delete` of `new[]` memory is taken as releasing it |
| `src/TimeSeriesSet.{hpp,cpp}` | `loadData`, `saveData`, `normalize`, `PAA`, `getTimeSeries`, `clearData`, accessors | `f.bad()`, the single-precision `memset` |
| `src/distance/Distance.{hpp,cpp}` | `pairwiseDistance`, `warpedDistance`, `keoghLowerBound`, `crossKeoghLowerBound`, `kimLowerBound`, `cascadeDistance`, band size and ratio, lookup by name | `getAllDistanceName` |
| `src/Group.{hpp,cpp}`, `src/LocalLengthGroupSpace.*`, `src/GlobalGroupSpace.*`, `src/GroupableTimeSeriesSet.*` | everything that has an effect on state, including saving and loading groups | log text |
| `src/OnexAPI.{hpp,cpp}` | every member function | names printed; freeing memory leaked by a failed `loadDataset` |
| `src/lib/deque.*` | every function | `malloc` failure, `destroy` |
| `src/lib/trillionDTW.*` | all: `dtw`, `lower_upper_lemire`, the deque, the lower bounds and `calculate` (C11, C12, C49-C52, C67) | console output, `clock`, the arrangement `qsort` chooses (any permutation) |
| `cli/OnexCLI.cpp`, `cli/Command.hpp` | parsing of a line, every command's arguments and API call, the main loop with its exception handlers and the question at end of input | console output, readline, history, the timer's clock, memory exhaustion; the line from `readline` comes from `malloc` and is released with `delete` (cli/OnexCLI.cpp:539, 576), which C++ leaves undefined and the model ignores |

## Properties: what is modelled, how it is proved, what holds

### C01: Euclidean distance is the root mean square difference (proved)

`pairwiseDistance` with its break; loop invariant; Minkowski for the triangle inequality. Exact arithmetic; the length-mismatch exception for every number type.

Theorems: `C01_pairwise_is_rms`, `C01_pairwise_length_mismatch`

### C02: Early abandoning of the Euclidean distance is exact (proved)

`pairwiseDistance` with its break; loop invariant; Minkowski for the triangle inequality. Exact arithmetic. For every rounding only: the answer is INF or the distance without dropout (C02_pairwise_dropout_rounded); that nothing is lost is not proved there.

Theorems: `C02_pairwise_dropout`, `C02_pairwise_dropout_rounded`

### C03: The Euclidean distance is a metric (proved)

`pairwiseDistance` with its break; loop invariant; Minkowski for the triangle inequality. Metric laws in exact arithmetic; symmetry and zero on equal series for every rounding.

Theorems: `C03_pairwise_metric`, `C03_pairwise_rounded`

### C04: Warped distance is the optimum over warping paths in the band (proved)

`warpedDistance` with cost matrix, band and border loops; loop invariant to a recurrence, recurrence to the least path cost. Exact arithmetic, all positive lengths within the band.

Theorems: `C04_warped_is_optimum`

### C05: Warped distance is infinite exactly when no warping path fits the band (partial)

`warpedDistance` with cost matrix, band and border loops; loop invariant to a recurrence, recurrence to the least path cost. False when exactly one series has one point (counterexample theorem); proved otherwise. C05_exactly says exactly when the statement on infinity is true; C05_one_point gives the distance from a single point.

Theorems: `C05_warped_infinite_partial`, `C05_warped_infinite_counterexample`, `C05_one_point`, `C05_exactly`

### C06: Early abandoning of the warped distance is exact (partial)

`warpedDistance` with cost matrix, band and border loops; loop invariant to a recurrence, recurrence to the least path cost. False in the same corner as C05 (counterexample theorem); proved otherwise; never-a-wrong-finite-answer half for every rounding. C06_exactly says exactly when the statement is true; C06_one_point and C06_one_point_right say what the dropout does with a single point.

Theorems: `C06_warped_dropout_partial`, `C06_warped_dropout_rounded`, `C06_warped_dropout_counterexample`, `C06_one_point`, `C06_one_point_right`, `C06_exactly`

### C07: Warped distance is nonnegative, zero on identical series and symmetric (proved)

`warpedDistance` with cost matrix, band and border loops; loop invariant to a recurrence, recurrence to the least path cost. Every rounding.

Theorems: `C07_warped_laws`

### C08: Warping never increases the distance (proved)

`warpedDistance` with cost matrix, band and border loops; loop invariant to a recurrence, recurrence to the least path cost. Exact arithmetic.

Theorems: `C08_warped_le_pairwise`

### C09: The Keogh bound is a lower bound (proved)

`keoghLowerBound`, `crossKeoghLowerBound`, `cascadeDistance`; induction along a warping path with monotone rounding. Every monotone odd idempotent rounding, every dropout, all positive lengths.

Theorems: `C09_keogh_lower_bound`

### C10: Cascading lower bounds never lose an answer (proved)

`keoghLowerBound`, `crossKeoghLowerBound`, `cascadeDistance`; induction along a warping path with monotone rounding. Pruning half for every rounding; last sentence in exact arithmetic.

Theorems: `C10_cascade`, `C10_cascade_exact`

### C11: The Keogh envelope is the exact sliding maximum and minimum (proved)

`lower_upper_lemire` and its caller; invariant: the deque holds the indices of the window that no later element dominates. Reals, and any number type whose comparison is a linear order on the values. For any values at all (not-a-number included) it runs without undefined behaviour and outputs values of the window.

Theorems: `C11_envelope`, `C11_envelope_ordered`, `C11_envelope_any`, `C11_envelope_unique`

### C12: The circular deque behaves like a list (proved)

Refinement of the circular buffer to a list, all operation sequences. Refinement of a bounded list, all operation sequences.

Theorems: `C12_deque_refines_list`

### C13: A series always reports the envelope of its present values (partial)

Series object with cache; invariant over operation histories. False after a write through operator[] and after assignment to a series that has a cached envelope (counterexample theorems); proved for histories that avoid these on series with a cached envelope.

Theorems: `C13_envelope_current_partial`, `C13_envelope_current_real_partial`, `C13_stale_after_write_counterexample`, `C13_stale_after_assignment_counterexample`, `C13_models_agree`, `C13_series_envelope`

### C14: The warping band is always a usable size (proved)

`calculateWarpingBandSize`; arithmetic of floor. 

Theorems: `C14_band_size`, `C14_band_value`

### C15: The Kim bound is a lower bound (partial)

`kimLowerBound`; the rings it sums are met by every path at distinct cells. Counterexamples for the other lengths. Proved in exact arithmetic: a lower bound on every warping path exactly for the lengths with min 1, min 4, or min at least 3 and max at least 6, with or without a dropout. False of the code at all other lengths: min 2 throws, and overlapping rings overcount (both proved).

Theorems: `C15_dropout_partial`, `C15_lower_bound_partial`, `C15_short_counterexample`, `C15_overlap_counterexample`, `C15_exactly`

### C16: Element access is bounds checked (proved)

Direct from the definitions, on values and on the heap model. All states reachable by legal histories.

Theorems: `C16_element_access`, `C16_element_access_reachable`, `C16_value_access`, `C16_models_agree`

### C17: Sub-series extraction is bounds checked and exact (proved)

Direct from the definitions, on values and on the heap model. Throwing condition in every state; values for every dataset that is a table; reading in bounds on every reachable dataset.

Theorems: `C17_reachable_in_bounds`, `C17_throws_iff`, `C17_never_undefined`, `C17_window_values`, `C17_whole_row`, `C17_window_element`

### C18: Loading a rectangular file yields exactly its numbers (proved)

`loadData`, `saveData`, line splitting, tokeniser; loop invariants, round trip. Every number type and every parser; lines and tokens are specified by separate relations.

Theorems: `C18_load_rectangular`

### C19: A failed load leaves an empty dataset, a successful one a readable dataset (proved)

`loadData`, `saveData`, line splitting, tokeniser; loop invariants, round trip. Also: exact condition for success, and no undefined behaviour for start columns >= 0.

Theorems: `C19_failed_load_is_empty`, `C19_load_outcome`, `C19_successful_load_readable`, `C19_negative_start_column_undefined`

### C20: Normalisation maps the data onto [0,1] using the true minimum and maximum (partial)

`normalize`, pairwise scan included; loop invariants, parity cases. False for an odd item length and an even item count (counterexample theorems), except where the last values are not the extremes: C20_exactly says exactly when it is true, C20_odd_length and C20_single_column what happens otherwise. Proved for all other shapes in exact arithmetic, extremes also under every rounding.

Theorems: `C20_normalize_partial`, `C20_normalize_rounded_partial`, `C20_empty`, `C20_odd_length_counterexample`, `C20_single_column_counterexample`, `C20_odd_length`, `C20_single_column`, `C20_exactly`

### C21: Normalisation preserves order and is idempotent (proved)

`normalize`, pairwise scan included; loop invariants, parity cases. Exact arithmetic, on the shapes where C20 holds (as the property says); order never reversed under every rounding. Beyond these shapes: C21_idempotent_odd, and C21_order_exactly says when the order is kept.

Theorems: `C21_order_preserved`, `C21_order_not_reversed_rounded`, `C21_idempotent`, `C21_idempotent_odd`, `C21_order_exactly`

### C22: PAA replaces each block by its mean (proved)

`doPAA` and `PAA`; loop invariant to block means, algebra of sums. Means in exact arithmetic; block sums and quotients for every number type.

Theorems: `C22_paa_means`, `C22_paa_blocks`, `C22_bad_block_size`

### C23: PAA laws (proved)

`doPAA` and `PAA`; loop invariant to block means, algebra of sums. Exact arithmetic.

Theorems: `C23_paa_one`, `C23_paa_range`, `C23_paa_sum`, `C23_paa_compose`

### C24: Saving and reloading a dataset keeps its shape and its values up to the printed precision (proved)

`loadData`, `saveData`, line splitting, tokeniser; loop invariants, round trip. Every number type; the printed form and its reparse are parameters.

Theorems: `C24_save_load`, `C24_save_fails`

### C25: Grouping partitions the sub-series (proved)

`generateGroups`; invariant: the groups partition what has been placed. Every number type and every loaded dataset: for each length the members of the groups are a permutation of all subsequences of that length.

Theorems: `C25_partition`

### C26: Members are within half the threshold of their representative (proved)

`generateGroups`; invariant: the groups partition what has been placed. Exact arithmetic with the stated bound; for every rounding the computed distance is not above the computed half threshold.

Theorems: `C26_within_half_rounded`, `C26_within_half`

### C27: Members of one group are within the threshold of each other (proved)

`generateGroups`; invariant: the groups partition what has been placed. Exact arithmetic, the euclidean distance (the pairwise metric).

Theorems: `C27_members_close`

### C28: Representatives are separated (proved)

`generateGroups`; invariant: the groups partition what has been placed. Exact arithmetic: a group founded later is farther than st/2 from every earlier representative of its length.

Theorems: `C28_separated`

### C29: A group lists exactly the members that were added (proved)

Linked cells of the shared member map; representation invariant. Every interleaving of insertions of distinct coordinates into any number of groups; the whole list and its order; every number type.

Theorems: `C29_members_exact`

### C30: getBestGroup returns the nearest representative (proved)

Scan invariant with a moving dropout. Exact arithmetic; the pairwise, warped and cascade distances; caches in any consistent state. Not proved for other roundings.

Theorems: `C30_best_group`

### C31: A group's best match is its closest member (proved)

Scan invariant with a moving dropout. Exact arithmetic: the first member with the least warped distance; every rounding: the answer is a member and its reported distance is the one computed for it.

Theorems: `C31_group_best_match`, `C31_group_match_rounded`

### C32: The search visits exactly the lengths that can match (proved)

`generateTraverseOrder`; two-sided scan invariant, monotone band. Exact arithmetic: the order lists exactly the lengths with finite warped distance, each once, by distance from the query length; for every rounding: no length twice and every listed length fits.

Theorems: `C32_traverse_order`, `C32_nearest_first`, `C32_traverse_rounded`

### C33: A match is real (proved)

`GlobalGroupSpace::getBestMatch` and callers; composition of C10, C30, C31, C32. Every rounding; every state reached by a grouping and any number of earlier queries; also for the API call that takes a result id and a query id.

Theorems: `C33_api_match`, `C33_match_is_real`

### C34: Impossible match requests are rejected (partial)

`GlobalGroupSpace::getBestMatch` and callers; composition of C10, C30, C31, C32. Proved: ungrouped datasets and queries shorter than two points are rejected and change nothing. False of the code: queries longer than the series, and queries after a failed grouping, are undefined behaviour (both proved).

Theorems: `C34_rejected_partial`, `C34_long_query_counterexample`, `C34_unknown_distance_counterexample`

### C35: A match is at least as good as every visited representative (proved)

`GlobalGroupSpace::getBestMatch` and callers; composition of C10, C30, C31, C32. Exact arithmetic, every state reached by a grouping and any number of earlier queries. C35_nearest_group says which group answers and with which member.

Theorems: `C35_best_of_representatives`, `C35_nearest_group`

### C36: Grouping succeeds whatever the clock does (partial)

`GroupableTimeSeriesSet` as a state machine; invariants over histories. False of the code: a progress report that is due while fewer than five sub-series of a length are grouped divides by zero (C36_counterexample). C36_exactly: on finite data grouping completes if and only if this does not happen, and is undefined otherwise.

Theorems: `C36_exactly`, `C36_counterexample`, `C36_completes_partial`

### C37: Grouping is a function of the data and the threshold (proved)

`GroupableTimeSeriesSet` as a state machine; invariants over histories. Every number type: the result depends on the data, the distance and the threshold only, whatever was grouped or searched before.

Theorems: `C37_function_of_data`, `C37_regroup`

### C38: Saved groups reload to the same groups (proved)

`saveGroups`/`loadGroups` on text; round trip word by word. Every number type and formatting whose printed numbers read back; every state reached by grouping, querying and reloading; sizes within int range.

Theorems: `C38_reload`

### C39: A rejected group file or grouping request changes nothing (partial)

`GroupableTimeSeriesSet` as a state machine; invariants over histories. Proved: a load that throws leaves everything unchanged unless the file names an unknown distance or a length beyond the series; files of another version or shape are rejected unchanged; grouping an unloaded dataset changes nothing and no rejected grouping changes the data. False of the code: an unknown distance is noticed after the old groups are gone, in loading and in grouping (both proved).

Theorems: `C39_rejected_partial`, `C39_other_shape_partial`, `C39_counterexample`, `C39_grouping_partial`, `C39_grouping_counterexample`

### C40: Groups never outlive the data they describe (partial)

`GroupableTimeSeriesSet` as a state machine; invariants over histories. False as stated: PAA and reloading keep the old groups, whose centroids then point at freed memory (C40_paa_counterexample, C40_reload_counterexample, for every dataset and every answerable query), and after normalize a stale cached envelope can hide the best match (C40_normalize_counterexample). Proved for every number type: over every history without such a call (a PAA or normalize that is rejected does not count), all data held by groups is the current data and match/saveGroups never touch freed memory.

Theorems: `C40_current_partial`, `C40_match_partial`, `C40_paa_counterexample`, `C40_reload_counterexample`, `C40_normalize_counterexample`

### C41: Dataset ids behave like a map with least-free-id allocation (proved)

`OnexAPI` as a state machine; induction over histories. Every number type, every history of API calls: ids in use are counted exactly, a load takes the least free id, an unload frees just that id, and ids stay below the greatest number of datasets ever loaded at once (C41_ids_small).

Theorems: `C41_count`, `C41_load`, `C41_unload`, `C41_bound`, `C41_ids_small`

### C42: Every API call with an unknown id throws and changes nothing; a failed load changes nothing (proved)

`OnexAPI` as a state machine; induction over histories. Every number type and state: calls on an unknown id throw and change nothing; a failed load changes nothing.

Theorems: `C42_unknown_id`, `C42_failed_load`

### C43: Operations on one dataset do not affect the others (proved)

`OnexAPI` as a state machine; induction over histories. Every number type and state: a call changes only the dataset it names, and its outcome does not depend on datasets it does not name.

Theorems: `C43_others_unchanged`, `C43_no_influence`

### C44: getAllDatasetInfo lists exactly the loaded datasets in id order (proved)

`OnexAPI` as a state machine; induction over histories. Every number type and every history: the listing enumerates exactly the ids in use in increasing order; each entry is the info of its id and agrees field by field with the bound dataset.

Theorems: `C44_listing`

### C45: Candidate ordering is a strict weak order (partial)

`operator<`; order laws. Proved: irreflexive and asymmetric always; a strict weak order on candidates whose distances are equal or at least EPS apart. False of the code in general: three candidates closer than EPS break transitivity of equivalence (proved), and also when abs resolves to the int overload (proved). C45_exactly, under every rounding: a strict weak order if and only if being closer than EPS is transitive among the distances.

Theorems: `C45_asymmetric_partial`, `C45_separated_partial`, `C45_counterexample`, `C45_int_abs_counterexample`, `C45_exactly`

### C46: The command loop survives every erroneous command (partial)

`processLine`, commands, main loop; case analysis over commands. Proved for every line and session: lines that are no command or have non-numeric arguments change nothing; a line that fails leaves all data, ids and the timer unchanged; the session ends only on quit/exit or by paa on a dataset of negative length; undefined behaviour only from the library call or the five word match. False of the code: five word match reads out of bounds, and paa after loading past the last column ends the session (both proved).

Theorems: `C46_ends_partial`, `C46_error_intact_partial`, `C46_crash_partial`, `C46_usage`, `C46_non_numeric`, `C46_non_numeric_threshold`, `C46_match_counterexample`, `C46_paa_counterexample`

### C47: Copies of a series are safe (partial)

Heap model of series objects; ownership invariant over histories. False for self copy-assignment of an owner and for use of a moved-from series (counterexample theorems); proved for histories without them.

Theorems: `C47_memory_safe_partial`, `C47_self_assignment_counterexample`, `C47_moved_from_counterexample`, `C47_copy_values`, `C47_copy_assign_values`, `C47_move_assign_values`, `C47_owners_independent`

### C48: Adding series is pointwise and length checked (partial)

Direct from the definitions, on values and on the heap model. False when the loop reads what it wrote (counterexample theorem); proved otherwise. C48_overlap says what += computes then, C48_exactly exactly when the sum is right.

Theorems: `C48_overlap`, `C48_exactly`, `C48_add_length_mismatch`, `C48_add_pointwise_partial`, `C48_overlap_counterexample`

### C49: The rolling-array DTW equals banded DTW (partial)

`dtw` with two rolling rows; loop invariant to the recurrence of C04. Proved in exact arithmetic for least costs up to 1e20: the value without abandoning, and with valid cumulative bounds the search neither loses a better candidate nor accepts a worse one. False of the code beyond 1e20, its stand-in for infinity (proved).

Theorems: `C49_value_partial`, `C49_abandon_partial`, `C49_keeps_better`, `C49_decides`, `C49_rejects_worse`, `C49_huge_counterexample`

### C50: The UCR lower bounds never exceed the warped distance (partial)

`lb_kim_hierarchy` and the two Keogh bounds; every warping path visits each row (column), so the terms charge distinct cells. Exact arithmetic. The two envelope bounds are proved for every length, order and best value, with the cumulated array valid for dtw; the Kim bound for six values or more. False for five: C50_kim_five_counterexample (7.8125 for a cost of 6.25); C50_kim_exactly: false for every length from two to five.

Theorems: `C50_kim_exactly`, `C50_kim_partial`, `C50_kim_five_counterexample`, `C50_keogh`, `C50_keogh_data`

### C51: The UCR search finds the first nearest window (partial)

`calculate` whole: query reading, chunks, ring buffer, prunings; an invariant over the points read says the result is `FirstBest` of the windows completed. Exact arithmetic. Proved for 6 <= m <= 100000, r < m and a query that varies: first window of least cost among those that vary, with its cost. False otherwise: m = 5 returns the wrong window (C51_five_counterexample), r >= m is undefined (C51_wide_band_undefined), a constant query matches nothing (C51_constant_query).

Theorems: `C51_first_nearest_partial`, `C51_every_chunk_partial`, `C51_answer_unique`, `C51_scaled_copy_partial`, `C51_five_counterexample`, `C51_wide_band_undefined`, `C51_constant_query`

### C52: The UCR search result does not depend on chunking, sorting ties or old memory (partial)

The invariant of C51 with a recursive scan of the windows in place of `FirstBest`; the scan mentions neither chunks, order nor memory. False for a query file with fewer than m values: the result depends on old memory (C52_short_file_counterexample). Proved in exact arithmetic for m >= 3, r < m and a query file with m values or more; chunk sizes from m up to m + 999999. Not proved: other roundings, where the chunks may matter (the running sums start afresh), and the inputs C67 shows to be undefined.

Theorems: `C52_result_determined_partial`, `C52_short_file_counterexample`

### C53: Values that are not finite cause no undefined behaviour (partial)

The same definitions over any number type: the loops keep the shapes of the matrix, the caches and the member chains, whatever comparisons answer. The counterexamples: the last cell of the cost matrix stays not-a-number or infinite, so no representative is nearer than infinity. Proved for any number type: every distance is defined; grouping completes when infinity is above half the threshold (with the clock condition of C36). For any values and rounding: a match is answered with a window of the data, or dereferences a null pointer. False of the code: a query that ends in not-a-number always dereferences null; an infinite or not-a-number threshold with not-a-number data uses an index never set; not-a-number can be lost and the warped distance be 0.

Theorems: `C53_distances_defined`, `C53_grouping_completes_partial`, `C53_search_partial`, `C53_nan_query_counterexample`, `C53_nan_grouping_counterexample`, `C53_nan_lost_counterexample`

### C54: A search does not affect later ones (proved)

Two runs side by side, with a relation between their states: the same values, and every cached envelope equal to the one recomputed for its band. The envelope code is shown not to read what it did not write by running it on optional values. Any number type; band ratios that give no negative band. In the model a search that throws keeps no cache refreshed so far.

Theorems: `C54_answer_unaffected`

### C55: The answer is nearly the best possible (proved)

C25, C26 and C35, with a triangle inequality for the warped distance: a path visits a column at most 2r+1 times, so exchanging a series for another changes the cost by at most that many times their squared distance (Minkowski over the path). Exact arithmetic, real data. C55_not_exact_counterexample shows that a query in the data need not be answered with distance 0.

Theorems: `C55_near_best`, `C55_near_equal_length`, `C55_known_series`, `C55_not_exact_counterexample`

### C56: Groups moved through files answer as before (proved)

The invariant of C38 says what text a set is saved as; two sets of the same contents are related as in C54 (the same values, valid caches), so their searches agree step by step. For an odd number of moves, both searches are specified by C35. C56_same_distance in exact arithmetic; C56_moved_twice for any number type. C56_one_move_counterexample shows that one move can change the window.

Theorems: `C56_moved_twice`, `C56_same_distance`, `C56_one_move_counterexample`

### C57: Rounding changes the distances little (proved)

Forward error analysis by induction over the same recurrences as C01 and C04: each value is the exact one up to a number of factors between 1 - u and 1 + u; all costs are nonnegative, so nothing cancels after the first difference. `Rounding.double` is built from the binary logarithm and rounding to the nearest even integer, and shown to find a nearest number of 53 bits. No overflow or underflow; lengths are converted exactly. The band is the one computed (the product of ratio and length is itself rounded).

Theorems: `C57_double`, `C57_pairwise_accurate`, `C57_warped_accurate`, `C57_group_accurate`, `C57_match_accurate`

### C58: Searches under rounding are optimal up to the rounding errors (proved)

The search invariants of C35 with an early abandoning that may err by a factor: an abandoned distance, as computed to the end, is at least (1-u)^5 times the limit it was compared with (`NearHonest`), as partial sums only grow. Twice that for the two stages. Then C57 for the representative and the group, and the triangle inequality of C55. For the lengths visited, which include that of the query; C32_traverse_rounded does not show that every length that fits is visited. No overflow or underflow.

Theorems: `C58_best_of_representatives`, `C58_near_best`, `C58_double`

### C59: Grouping is leader clustering (proved)

The specification `Spec.Leader` is an inductive relation with one rule per case (found, join); it has exactly one result for every sequence (`C59_leader_unique`). The double loop of `generateGroups` keeps the invariant that the groups so far are a leader clustering of the sub-series seen so far, in order; `FirstBelow` of the scan over the groups gives nearest and earliest. Exact arithmetic; with rounding, early abandoning may make a computed nearest representative differ.

Theorems: `C59_leader`, `C59_leader_unique`

### C60: Which window a search answers with (proved)

`Spec.Answer` states the window by comparisons only, over all groups of all lengths at once; `C60_answer_unique` shows that at most one window meets it. The search invariant `SInv` of C35 was extended by the strict inequalities towards everything seen earlier; `traverse_near` (C32_nearest_first) gives the order of the lengths, for every number type. Lengths not visited are at infinite distance (C32). Exact arithmetic. C60_answer_unique: the conditions have only one solution.

Theorems: `C60_answer`, `C60_answer_unique`

### C61: Scale and offset of the data do not matter (partial)

Both specifications (`Leader` of C59, `Answer` of C60) only compare distances with each other or with the threshold, so scaling all of them by a positive factor changes nothing (`Leader.scale`, `Answer.scale`); the specified distances scale by |c| (`rms_affine`, `warped_affine`). Uniqueness of the two specifications does the rest: no second walk through the code. The sentence on normalising is false for an even number of series of odd length when all values but the last of each series are equal, this value is 0 before or after the change, and some last value differs; `C61_normalized_exactly` (from `C20_odd_length`) proves that it is true otherwise. Exact arithmetic. Groups and answers: proved in full. Normalising: proved on the shapes where C20 holds (C61_normalized_partial) and false in a corner of the others (C61_normalized_counterexample: two series of three values and an offset of 1); C61_normalized_exactly says exactly when it is true, for all shapes but an even number of series of one value, whose values become NaN either way (C61_normalized_single_column).

Theorems: `C61_same_groups`, `C61_same_answer`, `C61_normalized_partial`, `C61_normalized_exactly`, `C61_normalized_counterexample`, `C61_normalized_single_column`

### C62: Arithmetic on int stays within 32 bits (partial)

`Model/Int32` repeats the functions with a check `ck e` before every `int` expression `e` that could leave the 32-bit range, giving `ub "signed overflow"`; the theorems say the checked function equals the unchecked one. `SameInt P x32 x` (the two agree, and a result satisfies `P`) composes along `bind`, conditionals and loops. For the cases that do overflow: a run of the unchecked function up to the first bad report (`UpTo`), and C59 with a negative threshold to count the groups. False for large groupings: C62_progress_counterexample (21 million values and a progress report), C62_count_counterexample (2^31 groups). C62_group_partial says exactly when grouping overflows; everything else within the limit is proved not to (C62_load, C62_dataset, C62_distances, C62_match). The UCR search is covered by C67; group files, the API and the command line are not covered.

Theorems: `C62_bands`, `C62_distances`, `C62_load`, `C62_dataset`, `C62_group_partial`, `C62_match`, `C62_progress_counterexample`, `C62_count_counterexample`, `C62_envelope_counterexample`

### C63: Group files made elsewhere (partial)

`Spec/GroupDoc` describes a file without the model: a list of representatives and members per length, and its text. The loading lemmas behind C38 are split so that they need only this description (`ReadOk`), not groups that were made by the code; searching uses the lemmas behind C33 and C35, which never needed the representative to be a member. The counterexamples run the reader on files with one group of length 2 (`one_load`): a member added twice points to itself in the member table (`Looped`), so following the chain never ends. Files that fit are accepted (C63_accepted); they are searchable if every length has a group and every group a member (C63_searchable_partial, C63_nearest_partial), and not otherwise (C63_no_groups_counterexample, C63_no_members_counterexample). That other files are rejected is false: C63_twice_counterexample, C63_cut_counterexample, C63_header_counterexample, C63_outside_counterexample. Numbers are separated as the library separates them; other layouts are not covered.

Theorems: `C63_accepted`, `C63_searchable_partial`, `C63_nearest_partial`, `C63_twice_counterexample`, `C63_cut_counterexample`, `C63_header_counterexample`, `C63_outside_counterexample`, `C63_no_groups_counterexample`, `C63_no_members_counterexample`

### C64: Every command line makes the call it stands for, and nothing else (proved)

`Spec.Means` relates the words of a line to a call, one rule per usage in the help texts, with numbers by `ReadsInt` (C47); `Spec.Otherwise` says what remains. Forwards, each rule is run through the command (`means_run`); backwards, a command that gets as far as a call has words of one of the rules (`means_load` to `means_match`), so that a line without a call is `Quiet`. `C64_unambiguous` and `C64_otherwise_unambiguous` show that the two relations leave no choice. C64_session is for sessions without quit, exit, paa and the undefined match; each of these lines is covered by C64_call and C64_otherwise.

Theorems: `C64_call`, `C64_unambiguous`, `C64_otherwise`, `C64_otherwise_unambiguous`, `C64_session_any`, `C64_session`, `C64_end_of_input`

### C65: The library behaves like the one its user keeps on paper (proved)

`Spec/Library` is an abstract library: a state of tables and flags, and a relation `Lib.Step` with one rule for each kind of call, said with the relations of the other specifications (`FileHas`, `IsPaa`, `Leader`, `Answer`). A simulation (`LibSim`, `Holding` in `Proofs/Library`) relates it to the model: same ids, same ratio, and each dataset holds its table and, if grouped, comes from a grouping of that table with that threshold followed by any number of matches. Each rule is simulated by one call (`sim_step`), from C17 to C22, C34, C36, C41, C42, C44, C59 and C60; histories follow by induction. `step_exists` shows that every call in `Lib.Covers` has a rule. The CLI follows from C64. For exact arithmetic and the calls of Lib.Covers, as the property says; C65_session adds the command line.

Theorems: `C65_history`, `C65_answered`, `C65_determined`, `C65_session`

### C66: What memory series lose, and that every group loses some (proved)

`Spec.Leaked` is said of heap and objects alone; `overwrittenIn` walks a history and collects what the targets of move assignments owned. `step_moves` gives the effect of each of the ten operations on allocation and ownership, using the ownership invariant behind C47; `accounted_run` is the induction. For groups, `Model/CentroidHist` writes the life of the `centroid` members as such a history (constructor, assignment of a temporary, destruction), and `centroidLife_run` runs it for any list of groups. Envelope arrays are values in the model, not blocks (the destructor deletes them, and no assignment replaces the pointers), and objects of `new`, buffers of datasets and the vectors of the spaces are not covered. C66_move_counterexample shows that freedom from leaks, without the condition on moves, fails; C66_grouping and C66_loading say how much is lost.

Theorems: `C66_leaked`, `C66_all_released`, `C66_forever`, `C66_move_counterexample`, `C66_centroids`, `C66_grouping`, `C66_loading`

### C67: Where the UCR search is defined (proved)

`Model/Ucr32` is the search with its `int` products and sums checked. Definedness (`Proofs/UcrSafe`) follows the code function by function with sizes of arrays only, so it needs no arithmetic and holds for any `DataT`: each lemma says that a function applied to arrays of the right sizes is `ok` and gives arrays of the right sizes; `RoundOk` is the invariant of the chunks and counts the points consumed, which also shows that the loop ends. `Proofs/Ucr32` compares the two versions: where the checked one is `ok` the other agrees (`Ref`), and up to `INT_MAX` points they are equal. For one and two values (`calculate_short_ub`) the bound of Kim cannot stop early, because values normalised over at most two are small or not a number, so it goes on to read `q[2]`. The two runs with a short file are found by the kernel on rationals (`prepare_ran`) and continued by `search_spec`. C67_short_query is for exact arithmetic and a query file of at least m values; C67_short_query and C67_long_query are about ints without bounds (undefined there is undefined with bounds too). C67_short_file_counterexample has the answer that depends on old memory.

Theorems: `C67_exactly`, `C67_reports`, `C67_same`, `C67_long_query`, `C67_short_query`, `C67_short_file_counterexample`

### C68: How many groups grouping makes (proved)

The counts are those of the groups found in the state after grouping (`Spec.GroupCount`). `C68_total` and `C68_bounds` come from the partition of C25. The rest is about leader clustering, which C59 identifies with the grouping: leaders are farther apart than the radius (`leader_heads`), so two never lie in one part (`leader_packing`), and two leaders of a coarse clustering with one leader of a fine clustering near both would be too close by the triangle inequality (`leader_half`). Halving needs symmetry and the triangle inequality, so it is stated for the Euclidean distance. C68_monotone_counterexample shows that halving cannot be weakened to any larger threshold.

Theorems: `C68_total`, `C68_bounds`, `C68_packing`, `C68_halving`, `C68_negative`, `C68_zero`, `C68_coarse`, `C68_monotone_counterexample`

### C69: distanceBetween measures the distance it is asked for (partial)

`Dataset.distanceBetween` in `Model/Dataset`; the theorems put together C17 (which values a window has) with C01, C04 and C05 (what the two functions compute), so the result is stated with `rms` and `warpCosts` of the values of the file. `C69_never_undefined` follows the cases of the arguments and uses C53 for the distances. False when start and start + length are both negative: the whole series is compared instead of the request being rejected (C69_negative_counterexample). Otherwise proved: C69_euclidean, C69_euclidean_mismatch, C69_warped (infinite just if no path fits: for two points and more, as in C05), C69_rejected_partial. C69_never_undefined needs a series that is not empty and a band ratio for which the band is defined.

Theorems: `C69_euclidean`, `C69_euclidean_mismatch`, `C69_warped`, `C69_rejected_partial`, `C69_never_undefined`, `C69_negative_counterexample`

### C70: PAA of a single series (partial)

`Model/SeriesPaa`: the code repeats `doPAA` with the checked access of series. For positive block sizes no check fails, so each round that succeeds in `doPAA` succeeds here with the same values (`forInt_mono_ok`), and C22 applies. For negative ones only the last round writes (`tsPaa_neg`, by induction on the values still to come). Proved for n >= 1 and L >= 1: C70_means (exact arithmetic), C70_blocks and C70_same_as_dataset (every number type). False otherwise: n = 0 divides by zero (C70_zero_counterexample), a negative n of at least L without its sign is taken as one block of all values (C70_negative_counterexample, which also shows that the other negative ones throw), and an empty series with n >= 2 becomes a zero (C70_empty_counterexample).

Theorems: `C70_means`, `C70_blocks`, `C70_same_as_dataset`, `C70_zero_counterexample`, `C70_negative_counterexample`, `C70_empty_counterexample`

## Faults of the code found while modelling

Each is proved as a counterexample theorem unless marked "by reading".

* A warped distance between a one-point series and a longer one can be finite although the lengths differ by more than the band (C05, C06).
* `TimeSeries` keeps its cached envelope across `operator[]` writes and across assignment (C13); `normalize` leaves the representatives' cached envelopes
  as they were, and a later match can miss the best answer (C40).
* `kimLowerBound` throws when the shorter series has two points, and overcounts when the rings of points overlap (C15). It is not called by `cascadeDistance`.
* `normalize` mistakes the minimum or maximum when the item length is odd and the item count even (C20); there an offset can change which values it gives (C61).
* `+=` with overlapping operands adds already changed values (C48). Self copy-assignment of an owner reads freed memory; a moved-from series still has its length (C47).
* `PAA` and reloading keep the groups of the old data, whose representatives then point at freed memory (C40).
* A query longer than the series, or any query after a grouping with an unknown distance, is undefined behaviour (C34). An unknown distance is noticed only after the old groups are gone (C39).
* The progress log divides by zero when a report is due while a length has fewer than five sub-series (C36).
* `operator<` on candidates is not a strict weak order when distances differ by less than `EPS` (C45). By reading: the unqualified `abs` may be the one on `int`; the theorem covers that reading as well.
* `match` with five words reads an argument that is not there; `paa` on a dataset loaded with a start column past the last column ends the session (C46).
* `dtw` uses 1e20 for infinity, and is wrong beyond (C49).
* `lb_kim_hierarchy` charges cells twice when the query has fewer than six values; with five the search returns the wrong window (C50, C51).
* The UCR search with a band as wide as the query writes before the beginning of the envelope arrays (C51). A constant query matches nothing: location 0 and squared
  distance 1e20; windows that are constant are never matched.
* A query that ends in not-a-number (the loader accepts `nan`) makes every match dereference a null pointer; an infinite or not-a-number threshold makes grouping
  not-a-number data use an index that was never set; with a narrow band the warped distance can lose a not-a-number and be 0 (C53).
* By reading, in the UCR search: text that is not a number in the data file is never consumed, and `fscanf` returns 0, not `EOF`: the search does not end.
* In the UCR search a query of one or two values makes Kim's bound read outside the query; a query file with fewer than `m` values leaves part of `q` uninitialised, and the
  answer depends on it; `m` above 100001 overruns the chunk, and with `m = 100001` no window is looked at; more than 2147483647 points overflow an `int`; data shorter than the query
  report `m - 1` points scanned (C67).
* `distanceBetween` with a window that starts and ends before the first value compares the whole series instead of rejecting the request (C69).
* `tsPAA` divides by a block size of 0, accepts some negative block sizes, and makes a zero out of no values (C70); PAA of a dataset rejects all such block sizes.
* A larger threshold can give more groups (C68).
* Move assignment of a series loses the array the target owned; every group constructed loses one array this way (C66).
* By reading: `loadDataset` leaks the dataset when the failure is not an `OnexException`; `delete` is used on `new[]` memory and on `malloc`ed lines.

## Trying the theorems on wrong programs

`seeded/LOG.jsonl` has one line per edit of the model. A proof script that stops compiling says little: edits that change no behaviour (the controls
in the log) break scripts too. So the test is stronger: in a copy of the project in which the edited definition is in place, Lean must accept a proof of `False`
from the *statement* of the theorem, with the standard axioms only; and the same refutation must fail on the unedited copy. `theorems_failed`
lists the statements refuted this way. One refuted statement per edit suffices; a theorem not listed was not tried, or not refuted.

The method tells nothing about faults nobody thought of, and nothing about a misreading of the C++ shared by the model and the statement.
