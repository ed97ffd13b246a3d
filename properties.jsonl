{"id": "C01", "title": "Euclidean distance is the root mean square difference", "statement": "For two series of the same length n>=1, pairwiseDistance(x,y,INF) (the distance called 'euclidean') returns sqrt((sum_i (x_i-y_i)^2)/n); for two series of different lengths it throws OnexException whatever the dropout.", "quantifier": "all pairs of finite-valued series of every length, all dropouts for the error case", "why_tests_cant": "unbounded lengths and real values; the tests compare one pair (and with a vacuous assertion)", "anchors": ["src/distance/Distance.cpp:pairwiseDistance", "src/distance/Distance.cpp:_euc", "src/distance/Distance.cpp:_euc_norm"]}
{"id": "C02", "title": "Early abandoning of the Euclidean distance is exact", "statement": "pairwiseDistance(x,y,d) with d>=0 returns the true distance D whenever D<=d and returns INF whenever D>d: an answer that could still beat the best-so-far is never lost and an abandoned answer is never reported as finite.", "quantifier": "all equal-length series and all nonnegative dropouts, including infinity", "why_tests_cant": "the abandon test fires at data dependent positions; every prefix and every threshold matter", "anchors": ["src/distance/Distance.cpp:pairwiseDistance", "src/distance/Distance.cpp:_euc_inorm"]}
{"id": "C03", "title": "The Euclidean distance is a metric", "statement": "On series of a fixed length n>=1 the distance is nonnegative, zero exactly for equal series, symmetric, and satisfies the triangle inequality.", "quantifier": "all triples of finite-valued series of every common length", "why_tests_cant": "triangle inequality quantifies over all triples of vectors of all dimensions", "anchors": ["src/distance/Distance.cpp:pairwiseDistance"]}
{"id": "C04", "title": "Warped distance is the optimum over warping paths in the band", "statement": "For series a (length m>=2) and b (length n>=2) with band r, warpedDistance(a,b,INF) equals sqrt(T)/(2*max(m,n)) where T is the least total squared difference over all warping paths from (0,0) to (m-1,n-1) that stay within the Sakoe-Chiba band |i-j|<=r.", "quantifier": "all finite-valued series of all lengths >=2 and every band size", "why_tests_cant": "exponentially many warping paths for each of infinitely many inputs", "anchors": ["src/distance/Distance.cpp:warpedDistance", "src/distance/Distance.cpp:_euc_norm_dtw", "src/distance/Distance.cpp:calculateWarpingBandSize"]}
{"id": "C05", "title": "Warped distance is infinite exactly when no warping path fits the band", "statement": "warpedDistance(a,b,INF) is INF if and only if the difference of lengths exceeds the band size, and never reads outside its cost matrix.", "quantifier": "all lengths and band sizes (including ratio 0 and ratio above 1)", "why_tests_cant": "depends on the relation of three unbounded integers; boundary rows and columns use different loops", "anchors": ["src/distance/Distance.cpp:warpedDistance"]}
{"id": "C06", "title": "Early abandoning of the warped distance is exact", "statement": "For every dropout d>=0, warpedDistance(a,b,d) is either the true banded distance D=warpedDistance(a,b,INF), or INF; and it is D whenever D<=d.", "quantifier": "all finite-valued series, all dropouts, every band", "why_tests_cant": "row minima are compared to the bound at every row; needs monotonicity of the whole cost matrix", "anchors": ["src/distance/Distance.cpp:warpedDistance", "src/distance/Distance.cpp:_euc_inorm_dtw"]}
{"id": "C07", "title": "Warped distance is nonnegative, zero on identical series and symmetric", "statement": "For finite-valued series, warpedDistance(a,b,INF)>=0, warpedDistance(a,a,INF)=0 and warpedDistance(a,b,INF)=warpedDistance(b,a,INF).", "quantifier": "all finite-valued series of all lengths and all bands", "why_tests_cant": "symmetry relates two different executions over unbounded matrices", "anchors": ["src/distance/Distance.cpp:warpedDistance"]}
{"id": "C08", "title": "Warping never increases the distance", "statement": "For two series of the same length, warpedDistance(a,b,INF) <= pairwiseDistance(a,b,INF).", "quantifier": "all equal-length pairs and all band sizes >=0", "why_tests_cant": "unbounded inputs", "anchors": ["src/distance/Distance.cpp:warpedDistance", "src/distance/Distance.cpp:pairwiseDistance"]}
{"id": "C09", "title": "The Keogh bound is a lower bound", "statement": "keoghLowerBound(a,b,d) <= warpedDistance(a,b,INF) for every dropout d, also when additions, subtractions, squares, roots and divisions are rounded by any monotone, odd rounding that keeps zero (as IEEE round-to-nearest without overflow does).", "quantifier": "all finite-valued series of all lengths >=1, all bands, all dropouts, all such roundings", "why_tests_cant": "a violation needs a particular alignment of series; rounding makes sampled tests inconclusive", "anchors": ["src/distance/Distance.cpp:keoghLowerBound", "src/TimeSeries.cpp:generateKeoghLU", "src/lib/trillionDTW.cpp:lower_upper_lemire"]}
{"id": "C10", "title": "Cascading lower bounds never lose an answer", "statement": "cascadeDistance(a,b,d) returns either INF or exactly what warpedDistance(a,b,d) returns; if it prunes (INF by a lower bound) then warpedDistance(a,b,INF)>d. Hence whenever the true banded distance D<=d, cascadeDistance returns D.", "quantifier": "all finite-valued series, all dropouts, all bands; the pruning half under every monotone rounding", "why_tests_cant": "pruning correctness is a for-all statement over inputs and thresholds", "anchors": ["src/distance/Distance.cpp:cascadeDistance", "src/distance/Distance.cpp:crossKeoghLowerBound"]}
{"id": "C11", "title": "The Keogh envelope is the exact sliding maximum and minimum", "statement": "For a series of length n>=1 and band w>=0, getKeoghUpper(w)[i] (getKeoghLower(w)[i]) is the maximum (minimum) of the series over positions max(0,i-w)..min(n-1,i+w), for every i<n, and computing it never reads or writes outside any buffer and terminates.", "quantifier": "all lengths, all bands, all values from a linear order (ties included)", "why_tests_cant": "amortised deque algorithm with an asymmetric 'else if' eviction: correctness depends on value order and ties at every position", "anchors": ["src/TimeSeries.cpp:getKeoghUpper", "src/TimeSeries.cpp:generateKeoghLU", "src/lib/trillionDTW.cpp:lower_upper_lemire"]}
{"id": "C12", "title": "The circular deque behaves like a list", "statement": "Any sequence of push_back, pop_front, pop_back, front, back and empty on a deque of capacity c, in which pops and peeks happen only on non-empty contents and the contents never exceed c, returns the same values as the same operations on a double-ended list.", "quantifier": "all capacities and all operation sequences", "why_tests_cant": "wrap-around positions depend on the whole operation history", "anchors": ["src/lib/deque.cpp:deque"]}
{"id": "C13", "title": "A series always reports the envelope of its present values", "statement": "After any history of envelope requests with any bands, additions (+=), element writes and assignments, getKeoghUpper/getKeoghLower return the envelope of the values the series has now for the requested band.", "quantifier": "all histories of operations on a series", "why_tests_cant": "the envelope is cached; staleness needs a particular history", "anchors": ["src/TimeSeries.cpp:getKeoghLower", "src/TimeSeries.cpp:getKeoghUpper", "src/TimeSeries.cpp:operator+=", "src/TimeSeries.cpp:operator="]}
{"id": "C14", "title": "The warping band is always a usable size", "statement": "For ratio>=0 and length n>=1 (with n*ratio below 2^31), calculateWarpingBandSize(n) lies in 0..n-1, is non-decreasing in the length and in the ratio, is 0 at ratio 0 and n-1 at ratio>=1.", "quantifier": "all lengths and all ratios", "why_tests_cant": "floating ratio and unbounded lengths", "anchors": ["src/distance/Distance.cpp:calculateWarpingBandSize", "src/distance/Distance.cpp:setWarpingBandRatio"]}
{"id": "C15", "title": "The Kim bound is a lower bound", "statement": "kimLowerBound(a,b,INF) never exceeds the total squared difference of any warping path between a and b, and never fails on series of length >=1.", "quantifier": "all finite-valued series of all lengths", "why_tests_cant": "needs a double counted cell on an optimal path; also length dependent exceptions", "anchors": ["src/distance/Distance.cpp:kimLowerBound"]}
{"id": "C16", "title": "Element access is bounds checked", "statement": "ts[i] throws OnexException exactly when i<0 or i>=length, and otherwise is the i-th value of the view, i.e. the value at start+i of the underlying row.", "quantifier": "all series views and all integer indices", "why_tests_cant": "unbounded index domain", "anchors": ["src/TimeSeries.cpp:operator[]"]}
{"id": "C17", "title": "Sub-series extraction is bounds checked and exact", "statement": "getTimeSeries(index,start,end) throws exactly when index is outside 0..count-1, or (start,end) are not both negative and not 0<=start<end<=length; otherwise it denotes values start..end-1 of row index (the whole row when both are negative) and can be read without leaving the buffer.", "quantifier": "all datasets and all integer triples", "why_tests_cant": "three unbounded integers and row-major address arithmetic", "anchors": ["src/TimeSeriesSet.cpp:getTimeSeries"]}
{"id": "C18", "title": "Loading a rectangular file yields exactly its numbers", "statement": "If the first k lines (k = all lines when maxNumRow<=0, else min(maxNumRow, number of lines), k>=1) all split into the same number c of tokens, all tokens in columns >= startCol parse, and 0<=startCol<=c, then loadData succeeds with itemCount=k, itemLength=c-startCol and element (i,j) equal to the parsed token (i,startCol+j); lines after k never matter.", "quantifier": "all file contents, separators, row limits and start columns", "why_tests_cant": "unbounded file contents; layout arithmetic mixes total and kept columns", "anchors": ["src/TimeSeriesSet.cpp:loadData", "src/TimeSeriesSet.cpp:countNumberOfLines"]}
{"id": "C19", "title": "A failed load leaves an empty dataset, a successful one a readable dataset", "statement": "If loadData throws (missing file, ragged rows, unparsable or out-of-range token) then afterwards the set has no data, item count 0 and item length 0, whatever it contained before.", "quantifier": "all prior states and all file contents, every failing position", "why_tests_cant": "failure may occur at any row and column", "anchors": ["src/TimeSeriesSet.cpp:loadData", "src/TimeSeriesSet.cpp:clearData"]}
{"id": "C20", "title": "Normalisation maps the data onto [0,1] using the true minimum and maximum", "statement": "For a non-empty dataset, normalize() returns (min,max) over all values and replaces every value v by (v-min)/(max-min) (by 0 when max=min), so that all values lie in [0,1]; on an empty dataset it throws and changes nothing.", "quantifier": "all dataset shapes and all finite values", "why_tests_cant": "the scan treats pairs of elements with a parity case split; correctness depends on the shape", "anchors": ["src/TimeSeriesSet.cpp:normalize"]}
{"id": "C21", "title": "Normalisation preserves order and is idempotent", "statement": "normalize() never changes the relative order of two values, and a second normalize() changes no value and returns (0,1) (or (0,0) for constant data).", "quantifier": "all datasets on which C20 holds", "why_tests_cant": "relates two successive executions over unbounded data", "anchors": ["src/TimeSeriesSet.cpp:normalize"]}
{"id": "C22", "title": "PAA replaces each block by its mean", "statement": "PAA(n) with n>=1 on a dataset of item length L>=1 keeps the item count, sets item length to ceil(L/n), and value j of each row becomes the mean of the old values j*n .. min((j+1)*n,L)-1 of that row; n<=0 throws and changes nothing.", "quantifier": "all datasets and all block sizes", "why_tests_cant": "unbounded shapes, partial last block", "anchors": ["src/TimeSeriesSet.cpp:PAA", "src/TimeSeriesSet.cpp:doPAA", "src/TimeSeriesSet.cpp:calcPAALength"]}
{"id": "C23", "title": "PAA laws", "statement": "PAA(1) is the identity; PAA never leaves the range of the data; the sum of a row is n times the sum of its PAA when n divides the length; PAA(n) followed by PAA(k) equals PAA(n*k) when n divides the item length.", "quantifier": "all datasets and block sizes", "why_tests_cant": "algebraic laws over unbounded data", "anchors": ["src/TimeSeriesSet.cpp:PAA"]}
{"id": "C24", "title": "Saving and reloading a dataset keeps its shape and its values up to the printed precision", "statement": "If saveData succeeds on a dataset with positive item length and item count, loadData of that file with the same separator, no row limit and start column 0 succeeds with the same shape and every value equal to the reparse of its own printed form.", "quantifier": "all datasets, all separators that do not occur in printed numbers", "why_tests_cant": "unbounded data; separator/line interaction", "anchors": ["src/TimeSeriesSet.cpp:saveData", "src/TimeSeriesSet.cpp:loadData"]}
{"id": "C25", "title": "Grouping partitions the sub-series", "statement": "After grouping at length l, every sub-series (index,start) of length l of the dataset is a member of exactly one group, and groups contain nothing else.", "quantifier": "all datasets, lengths, thresholds and distances", "why_tests_cant": "combinatorially many assignments; membership is stored in shared linked lists", "anchors": ["src/LocalLengthGroupSpace.cpp:generateGroups", "src/Group.cpp:addMember", "src/Group.cpp:getMembers"]}
{"id": "C26", "title": "Members are within half the threshold of their representative", "statement": "After grouping with 'euclidean' and threshold st>=0, every member of every group is at distance <= st/2 from the group's representative.", "quantifier": "all finite datasets, lengths and finite thresholds", "why_tests_cant": "depends on every assignment made during the whole run, with early abandoning active", "anchors": ["src/LocalLengthGroupSpace.cpp:generateGroups", "src/Group.cpp:distanceFromCentroid"]}
{"id": "C27", "title": "Members of one group are within the threshold of each other", "statement": "After grouping with 'euclidean' and threshold st>=0, any two members of the same group are at Euclidean distance <= st.", "quantifier": "all finite datasets, lengths, finite thresholds, all pairs of members", "why_tests_cant": "quadratically many pairs, needs the triangle inequality", "anchors": ["src/LocalLengthGroupSpace.cpp:generateGroups"]}
{"id": "C28", "title": "Representatives are separated", "statement": "After grouping with 'euclidean' and threshold st>=0, the representatives of two different groups of the same length are at distance > st/2.", "quantifier": "all finite datasets, lengths, finite thresholds, all pairs of groups", "why_tests_cant": "invariant over the whole run", "anchors": ["src/LocalLengthGroupSpace.cpp:generateGroups"]}
{"id": "C29", "title": "A group lists exactly the members that were added", "statement": "After any interleaving of addMember calls on groups sharing a member map (distinct coordinates), getMembers of each group terminates and returns precisely its members, each once, most recent first, and getCount is their number.", "quantifier": "all interleavings of additions to any number of groups", "why_tests_cant": "groups share one backing array of links; aliasing bugs depend on the history", "anchors": ["src/Group.cpp:addMember", "src/Group.cpp:getMembers"]}
{"id": "C30", "title": "getBestGroup returns the nearest representative", "statement": "getBestGroup(query,distance,dropout) returns the first group with the least representative distance among those strictly below dropout, with that distance, or no group and dropout if there is none.", "quantifier": "all group lists, queries and dropouts", "why_tests_cant": "search with a moving dropout over unbounded lists", "anchors": ["src/LocalLengthGroupSpace.cpp:getBestGroup"]}
{"id": "C31", "title": "A group's best match is its closest member", "statement": "Group::getBestMatch(query,distance) returns a member of the group whose distance to the query is least among all its members (the first such in the list), together with that distance.", "quantifier": "all groups with at least one member at finite distance, all queries", "why_tests_cant": "search with a moving dropout over a linked list", "anchors": ["src/Group.cpp:getBestMatch"]}
{"id": "C32", "title": "The search visits exactly the lengths that can match", "statement": "generateTraverseOrder(q,N) for 2<=q<=N terminates and lists, without repetition and starting with q, exactly the lengths L in 2..N for which a series of length L can have finite warped distance to a series of length q, those nearest to q first and the shorter of two equally near first.", "quantifier": "all q, N and band ratios", "why_tests_cant": "stops at the first failing length on each side; completeness needs monotonicity of the band condition", "anchors": ["src/GlobalGroupSpace.cpp:generateTraverseOrder"]}
{"id": "C33", "title": "A match is real", "statement": "If a grouped dataset answers getBestMatch(query), the answer is a sub-series of the dataset (valid index, start and length) and the reported distance equals the banded warped distance between the query and that sub-series.", "quantifier": "all finite datasets grouped with any finite threshold, all queries of length 2..itemLength, all band ratios", "why_tests_cant": "whole pipeline with pruning, abandoning and cached envelopes", "anchors": ["src/GlobalGroupSpace.cpp:getBestMatch", "src/GroupableTimeSeriesSet.cpp:getBestMatch", "src/OnexAPI.cpp:getBestMatch"]}
{"id": "C34", "title": "Impossible match requests are rejected", "statement": "getBestMatch throws OnexException when the dataset is not grouped, when the query has fewer than two points, and when the query is longer than the series of the dataset; otherwise it answers.", "quantifier": "all datasets, all queries", "why_tests_cant": "query length and dataset length are independent and unbounded", "anchors": ["src/GlobalGroupSpace.cpp:getBestMatch", "src/GroupableTimeSeriesSet.cpp:getBestMatch"]}
{"id": "C35", "title": "A match is at least as good as every visited representative", "statement": "The distance returned by getBestMatch(query) on a grouped dataset is <= the banded warped distance from the query to every group representative of every length.", "quantifier": "all finite datasets grouped with any finite threshold, all queries, all band ratios", "why_tests_cant": "for-all over groups of all lengths with pruning", "anchors": ["src/GlobalGroupSpace.cpp:getBestMatch"]}
{"id": "C36", "title": "Grouping succeeds whatever the clock does", "statement": "groupDataset on a loaded dataset completes for every behaviour of the wall clock used for progress logging.", "quantifier": "all datasets and all clock readings", "why_tests_cant": "progress logging is triggered by elapsed wall-clock time, which tests do not control", "anchors": ["src/LocalLengthGroupSpace.cpp:generateGroups"]}
{"id": "C37", "title": "Grouping is a function of the data and the threshold", "statement": "groupDataset(i,st) discards earlier groups and returns the total number of groups over lengths 2..itemLength; doing it twice with the same data and threshold gives the same groups.", "quantifier": "all histories, datasets and thresholds", "why_tests_cant": "relates different histories", "anchors": ["src/GroupableTimeSeriesSet.cpp:groupAllLengths", "src/GlobalGroupSpace.cpp:group"]}
{"id": "C38", "title": "Saved groups reload to the same groups", "statement": "loadGroups of a file written by saveGroups (full form) from a dataset of the same shape succeeds, returns the number of groups, and restores for every length and group the same representative (up to printed precision) and the same set of members with the same count.", "quantifier": "all grouped datasets", "why_tests_cant": "unbounded nested file format", "anchors": ["src/GroupableTimeSeriesSet.cpp:saveGroups", "src/GroupableTimeSeriesSet.cpp:loadGroups", "src/Group.cpp:saveGroup", "src/Group.cpp:loadGroup"]}
{"id": "C39", "title": "A rejected group file or grouping request changes nothing", "statement": "If loadGroups throws because the file cannot be opened, has another version or does not fit the dataset, or because it names an unknown distance, then the groups of the dataset are as before.", "quantifier": "all group states and all files", "why_tests_cant": "error paths at several depths with partial updates", "anchors": ["src/GroupableTimeSeriesSet.cpp:loadGroups", "src/GlobalGroupSpace.cpp:loadGroups"]}
{"id": "C40", "title": "Groups never outlive the data they describe", "statement": "After any history of load, normalize, PAA, group and match on a dataset, a match uses only memory that is still allocated and envelopes of the current values.", "quantifier": "all histories of operations on a dataset", "why_tests_cant": "dangling views and stale caches need particular histories", "anchors": ["src/TimeSeriesSet.cpp:PAA", "src/TimeSeriesSet.cpp:normalize", "src/Group.cpp:setCentroid", "src/TimeSeries.cpp:getKeoghLower"]}
{"id": "C41", "title": "Dataset ids behave like a map with least-free-id allocation", "statement": "For every history of load, unload and unloadAll: a load returns the least id not in use, an id stays bound to its dataset until unloaded, and getDatasetCount is the number of ids in use.", "quantifier": "all histories of API calls", "why_tests_cant": "unbounded interleavings of loads and unloads; slots are recycled and trailing slots trimmed", "anchors": ["src/OnexAPI.cpp:loadDataset", "src/OnexAPI.cpp:unloadDataset", "src/OnexAPI.cpp:unloadAllDataset", "src/OnexAPI.cpp:getDatasetCount"]}
{"id": "C42", "title": "Every API call with an unknown id throws and changes nothing; a failed load changes nothing", "statement": "Each operation that takes a dataset id throws OnexException when the id is negative, too large or unloaded, leaving all datasets and the count unchanged; a loadDataset that throws leaves all ids, datasets and the count unchanged.", "quantifier": "all reachable API states, all ids, all failing files", "why_tests_cant": "for-all over states and ids", "anchors": ["src/OnexAPI.cpp:_checkDatasetIndex", "src/OnexAPI.cpp:loadDataset"]}
{"id": "C43", "title": "Operations on one dataset do not affect the others", "statement": "load, unload, normalize, PAA, group, loadGroup and match on one id leave the data, shape, flags and groups of every other id unchanged.", "quantifier": "all reachable API states and operations", "why_tests_cant": "interference shows only in particular slot configurations", "anchors": ["src/OnexAPI.cpp"]}
{"id": "C44", "title": "getAllDatasetInfo lists exactly the loaded datasets in id order", "statement": "getAllDatasetInfo returns one entry per id in use, in increasing id order, each equal to getDatasetInfo of that id, and as many as getDatasetCount.", "quantifier": "all reachable API states", "why_tests_cant": "for-all over histories", "anchors": ["src/OnexAPI.cpp:getAllDatasetInfo", "src/OnexAPI.cpp:getDatasetInfo"]}
{"id": "C45", "title": "Candidate ordering is a strict weak order", "statement": "operator< on match candidates is irreflexive, asymmetric and transitive, with transitive incomparability, so that candidates can be sorted.", "quantifier": "all candidates (any distances, indices, starts, lengths)", "why_tests_cant": "needs near-ties at the epsilon scale", "anchors": ["src/TimeSeries.hpp:candidate_time_series_t"]}
{"id": "C46", "title": "The command loop survives every erroneous command", "statement": "For every input line, the command interpreter ends the session only on quit/exit; a wrong command, wrong argument count, non-numeric argument or library error is reported and the session continues with the loaded datasets intact.", "quantifier": "all input lines and all session states", "why_tests_cant": "unbounded inputs; argument-count dependent indexing", "anchors": ["cli/OnexCLI.cpp:processLine", "cli/OnexCLI.cpp:main", "cli/OnexCLI.cpp:MAKE_COMMAND"]}
{"id": "C47", "title": "Copies of a series are safe", "statement": "Copy construction, copy assignment and move assignment of series give an object with the same values; copies of owning series are independent of the original, and no sequence of these operations and destructions uses freed memory or frees twice.", "quantifier": "all histories of construction, copy, assignment and destruction", "why_tests_cant": "ownership bugs depend on the history", "anchors": ["src/TimeSeries.hpp:TimeSeries", "src/TimeSeries.cpp:operator=", "src/TimeSeries.cpp:~TimeSeries"]}
{"id": "C48", "title": "Adding series is pointwise and length checked", "statement": "a += b throws (leaving a unchanged) when lengths differ and otherwise replaces each a[i] by a[i]+b[i], changing nothing outside a's window.", "quantifier": "all series views", "why_tests_cant": "unbounded lengths and windows", "anchors": ["src/TimeSeries.cpp:operator+="]}
{"id": "C49", "title": "The rolling-array DTW equals banded DTW", "statement": "dtw(A,B,cb,m,r,bsf) without abandoning returns the least total squared difference over warping paths in the band; when it abandons, the returned value is >= bsf and (for valid cumulative bounds cb) so is the true value.", "quantifier": "all series of length m>=1, all r>=0, all bounds", "why_tests_cant": "two rolling arrays with shifted indices", "anchors": ["src/lib/trillionDTW.cpp:dtw"]}
{"id": "C50", "title": "The UCR lower bounds never exceed the warped distance", "statement": "lb_kim_hierarchy, lb_keogh_cumulative and lb_keogh_data_cumulative return at most the least warping cost between the normalised window and the query, whatever the best value so far; the per-position terms, summed from the end, bound the remaining cost that dtw adds before abandoning.", "quantifier": "all windows that vary, all queries, bands, visiting orders and best values so far", "why_tests_cant": "a bound that is too large by a little loses a match only for rare data", "anchors": ["src/lib/trillionDTW.cpp:lb_kim_hierarchy", "src/lib/trillionDTW.cpp:lb_keogh_cumulative", "src/lib/trillionDTW.cpp:lb_keogh_data_cumulative"]}
{"id": "C51", "title": "The UCR search finds the first nearest window", "statement": "calculate returns the first position at which the normalised window of the data has the least warping cost to the normalised query, and that cost.", "quantifier": "all data, all queries of length m, all bands", "why_tests_cant": "chunked reading, a ring buffer with running sums, four successive prunings and early abandoning; the tests compare a few datasets", "anchors": ["src/lib/trillionDTW.cpp:calculate"]}
{"id": "C52", "title": "The UCR search result does not depend on chunking, sorting ties or old memory", "statement": "The result of calculate is the same for every chunk size, every arrangement qsort may choose for the query positions, and every content of the uninitialised arrays.", "quantifier": "all data and queries, all chunk sizes, all orders, all initial memory", "why_tests_cant": "a test run sees one chunk size, one qsort and one memory content", "anchors": ["src/lib/trillionDTW.cpp:calculate", "src/lib/trillionDTW.cpp:comp", "src/lib/trillionDTW.cpp:dtw"]}
{"id": "C53", "title": "Values that are not finite cause no undefined behaviour", "statement": "Whatever values the data, the query and the threshold hold, infinities and not-a-number included, computing distances, grouping and matching run without undefined behaviour, and an answered match is a window of the data.", "quantifier": "all data, queries and thresholds, finite or not; all sequences of matches after a grouping", "why_tests_cant": "the tests hold finite data only; std::stod accepts nan and inf, and every comparison with not-a-number fails, which leaves variables unset", "anchors": ["src/distance/Distance.cpp:warpedDistance", "src/distance/Distance.cpp:cascadeDistance", "src/LocalLengthGroupSpace.cpp:generateGroups", "src/GlobalGroupSpace.cpp:getBestMatch"]}
{"id": "C54", "title": "A search does not affect later ones", "statement": "After a dataset has been grouped, or its groups loaded, the answer to a search is the same whatever other calls came in between, as long as they left the searched dataset and the query's dataset as they were or only searched them: cached envelopes, of whatever band, and uninitialised memory have no effect on it.", "quantifier": "all datasets and values, all histories of API calls with any band ratios in between, all memory contents, all outcomes (answer, exception, undefined behaviour)", "why_tests_cant": "the tests search with few queries and one band; a cache kept for the wrong band or series shows only in a particular order of calls", "anchors": ["src/TimeSeries.cpp:getKeoghLower", "src/TimeSeries.cpp:getKeoghUpper", "src/Group.cpp:distanceFromCentroid", "src/GlobalGroupSpace.cpp:getBestMatch", "src/OnexAPI.cpp:getBestMatch"]}
{"id": "C55", "title": "The answer is nearly the best possible", "statement": "On data grouped by the Euclidean distance with threshold st, the distance of the answer to a search exceeds the warped distance from the query to any sub-series of any length l by at most (st/2) * sqrt((2r+1) l) / (2 max(m, l)), where m is the length of the query and r the band; against sub-series of the query's own length it is at most (Euclidean distance + st/2) / (2 sqrt(m)). A query that is itself in the data is answered within st/2 for either distance (so exactly when st = 0), but not always with distance 0.", "quantifier": "all data, queries, thresholds >= 0, band ratios, sub-series of all lengths, any number of earlier searches", "why_tests_cant": "the promise of the method (answers near the best without looking at every sub-series) compares with all sub-series; a test compares with a few", "anchors": ["src/GlobalGroupSpace.cpp:getBestMatch", "src/LocalLengthGroupSpace.cpp:generateGroups", "src/distance/Distance.cpp:warpedDistance"]}
{"id": "C56", "title": "Groups moved through files answer as before", "statement": "Groups that are saved and loaded (into any set with the same rows), any number of times and with searches in between, answer every search as the groups just made do: at the same distance with a window of the same length in exact arithmetic, and, after an even number of moves, with the same window for every number type. (One move may change which of several equally near windows is returned.) Numbers must survive printing.", "quantifier": "all datasets, groupings, numbers of moves, interleavings with searches, queries and band ratios", "why_tests_cant": "the file format reverses member lists and drops caches; the claim relates all searches after all histories of moves", "anchors": ["src/GroupableTimeSeriesSet.cpp:loadGroups", "src/GroupableTimeSeriesSet.cpp:saveGroups", "src/Group.cpp:saveGroup", "src/Group.cpp:loadGroup", "src/GlobalGroupSpace.cpp:getBestMatch"]}
{"id": "C57", "title": "Rounding changes the distances little", "statement": "If every operation has a relative error of at most u, the square of a computed Euclidean distance of n values is the square of the true root mean square up to n + 6 factors between 1 - u and 1 + u, and the square of a computed warped distance of m and n values is that of the true one (in the band computed) up to m + n + 5 such factors. So members are truly within half the threshold of their representatives, and reported distances are the true distances of the windows reported, up to these factors. Rounding to 53 bits, to nearest, ties to even, is such an arithmetic with u = 2^-53.", "quantifier": "all series, band ratios, thresholds, datasets, queries, search histories, and all roundings of bounded relative error", "why_tests_cant": "a test compares a few distances with a tolerance; the claim bounds the error for all lengths and values", "anchors": ["src/distance/Distance.cpp:pairwiseDistance", "src/distance/Distance.cpp:warpedDistance", "src/LocalLengthGroupSpace.cpp:generateGroups", "src/GlobalGroupSpace.cpp:getBestMatch"]}
{"id": "C58", "title": "Searches under rounding are optimal up to the rounding errors", "statement": "If every operation has a relative error of at most u, the distance x reported with a match satisfies (1-u)^10 x <= w for the computed distance w between the query and every representative of every length visited, however long the series. For data grouped by the Euclidean distance with threshold st, x exceeds the true warped distance to any sub-series of a length visited by at most the st/2 term of C55, up to a factor (1+u)^(m+l+6)/(1-u)^(l+16) for a query of m values and sub-series of l values. In double arithmetic, for series of up to a million values and sub-series as long as the query, that factor is at most 1 + 10^-9.", "quantifier": "all datasets, thresholds, queries, band ratios, earlier matches, and all roundings of bounded relative error", "why_tests_cant": "early abandoning compares rounded partial sums with rounded bounds; a test on some data cannot show that no candidate is wrongly abandoned by more than rounding", "anchors": ["src/GlobalGroupSpace.cpp:getBestMatch", "src/Group.cpp:getBestMatch", "src/LocalLengthGroupSpace.cpp:getBestGroup", "src/distance/Distance.cpp:warpedDistance"]}
{"id": "C59", "title": "Grouping is leader clustering", "statement": "In exact arithmetic the groups of each length are those of leader clustering: the sub-series are taken by starting point and then by series; one farther than half the threshold from every representative founds a new group with itself as representative; any other joins the group of its nearest representative, the earliest founded on a tie. Groups are kept in the order founded, members latest first. This determines the groups, their members and all orders completely.", "quantifier": "all datasets, thresholds (also negative), band ratios, both distances, all lengths", "why_tests_cant": "C25 to C28 say what a grouping is like; this says which of the many such groupings it is, so that any change of the order, of the tie rule or of the assignment is visible", "anchors": ["src/LocalLengthGroupSpace.cpp:generateGroups", "src/LocalLengthGroupSpace.cpp:getBestGroup", "src/Group.cpp:addMember", "src/Group.cpp:getMembers", "src/Group.cpp:setCentroid"]}
{"id": "C60", "title": "Which window a search answers with", "statement": "In exact arithmetic, after grouping and any number of searches, a search for a query of length 2 up to the item length answers with a window of the group whose representative is nearest to the query among all groups of all lengths. Ties go to the length nearest to the query's, the shorter of two equally near, and then to the group founded first. In that group it is the nearest member, the one that joined last on a tie. The distance reported is that window's warped distance. With C59 this determines the answer from the data, the threshold and the query alone.", "quantifier": "all datasets, thresholds, band ratios, queries, both grouping distances, any history of searches", "why_tests_cant": "C33 to C35 say the answer is real and best in its group; this says which one it is among equals, over all lengths, which no finite set of queries settles", "anchors": ["src/GlobalGroupSpace.cpp:getBestMatch", "src/GlobalGroupSpace.cpp:generateTraverseOrder", "src/LocalLengthGroupSpace.cpp:getBestGroup", "src/Group.cpp:getBestMatch"]}
{"id": "C61", "title": "Scale and offset of the data do not matter", "statement": "In exact arithmetic, replacing every value x of the data by c*x+b with c not 0 and the threshold by |c| times itself leaves all groups of all lengths the same, with the same members in the same order; a query changed in the same way is answered with the same window at |c| times the distance. With c > 0, normalising gives the very same values.", "quantifier": "all data, thresholds, c, b, band ratios, queries, both grouping distances, any history of searches in either set", "why_tests_cant": "a relation between two whole runs on different data; one absolute tolerance anywhere in the distances, bounds or grouping breaks it, but only at some scales", "anchors": ["src/GlobalGroupSpace.cpp:group", "src/GlobalGroupSpace.cpp:getBestMatch", "src/LocalLengthGroupSpace.cpp:generateGroups", "src/distance/Distance.hpp:warpedDistance", "src/TimeSeriesSet.cpp:normalize"]}
{"id": "C62", "title": "Arithmetic on int stays within 32 bits", "statement": "For datasets of at most 715827882 values (a third of INT_MAX), queries of at most as many, and a warping ratio that is not negative, no int expression overflows in loading, saving, normalising, averaging, the distances, the envelopes, the traverse order or searching: each function does on 32-bit integers exactly what it does on unbounded ones. Grouping does too unless it finds more than INT_MAX groups (numberOfGroups overflows), or reports progress on a length with 21474840 or more sub-series (counter*100 overflows); in these two cases, and only these, it has undefined behaviour. Both occur for datasets within the limit.", "quantifier": "all datasets and queries within the limit, thresholds, clocks, and all number types", "why_tests_cant": "overflow needs datasets of many millions of values, far beyond any test; and a test that happens to overflow need not notice", "anchors": ["src/LocalLengthGroupSpace.cpp:generateGroups", "src/GlobalGroupSpace.cpp:group", "src/lib/trillionDTW.cpp:lower_upper_lemire", "src/lib/deque.cpp:push_back", "src/TimeSeriesSet.cpp:loadData", "src/TimeSeriesSet.cpp:normalize", "src/distance/Distance.cpp:warpedDistance"]}
{"id": "C63", "title": "Group files made elsewhere", "statement": "A group file may describe any groups: any representatives, any choice of members. If what it describes fits the dataset (known distance, representatives of the length of their group, members inside the dataset, none named twice), loading it succeeds in every state, returns the number of groups, leaves the data alone, and gives the dataset exactly the groups described. Every search then answers with a listed member at its warped distance; in exact arithmetic the nearest member of a group whose representative is nearest. Other files are rejected. (False of the code: files that do not fit are accepted or undefined.)", "quantifier": "all group files that fit, datasets, earlier states and sequences of searches; for the counterexamples all datasets of series of length 2", "why_tests_cant": "tests only reload files the library wrote itself; files from other tools, or cut short, are unbounded in number and the damage shows only in a later call", "anchors": ["src/GroupableTimeSeriesSet.cpp:loadGroups", "src/GlobalGroupSpace.cpp:loadGroups", "src/LocalLengthGroupSpace.cpp:loadGroups", "src/Group.cpp:loadGroup", "src/Group.cpp:addMember", "src/Group.cpp:getBestMatch", "src/Group.cpp:saveGroup"]}
{"id": "C64", "title": "Every command line makes the call it stands for, and nothing else", "statement": "A line whose words stand for a library call, following the usage of its command, makes exactly that call with those arguments, whatever spaces separate the words; words left out have their defaults. It stands for one call at most. Every other line only ends the session (quit, exit), switches the timer, or changes nothing, apart from the match with four arguments, which is undefined (C46). So a session is the sequence of its calls: the library ends in the state they lead to and gives the answers they give, exceptions included. At end of input the program asks until the answer is decisive; n goes on with the session unchanged, and y, an empty line or another end of input ends it.", "quantifier": "all lines, all numbers a word can stand for, all library states, files, clocks, all sequences of lines", "why_tests_cant": "the lines are unbounded in number and spacing, and that a malformed line changes nothing must hold in every state; tests type a few lines", "anchors": ["cli/OnexCLI.cpp:processLine", "cli/OnexCLI.cpp:main", "cli/OnexCLI.cpp:wantToQuitByEOF", "cli/Command.hpp:doCommand"]}
{"id": "C65", "title": "The library behaves like the one its user keeps on paper", "statement": "Describe the library by what a user would write down: for each id a table of real numbers, the file name, whether it was normalised, and the threshold it was last grouped with; and the band ratio. Loading binds the least free id to the table in the file; saving writes the table; normalising maps it to [0,1], or, for an even number of series of odd length, scales it with the range of the values that are not the last of their series (C20); PAA replaces rows by block means; grouping counts the clusters of leader clustering over all lengths; matching replies with the window C60 describes; info and lists show the facts; unknown ids, bad files, bad windows, missing groups and bad block sizes are errors that change nothing. In exact arithmetic, any sequence of calls so described is carried out without undefined behaviour, in the library and through the command line, and every call returns exactly the reply described, errors as exceptions. The replies are determined, and every call within the bounds has one. The bounds: finite numbers, band sizes that are an int, no progress report due while fewer than five windows are grouped (C36), files of at least one row, no normalising of an even number of one-value series (C20), no normalising or PAA of a grouped dataset (C37), no query longer than the searched series (C34), no group files.", "quantifier": "all sequences of calls, all files and tables, all thresholds, ratios, queries, clocks and uninitialised memory", "why_tests_cant": "it is a statement about all histories of a stateful interface with interacting datasets; tests run a few scripts", "anchors": ["src/OnexAPI.cpp", "src/GroupableTimeSeriesSet.cpp", "src/TimeSeriesSet.cpp", "src/GlobalGroupSpace.cpp", "cli/OnexCLI.cpp:main"]}
{"id": "C66", "title": "What memory series lose, and that every group loses some", "statement": "Series objects own the arrays they allocate or copy, and views own nothing. After any history of constructing, copying, assigning, moving, writing, adding and destroying series that uses existing objects only, the allocated arrays that no series will release any more are exactly the arrays owned by the target of a move assignment at the moment it was assigned to, each lost once and for good; without such a move, destroying all series releases everything they allocated. The code makes such a move for every group: a group is constructed with an array for its centroid, and setting the centroid or loading it from a file moves another series over it. So grouping a dataset into n groups, or loading n groups, and deleting the groups leaves exactly n arrays allocated, each as long as the members of its group.", "quantifier": "all histories of operations on any number of series, all datasets, thresholds, distances and group files", "why_tests_cant": "leaks are invisible to functional tests, and the claim that nothing else is ever lost is about all interleavings of copies, moves and destructions", "anchors": ["src/TimeSeries.cpp:15-60 operator=, ~TimeSeries", "src/TimeSeries.hpp:76-101", "src/Group.hpp:70-79", "src/Group.cpp:26-29 setCentroid", "src/Group.cpp:103-118 loadGroup", "src/LocalLengthGroupSpace.cpp:31-44 reset"]}
{"id": "C67", "title": "Where the UCR search is defined", "statement": "For a query of 3 to 100000 values the UCR search ends, reads and writes within its arrays, divides by no zero and overflows no int exactly if the band is narrower than the query and there are at most INT_MAX data points; this holds for every kind of number and rounding, for infinities and not-a-number in data and query, for a query file of any length and for any old contents of memory. It then reports the number of data points (m-1 for fewer) and either a window within the data or position 0 with the bound 1e20 it started with, and up to INT_MAX points it is the search of C51 and C52. For a query of more than 100000 values it is defined exactly if m = 100001 or there are at most 100000 data points, and then it has looked at no window. For one or two values, and at least one window, it is undefined. With a query file of fewer than m values the answer depends on the old contents of memory.", "quantifier": "all data and query files, lengths, bands, orders of the sorted query, number types and contents of uninitialised memory", "why_tests_cant": "memory errors and overflows show under particular lengths only, more than 2147483647 points are beyond a test, and a read of uninitialised memory often gives the expected answer", "anchors": ["src/lib/trillionDTW.cpp:66-117 lb_kim_hierarchy", "src/lib/trillionDTW.cpp:244-572 calculate", "src/lib/trillionDTW.cpp:406-440 chunks", "src/lib/trillionDTW.cpp:514", "src/lib/trillionDTW.cpp:537"]}
{"id": "C68", "title": "How many groups grouping makes", "statement": "Grouping returns the number of all groups, over the lengths from 2 to that of the series. Of each length there is at least one group, and at most as many as sub-series. In exact arithmetic: if the sub-series of a length can be divided into N parts in which no two are farther apart than half the threshold, there are at most N groups of that length; a Euclidean grouping with at most half the threshold has at least as many groups, of each length and altogether; a threshold below 0 gives every sub-series a group of its own; the threshold 0 gives, for the Euclidean distance, one group for each sequence of values that occurs; and a threshold of twice the spread of the data or more gives one group for each length. (A larger threshold alone need not give fewer groups: an example has 2 groups with the threshold 13 and 3 with 16.)", "quantifier": "all datasets, thresholds, band ratios and both distances; the first two for all number types and roundings", "why_tests_cant": "the bound by the best division and the comparison of two groupings are about all datasets and all divisions; a test sees one count for one dataset", "anchors": ["src/GroupableTimeSeriesSet.cpp:groupAllLengths", "src/GlobalGroupSpace.cpp:group", "src/LocalLengthGroupSpace.cpp:generateGroups"]}
{"id": "C69", "title": "distanceBetween measures the distance it is asked for", "statement": "In exact arithmetic, distanceBetween with the name euclidean returns the root mean square difference between the window asked for and the other series, and throws if their lengths differ; with the name euclidean_dtw it returns the scaled root of the least cost of a warping path inside the band, or infinity if no path fits. Any other name, an index that is not of a series and a window that does not lie in its series are rejected, and nothing is undefined.", "quantifier": "all datasets, indices, windows, other series, names and band ratios; the rejections for all number types", "why_tests_cant": "the existing test asks for two distances of one file; wrong windows, indices and names are a matter of all integers and strings", "anchors": ["src/TimeSeriesSet.cpp:distanceBetween", "src/distance/Distance.cpp:getDistance", "src/TimeSeriesSet.cpp:getTimeSeries"]}
{"id": "C70", "title": "PAA of a single series", "statement": "tsPAA(source, n) with n >= 1 and a source of L >= 1 values returns ceil(L/n) values, value j being the mean of the values j*n .. min((j+1)*n, L)-1 (under rounding: their sum in order, divided by their number), the same as PAA(n) of a dataset gives to such a row. A block size that is not positive is rejected; the result never has more values than the source.", "quantifier": "all series and block sizes", "why_tests_cant": "unbounded lengths and block sizes; no test calls tsPAA", "anchors": ["src/TimeSeriesSet.cpp:tsPAA", "src/TimeSeriesSet.cpp:calcPAALength", "src/TimeSeries.cpp:operator[]"]}
