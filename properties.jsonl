{"id": "C01", "title": "Every training record is routed to exactly one place", "statement": "fit() separates the records into clean, special and missing ones; every record with a non-missing target lands in exactly one of the three groups, order inside a group is the input order, and the three group sizes add up to the number of records (no record is dropped or counted twice when no outlier detector is configured).", "quantifier": "all input arrays x, y of any length, all special-code lists or dicts", "why_tests_cant": "Holds for every mixture of missing/special/clean values and every length; a test fixes one array.", "anchors": ["optbinning/binning/preprocessing.py:split_data"]}
{"id": "C02", "title": "Binning-table totals equal the training data", "statement": "After fit() of a numerical variable with unit weights, the Non-event and Event columns of the binning table (clean bins, special bins, missing bin) add up to the number of non-event and event records of the training data.", "quantifier": "all training arrays, all split points, all solver answers", "why_tests_cant": "Quantifies over every data set and every answer of the solver.", "anchors": ["optbinning/binning/binning.py:OptimalBinning._fit", "optbinning/binning/binning_statistics.py:bin_info", "optbinning/binning/preprocessing.py:split_data"]}
{"id": "C03", "title": "Table counts are the histogram of transform", "statement": "For a fitted numerical variable, the Event (Non-event) count shown for bin k of the binning table is exactly the number of event (non-event) training records which transform(metric='indices') sends to k.", "quantifier": "all training arrays, strictly or weakly increasing split points, all solver answers, all k", "why_tests_cant": "Relates two independent code paths (accumulating prebin counts; digitizing with the selected splits) for all data.", "anchors": ["optbinning/binning/binning.py:OptimalBinning._compute_prebins", "optbinning/binning/binning_statistics.py:bin_info", "optbinning/binning/transformations.py:transform_binary_target"]}
{"id": "C04", "title": "Numerical transform puts a value in the half-open interval that contains it", "statement": "For increasing split points s_0 <= ... <= s_{m-1}, transform(metric='indices') of a clean value v returns k iff s_{k-1} <= v < s_k (with s_{-1} = -inf, s_m = +inf); the index is total, unique, at most m, and monotone in v.", "quantifier": "all split lists, all values", "why_tests_cant": "All real values including exact boundaries, all split lists.", "anchors": ["optbinning/binning/transformations.py:transform_binary_target", "optbinning/binning/transformations.py:_apply_transform", "optbinning/binning/binning_statistics.py:bin_str_format"]}
{"id": "C05", "title": "Special and missing values are assigned after the regular bins", "statement": "transform(metric='indices', metric_special='empirical', metric_missing='empirical') gives special codes the indices right after the regular bins (one per dict group) and missing values the last index, and never confuses them with a regular bin.  With the documented default metric_missing=0 the index 0 is returned instead, which collides with the first regular bin.", "quantifier": "all arrays, special codes, split lists", "why_tests_cant": "Quantifies over all inputs and option combinations.", "anchors": ["optbinning/binning/transformations.py:_apply_transform", "optbinning/binning/transformations.py:_mask_special_missing"]}
{"id": "C06", "title": "Pre-bin refinement terminates and leaves no pure pre-bin", "statement": "For the IV and JS divergences, the refinement of the initial splits terminates for every data set and ends either with no splits or with pre-bins which all contain at least one event and one non-event; the surviving splits are a sub-list of the initial ones, in the same order, and no record is lost.", "quantifier": "all data, weights, split lists", "why_tests_cant": "Recursion depth depends on the data; termination and the post-condition are for all inputs.", "anchors": ["optbinning/binning/binning.py:OptimalBinning._prebinning_refinement", "optbinning/binning/binning.py:OptimalBinning._compute_prebins"]}
{"id": "C07", "title": "User-supplied categorical groups keep all their records", "statement": "When user_splits groups categories, the pre-bin counts add up to the number of clean records of the listed categories, also after refinement.", "quantifier": "all data and all user groups", "why_tests_cant": "Only fails for particular data (a pure last group), which a test has to hit.", "anchors": ["optbinning/binning/binning.py:OptimalBinning._compute_prebins", "optbinning/binning/binning_statistics.py:bin_categorical", "optbinning/binning/binning_statistics.py:bin_info"]}
{"id": "C08", "title": "Solver answers are contiguous binnings", "statement": "Every assignment accepted by the unique-assignment and continuity constraints is a partition of the pre-bins into contiguous intervals, determined by its diagonal; conversely every contiguous partition is accepted.", "quantifier": "all n, all assignments", "why_tests_cant": "Exponentially many assignments for each n, and every n.", "anchors": ["optbinning/binning/cp.py:BinningCP.add_constraint_unique_assignment", "optbinning/binning/cp.py:BinningCP.add_constraint_continuity", "optbinning/binning/mip.py:BinningMIP"]}
{"id": "C09", "title": "min_n_bins and max_n_bins are respected", "statement": "If the solver reports OPTIMAL or FEASIBLE, the number of regular bins lies between min_n_bins and max_n_bins (whichever are given), and no binning in that range is excluded by these constraints.", "quantifier": "all n, all option values, all solver answers", "why_tests_cant": "Holds for whatever feasible answer the solver gives.", "anchors": ["optbinning/binning/cp.py:BinningCP.add_constraint_min_max_bins", "optbinning/binning/mip.py:BinningMIP.add_constraint_min_max_bins"]}
{"id": "C10", "title": "min_bin_size and max_bin_size are respected", "statement": "If the solver reports OPTIMAL or FEASIBLE, every regular bin contains at least min_bin_size and at most max_bin_size records (whichever are given), and the constraint excludes nothing else.", "quantifier": "all counts, options, solver answers", "why_tests_cant": "For whatever feasible answer the solver gives.", "anchors": ["optbinning/binning/cp.py:BinningCP.add_constraint_min_max_bin_size", "optbinning/binning/mip.py:BinningMIP.add_constraint_min_max_bin_size"]}
{"id": "C11", "title": "Per-bin event and non-event bounds are respected", "statement": "If the solver reports OPTIMAL or FEASIBLE, every regular bin satisfies min/max_bin_n_event and min/max_bin_n_nonevent.", "quantifier": "all counts, options, solver answers", "why_tests_cant": "For whatever feasible answer the solver gives.", "anchors": ["optbinning/binning/cp.py:BinningCP.build_model", "optbinning/binning/mip.py:BinningMIP.build_model"]}
{"id": "C12", "title": "Ascending and descending trends hold in the result", "statement": "With monotonic_trend='ascending' ('descending') and status OPTIMAL/FEASIBLE, event rates of the regular bins are non-decreasing (non-increasing): exactly for solver='mip', and up to 1e-6 for solver='cp', which works on rates truncated to six digits.", "quantifier": "all counts, all solver answers", "why_tests_cant": "For all data; the truncation makes the exact claim false for cp on rare data.", "anchors": ["optbinning/binning/cp.py:BinningCP.add_constraint_monotonic_ascending", "optbinning/binning/cp.py:BinningCP.add_constraint_monotonic_descending", "optbinning/binning/mip.py:BinningMIP.add_constraint_monotonic_ascending"]}
{"id": "C13", "title": "Peak, valley, concave and convex trends hold in the result", "statement": "With monotonic_trend 'peak' / 'valley' (or the heuristic variants) and status OPTIMAL/FEASIBLE the (truncated) event rates of the regular bins first rise then fall (fall then rise); with 'concave'/'convex' every triple of bins i<j<k satisfies 2 r_j >= r_i + r_k (<=).", "quantifier": "all counts, all solver answers", "why_tests_cant": "For whatever answer the solver gives.", "anchors": ["optbinning/binning/cp.py:BinningCP.add_constraint_monotonic_peak", "optbinning/binning/cp.py:BinningCP.add_constraint_monotonic_concave", "optbinning/binning/cp.py:BinningCP.add_constraint_monotonic_peak_heuristic"]}
{"id": "C14", "title": "min_event_rate_diff separates consecutive bins", "statement": "With min_event_rate_diff>0 and status OPTIMAL/FEASIBLE, the (truncated) event rates of any two consecutive regular bins differ by at least the (truncated) requested difference.", "quantifier": "all counts, all solver answers", "why_tests_cant": "For whatever answer the solver gives.", "anchors": ["optbinning/binning/model_data.py:find_min_diff_violation_indices", "optbinning/binning/cp.py:BinningCP.add_constraint_violation", "optbinning/binning/mip.py:BinningMIP.add_constraint_violation"]}
{"id": "C15", "title": "max_pvalue separates consecutive (or all) pairs of bins", "statement": "With max_pvalue set and status OPTIMAL/FEASIBLE, no two consecutive bins (policy 'consecutive') or no two bins (policy 'all') fail the proportion test; no other pair is excluded.", "quantifier": "all counts, all tests, all solver answers", "why_tests_cant": "For whatever answer the solver gives.", "anchors": ["optbinning/binning/model_data.py:find_pvalue_violation_indices", "optbinning/binning/cp.py:BinningCP.add_constraint_violation"]}
{"id": "C16", "title": "Fixed user splits survive", "statement": "With user_splits_fixed and status OPTIMAL/FEASIBLE every split flagged as fixed is a split point of the result; fitting the same object again on the same data treats the same splits as fixed.", "quantifier": "all split lists and flags, all solver answers, all fit histories", "why_tests_cant": "History property: refitting re-permutes the stored flags.", "anchors": ["optbinning/binning/cp.py:BinningCP.add_constraint_fixed_splits", "optbinning/binning/binning.py:OptimalBinning._fit"]}
{"id": "C17", "title": "The optimised objective is the divergence of the result", "statement": "For every accepted assignment the solver objective (without regularisation) equals the sum over the regular bins of the (scaled) divergence contribution of the bin.", "quantifier": "all counts, all accepted assignments", "why_tests_cant": "Telescoping identity for all n.", "anchors": ["optbinning/binning/cp.py:BinningCP.build_model", "optbinning/binning/mip.py:BinningMIP.build_model", "optbinning/binning/model_data.py:model_data"]}
{"id": "C18", "title": "No admissible binning is excluded", "statement": "Every binning that satisfies the user's constraints is representable in the solver model, so OPTIMAL really means best among all admissible binnings, and INFEASIBLE means no admissible binning exists.", "quantifier": "all counts, all options", "why_tests_cant": "Exponentially many binnings; failing cases need particular rates.", "anchors": ["optbinning/binning/cp.py:BinningCP.add_constraint_monotonic_ascending (Preprocessing)", "optbinning/binning/cp.py:BinningCP.add_constraint_monotonic_concave", "optbinning/binning/continuous_cp.py:ContinuousBinningCP.add_constraint_monotonic_peak"]}
{"id": "C19", "title": "Without a feasible answer a single bin is returned", "statement": "If the solver ends with another status, the result is one regular bin holding all clean records (no split points), the table totals are still right, whatever constraints were requested.", "quantifier": "all n, all statuses", "why_tests_cant": "All statuses and sizes.", "anchors": ["optbinning/binning/cp.py:BinningCP.solve", "optbinning/binning/mip.py:BinningMIP.solve", "optbinning/binning/binning_statistics.py:bin_info"]}
{"id": "C20", "title": "WoE and event rate are inverse transformations", "statement": "transform_woe_to_event_rate and transform_event_rate_to_woe are mutually inverse on (0,1) x R, strictly decreasing, and WoE is 0 exactly at the average event rate.", "quantifier": "all positive totals, all rates in (0,1), all real WoE", "why_tests_cant": "Continuum of inputs.", "anchors": ["optbinning/binning/transformations.py:transform_event_rate_to_woe", "optbinning/binning/transformations.py:transform_woe_to_event_rate"]}
{"id": "C21", "title": "Divergences are non-negative, bounded and vanish only for equal distributions", "statement": "IV (Jeffrey), Jensen-Shannon, Hellinger and triangular discrimination are >= 0, symmetric, 0 iff event and non-event distributions agree on every bin; JS <= log 2, Hellinger <= 1, triangular <= 2.", "quantifier": "all pairs of distributions of any length", "why_tests_cant": "Continuum of inputs.", "anchors": ["optbinning/binning/metrics.py:jeffrey", "optbinning/binning/metrics.py:jensen_shannon", "optbinning/binning/metrics.py:hellinger", "optbinning/binning/metrics.py:triangular"]}
{"id": "C22", "title": "Merging bins never increases the divergence", "statement": "Replacing two bins by their union never increases the IV, JS, Hellinger or triangular divergence of the table.", "quantifier": "all counts, all merges", "why_tests_cant": "Inequality over a continuum.", "anchors": ["optbinning/binning/metrics.py:jeffrey", "optbinning/binning/model_data.py:model_data"]}
{"id": "C23", "title": "Gini, KS, HHI and quality score stay in their documented ranges", "statement": "Gini in [0,1], KS in [0,1], HHI in [1/n,1], normalized HHI in [0,1], quality score in [0,1] for every binning table with p-values in [0,1].", "quantifier": "all tables", "why_tests_cant": "All tables.", "anchors": ["optbinning/binning/metrics.py:gini", "optbinning/binning/metrics.py:hhi", "optbinning/binning/metrics.py:binning_quality_score", "optbinning/binning/binning_statistics.py:BinningTable.build"]}
{"id": "C24", "title": "A quantile sketch accounts for every value added", "statement": "For any sequence of add() and compressions, a GK sketch's bin counts sum to the number of added values, entries are sorted, and the first/last stored value are within the range of values added.", "quantifier": "all histories of add / len / quantile calls, all eps", "why_tests_cant": "All operation histories.", "anchors": ["optbinning/binning/distributed/gk.py:GK"]}
{"id": "C25", "title": "A quantile query is eps-accurate", "statement": "After any sequence of add() calls, quantile(q) returns a value that was added, whose rank differs from the requested rank by at most eps*n (+1).", "quantifier": "all histories, all q, all eps", "why_tests_cant": "All histories.", "anchors": ["optbinning/binning/distributed/gk.py:GK.quantile", "optbinning/binning/distributed/gk.py:GK.merge_compress"]}
{"id": "C26", "title": "Merging sketches adds up", "statement": "After a.merge(b), a's record, event, missing and special counts are the sums of those of a and b, bins() of the merged sketch adds up to its clean record count, and later changes to b do not affect a.", "quantifier": "all sketches, all histories", "why_tests_cant": "Counts dropped or aliased only in particular histories.", "anchors": ["optbinning/binning/distributed/bsketch.py:BSketch.merge", "optbinning/binning/distributed/bsketch.py:BSketch._copy", "optbinning/binning/distributed/bsketch.py:BCatSketch.merge", "optbinning/binning/distributed/gk.py:GK.merge"]}
{"id": "C27", "title": "Categorical sketch equals batch counting", "statement": "A BCatSketch fed with any sequence of chunks holds exactly the per-category event and non-event counts of the concatenated data; merging in any order gives the same counts.", "quantifier": "all chunk sequences, merge orders", "why_tests_cant": "All histories and orders.", "anchors": ["optbinning/binning/distributed/bsketch.py:BCatSketch"]}
{"id": "C28", "title": "MDLP discretisation terminates with admissible splits", "statement": "MDLP.fit terminates for all data; the split points are sorted and each one separates at least min_samples_leaf records on each side of the node it splits; fitting twice gives the same splits as fitting once.", "quantifier": "all data, all parameters, all fit histories", "why_tests_cant": "Recursion depth depends on data; refit is a history property.", "anchors": ["optbinning/binning/mdlp.py:MDLP._fit", "optbinning/binning/mdlp.py:MDLP._recurse", "optbinning/binning/mdlp.py:MDLP._find_split"]}
{"id": "C29", "title": "The reported type of monotonic trend is true", "statement": "type_of_monotonic_trend returns 'ascending'/'descending' only for non-decreasing/non-increasing sequences, 'peak'/'valley' only for unimodal ones, '(concave)'/'(convex)' only if so, and 'no monotonic' only if the sequence is neither monotone, peak nor valley.", "quantifier": "all sequences of any length", "why_tests_cant": "All sequences.", "anchors": ["optbinning/binning/auto_monotonic.py:type_of_monotonic_trend", "optbinning/binning/auto_monotonic.py:_is_peak"]}
{"id": "C30", "title": "Automatic trend selection returns an admissible trend", "statement": "For every data set, monotonic_trend='auto' resolves to one of ascending, descending, peak, valley and 'auto_asc_desc' to one of ascending, descending, so that a supported constraint is always added.", "quantifier": "all statistics vectors", "why_tests_cant": "All real feature vectors.", "anchors": ["optbinning/binning/auto_monotonic.py:auto_monotonic_decision", "optbinning/binning/auto_monotonic.py:auto_monotonic_asc_desc_decision"]}
{"id": "C31", "title": "Categories are partitioned by the bins", "statement": "For a fitted categorical variable every training category belongs to exactly one bin (regular bins plus 'others'), the bins listed by splits cover exactly the training categories, and the nominal code of a category is its rank by event rate.", "quantifier": "all category lists, all split lists", "why_tests_cant": "All data.", "anchors": ["optbinning/binning/binning_statistics.py:bin_categorical", "optbinning/binning/preprocessing.py:categorical_transform", "optbinning/binning/preprocessing.py:categorical_cutoff"]}
{"id": "C32", "title": "Unknown categories get the documented value", "statement": "transform of a category not seen in training returns cat_unknown if given, otherwise the average event rate / the WoE of the average event rate (0) / -1 / 'unknown'; the values of all other records are unaffected by cat_unknown.", "quantifier": "all data and option values", "why_tests_cant": "Depends on option types and on missing/special counts.", "anchors": ["optbinning/binning/transformations.py:transform_binary_target"]}
{"id": "C33", "title": "Scorecard points add up to the scaled model score", "statement": "score(X) equals an affine function of the linear predictor built from the coefficient-weighted bin metrics; with pdo_odds the score changes by pdo when the odds double and equals scorecard_points at the requested odds; with intercept_based=True scores are unchanged.", "quantifier": "all coefficients, intercepts, bin tables, scaling parameters, records", "why_tests_cant": "Continuum of inputs.", "anchors": ["optbinning/scorecard/scorecard.py:_compute_scorecard_points", "optbinning/scorecard/scorecard.py:_compute_intercept_based", "optbinning/scorecard/scorecard.py:Scorecard.score"]}
{"id": "C34", "title": "min_max scaled scores stay between min and max", "statement": "With scaling_method='min_max' and no rounding, every attainable score lies in [min, max] and both ends are attained; the same holds for the points returned by the rounding optimisation.", "quantifier": "all tables, coefficients, records", "why_tests_cant": "All combinations of bins.", "anchors": ["optbinning/scorecard/scorecard.py:_compute_scorecard_points", "optbinning/scorecard/rounding.py:RoundingMIP"]}
{"id": "C35", "title": "Outlier detectors flag exactly the records outside their interval", "statement": "RangeDetector/ModifiedZScoreDetector flag a record iff it lies strictly outside the computed bounds, so the unflagged values form an interval of the sorted data: a value between two unflagged values is unflagged.", "quantifier": "all arrays, all parameters", "why_tests_cant": "All arrays.", "anchors": ["optbinning/binning/outlier.py:RangeDetector", "optbinning/binning/outlier.py:ModifiedZScoreDetector"]}
{"id": "C36", "title": "PSI is a non-negative symmetric stability measure", "statement": "The PSI of ScorecardMonitoring is >= 0, is 0 iff actual and expected populations have the same distribution over bins, and is symmetric in actual/expected; the per-bin counts add up to the number of records.", "quantifier": "all count vectors", "why_tests_cant": "All count vectors.", "anchors": ["optbinning/scorecard/monitoring.py:ScorecardMonitoring._system_psi", "optbinning/scorecard/monitoring.py:ScorecardMonitoring._fit_variables"]}
{"id": "C37", "title": "KS statistic of the metrics module is the Kolmogorov-Smirnov distance", "statement": "metrics.ks returns the maximal difference of the cumulative non-event and event fractions, in [0,1], and 1 for perfect separation.", "quantifier": "all label sequences", "why_tests_cant": "All label sequences.", "anchors": ["optbinning/metrics/classification.py:ks"]}
{"id": "C38", "title": "Saving and loading a binning keeps its transformation", "statement": "An OptimalBinning restored with read_json from a file written by to_json transforms every value as the original did.", "quantifier": "all fitted objects, all inputs", "why_tests_cant": "Round trip over all states.", "anchors": ["optbinning/binning/binning.py:OptimalBinning.to_json", "optbinning/binning/binning.py:OptimalBinning.read_json", "optbinning/binning/binning.py:OptimalBinning.transform"]}
{"id": "C39", "title": "transform with event rate or WoE shows the table value of the bin", "statement": "For every value (regular, special, missing) of a fitted numerical variable, transform(metric='event_rate'|'woe') with empirical options returns the Event rate / WoE which binning_table.build() shows in the row that transform(metric='indices') assigns to the value; numeric metric_special/metric_missing replace the value of special/missing records only.", "quantifier": "all data sets, splits, values", "why_tests_cant": "Three code paths (fit, table, transform) must agree on all inputs.", "anchors": ["optbinning/binning/transformations.py:transform_binary_target", "optbinning/binning/binning_statistics.py:BinningTable.build", "optbinning/binning/binning.py:OptimalBinning.transform"]}
{"id": "C40", "title": "Histogram of the numerical sketch approximates the data", "statement": "BSketch.bins(splits) returns non-negative event and non-event counts per bin that add up to the clean counts, and each count differs from the exact histogram of the records by at most the eps-error of two rank queries; the bins use the same boundary convention as transform.", "quantifier": "all record sequences, all split vectors, all eps", "why_tests_cant": "The error bound quantifies over all histories; boundary ties are measure-zero in tests.", "anchors": ["optbinning/binning/distributed/bsketch.py:BSketch.bins", "optbinning/binning/distributed/bsketch.py:_indices_count", "optbinning/binning/distributed/binning_sketch.py:OptimalBinningSketch._compute_prebins"]}
{"id": "C41", "title": "A generated counterfactual has the requested outcome and respects the limits", "statement": "For every solution of Counterfactual.generate: each counterfactual changes at most max_changes features, none outside actionable_features, gives every changed feature exactly one of its other bins, and the reported score is the model score of the changed sample; it has the requested class, or satisfies the min/max outcome constraint (for probabilities up to the error of the piecewise linear approximation), and diversity constraints hold between any two of the counterfactuals.", "quantifier": "all linear models, binning tables, queries, outcome types, option combinations and numbers of counterfactuals; all feasible answers of the MIP solver", "why_tests_cant": "The MIP may return any feasible point; tests see the answer for a few queries.", "anchors": ["optbinning/scorecard/counterfactual/mip.py:CFMIP.build_model", "optbinning/scorecard/counterfactual/multi_mip.py:MCFMIP.build_model", "optbinning/scorecard/counterfactual/model_data.py:model_data", "optbinning/scorecard/counterfactual/counterfactual.py:Counterfactual.generate"]}
{"id": "C42", "title": "An optimal counterfactual is the closest admissible one", "statement": "With the weighted method, if the solver returns an optimal solution, the reported counterfactuals satisfy the request and no set of counterfactuals that satisfies the request (same number, limits, outcome and diversity) has smaller cost: weighted distance to the query, distance to the centre of the data and deviation from the target, minus the rewarded diversity. If any set of counterfactuals satisfies the request, the model is feasible.", "quantifier": "all linear models, binning tables, queries, weights and requests; all competing sets of counterfactuals", "why_tests_cant": "Optimality quantifies over all competing counterfactuals; the linearisation could silently exclude some.", "anchors": ["optbinning/scorecard/counterfactual/mip.py:CFMIP", "optbinning/scorecard/counterfactual/multi_mip.py:MCFMIP", "optbinning/scorecard/counterfactual/problem_data.py:problem_data"]}
{"id": "C43", "title": "Two-dimensional bins partition the plane and transform finds the bin", "statement": "After a successful fit of OptimalBinning2D every pair of known values (numbers other than inf, training categories) lies in exactly one bin of the table; transform(metric='indices') returns the number of that bin, metric='event_rate' and 'woe' the rate and weight of evidence of its row; pairs with missing values get the missing row, pairs with special codes the special row (or the given constants).", "quantifier": "all data sets, numerical and categorical axes, special codes, pre-binning split points, solver answers, and all pairs of values", "why_tests_cant": "All real pairs, all rectangle tilings a solver may return.", "anchors": ["optbinning/binning/multidimensional/binning_2d.py:OptimalBinning2D", "optbinning/binning/multidimensional/transformations_2d.py:transform_binary_target", "optbinning/binning/multidimensional/model_data_2d.py:model_data"]}
{"id": "C44", "title": "The two-dimensional binning table counts every record", "statement": "In the table of OptimalBinning2D the event and non-event counts of a bin are the numbers of clean records inside the bin with that target; the special and missing rows count the records with a special code / a missing value; the whole table counts every record exactly once.", "quantifier": "all data sets, special codes, pre-binnings and solver answers", "why_tests_cant": "Exact counting over all inputs.", "anchors": ["optbinning/binning/multidimensional/binning_2d.py:OptimalBinning2D._prebinning_matrices", "optbinning/binning/multidimensional/preprocessing_2d.py:split_data_2d"]}
{"id": "C45", "title": "Two-dimensional bins respect the size and count limits", "statement": "Every bin of a successful fit of OptimalBinning2D contains both target classes and respects min/max_bin_size, min/max_bin_n_event, min/max_bin_n_nonevent; the number of bins respects min_n_bins and max_n_bins.", "quantifier": "all data sets, options and feasible answers of CP and MIP", "why_tests_cant": "The solver may return any feasible point.", "anchors": ["optbinning/binning/multidimensional/model_data_2d.py:model_data", "optbinning/binning/multidimensional/cp_2d.py:Binning2DCP", "optbinning/binning/multidimensional/mip_2d.py:Binning2DMIP"]}
{"id": "C46", "title": "Requested two-dimensional trends hold between neighbouring bins and along every line", "statement": "With monotonic_trend_x / monotonic_trend_y the event rates of any two bins that touch in direction x / y follow the trend with at least min_event_rate_diff_x / _y; hence along any horizontal / vertical line the event rate of the bin is monotone.", "quantifier": "all data sets, trends, differences, feasible solver answers, pairs of points", "why_tests_cant": "Adjacency of rectangles is combinatorial; solver answers are arbitrary.", "anchors": ["optbinning/binning/multidimensional/model_data_2d.py:_connected_rectangles", "optbinning/binning/multidimensional/cp_2d.py:Binning2DCP.add_constraint_monotonic", "optbinning/binning/multidimensional/mip_2d.py:Binning2DMIP.add_constraint_monotonic"]}
{"id": "C47", "title": "The two-dimensional binning is optimal among all rectangular binnings of the grid", "statement": "With status OPTIMAL no tiling of the pre-binning grid by rectangles which respects the options has a larger divergence (minus gamma times the spread of bin sizes); with the CP solver up to one millionth per bin; with status INFEASIBLE no such tiling exists; the returned binning is such a tiling.", "quantifier": "all data sets, options, divergences and all competing tilings", "why_tests_cant": "Quantifies over exponentially many tilings.", "anchors": ["optbinning/binning/multidimensional/model_data_2d.py:model_data", "optbinning/binning/multidimensional/cp_2d.py:Binning2DCP.build_model", "optbinning/binning/multidimensional/mip_2d.py:Binning2DMIP.build_model"]}
{"id": "C48", "title": "The continuous binning respects the limits, the trend and the minimum mean difference", "statement": "For ContinuousOptimalBinning with status OPTIMAL or FEASIBLE: the number of intervals respects min_n_bins/max_n_bins, every Count min_bin_size/max_bin_size, the Means follow monotonic_trend (up to the rounding of the solver, 2e-6), neighbouring Means differ by at least min_mean_diff, fixed splits are kept and no pair of bins (consecutive or all, by policy) fails the t-test given max_pvalue; and every binning with these properties can be returned.", "quantifier": "all pre-bin statistics, options and feasible answers of the CP solver", "why_tests_cant": "The solver may return any feasible point; completeness quantifies over all admissible binnings.", "anchors": ["optbinning/binning/continuous_cp.py:ContinuousBinningCP.build_model", "optbinning/binning/model_data.py:continuous_model_data", "optbinning/binning/continuous_binning.py:ContinuousOptimalBinning._fit_optimizer"]}
{"id": "C49", "title": "The continuous binning is optimal", "statement": "With status OPTIMAL no admissible binning of the pre-bins has a larger sum over the bins of |bin mean - overall mean| (up to one millionth per bin); gamma > 0 trades this against the spread of the bin sizes.", "quantifier": "all pre-bin statistics, options and all competing binnings", "why_tests_cant": "Quantifies over exponentially many binnings.", "anchors": ["optbinning/binning/continuous_cp.py:ContinuousBinningCP.build_model", "optbinning/binning/model_data.py:continuous_model_data"]}
{"id": "C50", "title": "Every row of the continuous binning table summarises exactly its training records", "statement": "After ContinuousOptimalBinning.fit of a numerical variable, row k of the table has the count, sum, standard deviation, minimum, maximum and number of zeros of exactly the training targets whose records transform(metric='indices') sends to k; there is one row per interval and special group and one for missing values.", "quantifier": "all data sets, special codes, pre-binning split points, solver answers", "why_tests_cant": "Exact counting over all inputs through three code paths (pre-bins, accumulation, one-pass summaries).", "anchors": ["optbinning/binning/continuous_binning.py:ContinuousOptimalBinning._compute_prebins", "optbinning/binning/binning_statistics.py:continuous_bin_info", "optbinning/binning/binning_statistics.py:target_info_special_continuous"]}
{"id": "C51", "title": "Totals and information value of the continuous binning table", "statement": "The totals row shows count, sum, mean, zeros, minimum and maximum of all training targets. IV is the average distance between the mean of a record's row and the overall mean, non-negative, at most the mean absolute deviation of the targets, zero exactly if all rows with records have the overall mean, and merging bins never raises it; a variable without information has quality score factor 0.", "quantifier": "all data sets, special codes and fitted binnings", "why_tests_cant": "Real-valued identities and inequalities over all inputs.", "anchors": ["optbinning/binning/binning_statistics.py:ContinuousBinningTable.build", "optbinning/binning/binning_statistics.py:ContinuousBinningTable.analysis", "optbinning/binning/metrics.py:continuous_binning_quality_score"]}
{"id": "C52", "title": "transform(metric='mean') is the least-squares step function of the training data", "statement": "For every value transform(metric='mean') with empirical options returns the mean target of the training records with the same index; the transformed training values add up to the targets, lie between the least and greatest target, and no other assignment of numbers to the rows has a smaller sum of squared errors; given numbers for special/missing values are returned exactly for those.", "quantifier": "all data sets, values, and all competing assignments", "why_tests_cant": "All inputs, all competitors.", "anchors": ["optbinning/binning/transformations.py:transform_continuous_target", "optbinning/binning/continuous_binning.py:ContinuousOptimalBinning.transform"]}
{"id": "C53", "title": "Fitting the continuous binning succeeds and depends only on the data", "statement": "ContinuousOptimalBinning.fit succeeds for every data set with clean records, every user_splits and special_codes, and the table of a refitted object depends on the new data only; unknown targets affect only the missing row.", "quantifier": "all data sets, options and histories of fits", "why_tests_cant": "Histories of calls; rare shapes of data.", "anchors": ["optbinning/binning/continuous_binning.py:ContinuousOptimalBinning._fit", "optbinning/binning/continuous_binning.py:ContinuousOptimalBinning._compute_prebins", "optbinning/binning/binning_statistics.py:target_info_special_continuous"]}
{"id": "C54", "title": "The multiclass optimiser respects the limits of every class", "statement": "For a multiclass target the binning returned with status OPTIMAL/FEASIBLE is a partition into runs of pre-bins with a number of bins within min_n_bins/max_n_bins, keeps fixed user splits, and for every class against the rest satisfies the monotonic trend requested for that class, max_pvalue with its policy, and min_event_rate_diff between consecutive bins.", "quantifier": "all numbers of classes and pre-bins, all counts, all combinations of trends, all answers of the solver", "why_tests_cant": "Ranges over all integer programs of the formulation and all their solutions.", "anchors": ["optbinning/binning/multiclass_cp.py:MulticlassBinningCP.build_model", "optbinning/binning/multiclass_mip.py:MulticlassBinningMIP.build_model", "optbinning/binning/model_data.py:multiclass_model_data"]}
{"id": "C55", "title": "The multiclass optimum is the best binning admissible for all classes at once", "statement": "The binnings the multiclass program can return are exactly those admissible for every class simultaneously, its objective is the sum over the classes of the one-vs-rest information values, and status OPTIMAL means that no admissible binning has a larger sum.", "quantifier": "all multiclass problems and all competing binnings", "why_tests_cant": "Optimality ranges over all competitors.", "anchors": ["optbinning/binning/multiclass_cp.py:MulticlassBinningCP.build_model", "optbinning/binning/multiclass_mip.py:MulticlassBinningMIP.build_model", "optbinning/binning/multiclass_cp.py:MulticlassBinningCP.solve"]}
{"id": "C56", "title": "The multiclass binning table counts every record of a known class once, in the row transform sends it to", "statement": "After MulticlassOptimalBinning.fit, classes lists the labels of the records with a regular value in increasing order (at most 100, otherwise fit raises). Entry k of the column Event_c is the number of training records of class c whose value transform(metric='indices') sends to k; Count is their sum over the classes; the totals row shows the number of training records of each class; the event rates of a row with records add up to one, the shares of the rows too; unless the result is a single bin every regular row contains every class. A label which occurs only with special or missing values is counted nowhere (finding).", "quantifier": "all value lists, labels, special codes, pre-binnings, solver answers and user splits", "why_tests_cant": "The counts depend on the whole sample and on the interplay of four modules; tests compare a few tables.", "anchors": ["optbinning/binning/multiclass_binning.py:MulticlassOptimalBinning.fit", "optbinning/binning/binning_statistics.py:multiclass_bin_info", "optbinning/binning/binning_statistics.py:MulticlassBinningTable.build"]}
{"id": "C57", "title": "The multiclass transform averages the one-versus-rest WoE of the classes", "statement": "transform(metric='mean_woe') gives a value the mean over the classes of log((others in the bin / others) / (class in the bin / class)), 0 for a class absent from the bin or alone in it; 'weighted_mean_woe' the mean weighted by the class sizes; both lie between the smallest and largest class value. metric_special and metric_missing affect only special and missing values. With two classes mean_woe is always 0 (finding); read_json does not restore what transform needs (finding).", "quantifier": "all fitted objects and inputs of transform", "why_tests_cant": "The transform is a function of all training counts; the degenerate two-class case is an identity over all data.", "anchors": ["optbinning/binning/transformations.py:transform_multiclass_target", "optbinning/binning/multiclass_binning.py:MulticlassOptimalBinning.transform", "optbinning/binning/multiclass_binning.py:MulticlassOptimalBinning.read_json"]}
{"id": "C58", "title": "The scenario optimiser respects the limits in every scenario", "statement": "For SBOptimalBinning, an answer with status OPTIMAL/FEASIBLE is a partition into runs of pre-bins within min_n_bins/max_n_bins which keeps the splits marked as fixed and, in each scenario separately, keeps every bin within the size limits of that scenario, follows the monotonic trend (peak and valley turn at the same place in all scenarios), satisfies max_pvalue with its policy and min_event_rate_diff between consecutive bins.", "quantifier": "all numbers of scenarios and pre-bins, all counts, all options, all answers of the solver", "why_tests_cant": "Ranges over all integer programs of the formulation and all their solutions.", "anchors": ["optbinning/binning/cp.py:BinningCP.build_model_scenarios", "optbinning/binning/cp.py:BinningCP.add_constraint_min_max_bin_size_scenarios", "optbinning/binning/uncertainty/binning_scenarios.py:SBOptimalBinning._fit_optimizer"]}
{"id": "C59", "title": "The scenario optimum is the best binning admissible in all scenarios, for the given weights", "statement": "The binnings SBOptimalBinning's program can return are exactly those satisfying every constraint in every scenario; its objective is the sum over the scenarios of weight times information value; status OPTIMAL means no admissible binning has a larger weighted sum (each contribution rounded to 1e-6, weights as integers); without weights all scenarios count equally; for arbitrary positive weights the result is at least half as good as the best one.", "quantifier": "all scenario problems, weights and competing binnings", "why_tests_cant": "Optimality ranges over all competitors.", "anchors": ["optbinning/binning/cp.py:BinningCP.build_model_scenarios", "optbinning/binning/uncertainty/binning_scenarios.py:SBOptimalBinning._fit_optimizer"]}
{"id": "C60", "title": "The scenario tables count every record of the scenario once, in the row transform sends it to", "statement": "After SBOptimalBinning.fit, row k of binning_table_scenario(s) shows the numbers of non-events and events of scenario s which transform(metric='indices') sends to k, the totals are those of the scenario, binning_table shows the sums over all scenarios, and every regular row of every scenario contains both non-events and events.", "quantifier": "all scenarios, values, special codes, pre-binnings, solver answers and user splits", "why_tests_cant": "The counts depend on all samples and on several modules.", "anchors": ["optbinning/binning/uncertainty/binning_scenarios.py:SBOptimalBinning._fit", "optbinning/binning/uncertainty/binning_scenarios.py:SBOptimalBinning._compute_prebins", "optbinning/binning/uncertainty/binning_scenarios.py:SBOptimalBinning.binning_table_scenario", "optbinning/binning/uncertainty/binning_scenarios.py:SBOptimalBinning.transform"]}
{"id": "C61", "title": "The scenario tables satisfy the requested constraints", "statement": "In the tables of a solved SBOptimalBinning fit the number of regular rows is within min_n_bins/max_n_bins and, for every scenario, every regular row contains at least the fraction min_bin_size and at most max_bin_size (rounded up) of the records of that scenario, the event rates (to 1e-6) follow monotonic_trend with a turning row common to all scenarios, consecutive rows differ by min_event_rate_diff (up to 2e-6) and pass max_pvalue.", "quantifier": "all scenarios, data, options and solver answers", "why_tests_cant": "End-to-end over refinement, optimiser and table.", "anchors": ["optbinning/binning/uncertainty/binning_scenarios.py:SBOptimalBinning._fit", "optbinning/binning/uncertainty/binning_scenarios.py:SBOptimalBinning._fit_optimizer", "optbinning/binning/cp.py:BinningCP.build_model_scenarios"]}
{"id": "C62", "title": "Scenario fits succeed exactly on separable data and keep fixed splits", "statement": "SBOptimalBinning.fit succeeds if the candidate splits are not empty and each of their intervals contains non-events and events of every scenario, and it keeps every user split marked as fixed.", "quantifier": "all scenarios, candidate splits, flags", "why_tests_cant": "Rare shapes of data; order of user splits.", "anchors": ["optbinning/binning/uncertainty/binning_scenarios.py:SBOptimalBinning._compute_prebins", "optbinning/binning/uncertainty/binning_scenarios.py:SBOptimalBinning._fit", "optbinning/binning/uncertainty/binning_scenarios.py:SBOptimalBinning._fit_optimizer"]}
{"id": "C63", "title": "Variable selection keeps exactly the variables the criteria ask for", "statement": "After BinningProcess.fit, get_support() selects every variable if there are no selection_criteria; otherwise a variable that is not fixed is selected only if every given metric of its binning table lies between min and max; with only min/max it is selected exactly then; 'top' keeps the requested number (or proportion, rounded up) of the variables within the bounds and no discarded one is better than a kept one; fixed_variables are always selected; the order of the keys is irrelevant; an accepted 'top' never discards everything. 'top' without 'strategy' is silently ignored (finding).", "quantifier": "all variables, metric values, criteria, fixed variables, sorting permutations (ties)", "why_tests_cant": "The criteria interact; ties and proportions depend on all variables at once.", "anchors": ["optbinning/binning/binning_process.py:BinningProcess._support_selection_criteria", "optbinning/binning/binning_process.py:_check_selection_criteria", "optbinning/binning/binning_process.py:BinningProcess.get_support"]}
{"id": "C64", "title": "transform of a data set transforms each selected column with the arguments of its variable", "statement": "BinningProcess.transform returns one column per selected variable, in the order and under the names of get_support(names=True), with one row per record; column j is the transform of the column of that variable by its own binning object with the arguments of binning_transform_params for it, else those of the call.", "quantifier": "all data sets (arrays and data frames), selections, parameters per variable", "why_tests_cant": "Ranges over all combinations of parameters given for some variables only.", "anchors": ["optbinning/binning/binning_process.py:BinningProcess._transform"]}
{"id": "C65", "title": "transform_disk writes the transformed rows whatever the chunk size", "statement": "BinningProcess.transform_disk appends to the output file a header and one line per record of the input, in order, which is the row transform would give; the result does not depend on chunksize.", "quantifier": "all files, chunk sizes, selections, parameters per variable", "why_tests_cant": "Ranges over all ways to cut a file into chunks.", "anchors": ["optbinning/binning/binning_process.py:BinningProcess._transform_disk"]}
{"id": "C66", "title": "Fitting many variables treats each one separately, whatever the number of workers", "statement": "BinningProcess.fit gives every variable the binning object fitted on its own column; the result does not depend on n_jobs, on the order of the columns of a data frame, on passing an array or a data frame, or on using fit_disk; the options of a variable are those of binning_fit_params, else those of the process, else the defaults; fit_from_dict accepts exactly objects of one class under the names of the variables. max_bin_size of the process is never used (finding).", "quantifier": "all data sets, numbers of workers, options", "why_tests_cant": "Schedules of the workers and block sizes cannot be enumerated.", "anchors": ["optbinning/binning/binning_process.py:BinningProcess._fit", "optbinning/binning/binning_process.py:_fit_block", "optbinning/binning/binning_process.py:_fit_variable", "optbinning/binning/binning_process.py:BinningProcess._fit_disk", "optbinning/binning/binning_process.py:BinningProcess._fit_from_dict"]}
{"id": "C67", "title": "In every history the selection is the one for the current binning objects", "statement": "After any sequence of fit, fit_disk, fit_from_dict, update_binned_variable and summary on a BinningProcess, get_support() and summary() show the selection for the metrics of the current objects (summary recomputes it after updates), an update replaces exactly one object and is accepted only for a matching class and name.", "quantifier": "all histories of calls", "why_tests_cant": "Stale caches show only in particular sequences of calls.", "anchors": ["optbinning/binning/binning_process.py:BinningProcess.update_binned_variable", "optbinning/binning/binning_process.py:BinningProcess.summary", "optbinning/binning/binning_process.py:BinningProcess._binning_selection_criteria"]}
{"id": "C68", "title": "The table of a streaming object accounts for every record it was given", "statement": "After any sequence of add and solve calls on an OptimalBinningSketch (numerical variable), the binning table of a later solve has one row per bin followed by a special and a missing row; the special and missing rows hold exactly the special and missing records given to add, and each column adds up to the number of records of the class.", "quantifier": "all histories of add/solve, batch sizes, data, special codes, eps and solver answers", "why_tests_cant": "Counts come from compressed sketches whose state depends on the order and batching of the whole stream; a test sees a few streams.", "anchors": ["optbinning/binning/distributed/binning_sketch.py:OptimalBinningSketch.add", "optbinning/binning/distributed/binning_sketch.py:OptimalBinningSketch.solve", "optbinning/binning/distributed/bsketch.py:BSketch.add", "optbinning/binning/distributed/bsketch.py:BSketch.bins"]}
{"id": "C69", "title": "Streaming splits are approximate quantiles and rows are approximately right", "statement": "The splits of solve are ordered values of the stream whose rank is within 3*eps*(n-1) of the requested quantiles, and every row of the table (and every cumulative count) is within 2*eps*(n-1) of the true number of records of the class, n being the number of used records of the class.", "quantifier": "all histories of add/solve, data and eps > 0", "why_tests_cant": "An error bound for all streams cannot be tested by sampling streams.", "anchors": ["optbinning/binning/distributed/binning_sketch.py:OptimalBinningSketch._prebinning_data", "optbinning/binning/distributed/bsketch.py:BSketch.bins", "optbinning/binning/distributed/bsketch.py:BSketch.merge_sketches"]}
{"id": "C70", "title": "solve succeeds exactly when there is data of both classes and returns no pure bins", "statement": "solve returns a table iff both classes have a non-missing non-special record; with divergence iv or js every regular row then has events and non-events and the splits are distinct; otherwise it raises (NotFittedError, ValueError or IndexError, depending on what is missing and on the divergence) and the object keeps its data.", "quantifier": "all histories of add/solve and data", "why_tests_cant": "Termination and success of the recursive refinement depend on every reachable sketch state.", "anchors": ["optbinning/binning/distributed/binning_sketch.py:OptimalBinningSketch._compute_prebins", "optbinning/binning/distributed/binning_sketch.py:OptimalBinningSketch.solve"]}
{"id": "C71", "title": "Options limit the table of a streaming object", "statement": "If solve reports OPTIMAL or FEASIBLE (with more than one pre-bin), the table respects min/max_n_bins, min/max_bin_size, min/max_bin_n_event/nonevent, the monotonic trend, min_event_rate_diff and max_pvalue; with any other status there is one bin.", "quantifier": "all histories, options and solver answers consistent with the constraints", "why_tests_cant": "The limits must hold for every stream and every feasible answer of the external solver.", "anchors": ["optbinning/binning/distributed/binning_sketch.py:OptimalBinningSketch._fit_optimizer", "optbinning/binning/distributed/binning_sketch.py:OptimalBinningSketch.solve"]}
{"id": "C72", "title": "Batching, repeated solving and merging do not lose records", "statement": "Splitting a batch into consecutive batches does not change any later solve; solving in between keeps the records; after merging objects the regular rows of a class add up to its used records, up to an excess of 2*eps*(n-1), and the special and missing rows count the special and missing records of all merged objects that have a used record.", "quantifier": "all histories of add, solve and merge", "why_tests_cant": "Ranges over all histories of calls.", "anchors": ["optbinning/binning/distributed/binning_sketch.py:OptimalBinningSketch.merge", "optbinning/binning/distributed/binning_sketch.py:OptimalBinningSketch.add", "optbinning/binning/distributed/bsketch.py:BSketch.merge"]}
{"id": "C73", "title": "The table of a categorical streaming object accounts for every category and record", "statement": "After any program of creations, chunks and merges, the groups of categories shown in the table partition the categories of the records, the row 'others' has exactly the categories below the cut-off, the groups are ordered by event rate, every row counts exactly the records of the categories it shows, the rows of a class add up to its records, and transform(metric='indices') sends a category to the row that shows it.", "quantifier": "all programs of creations, chunks and merges in which no merged object is used again, all records, special codes, cut-offs and solver answers", "why_tests_cant": "Ranges over all histories, category sets and chunkings; group boundaries depend on the order of event rates.", "anchors": ["optbinning/binning/distributed/binning_sketch.py:OptimalBinningSketch.solve", "optbinning/binning/distributed/binning_sketch.py:OptimalBinningSketch._compute_cat_prebins", "optbinning/binning/distributed/bsketch.py:BCatSketch.bins"]}
{"id": "C74", "title": "When solve succeeds for a categorical streaming object", "statement": "Unless cat_heuristic is combined with divergence 'hellinger' or 'triangular', the optimisation in solve succeeds exactly if there is no category to bin or both classes have a record in a category to bin (categories below the cut-off do not count); otherwise it raises IndexError. The call as a whole, which ends by building the table, completes exactly if both classes have a record in a category to bin, or there is no category to bin and records of both classes were added; without a category to bin and with one class only it raises ValueError. With that combination and at most max_n_prebins categories, a category without records of one class raises UnboundLocalError.", "quantifier": "all programs, records, cut-offs and options", "why_tests_cant": "Ranges over all histories and category counts.", "anchors": ["optbinning/binning/distributed/binning_sketch.py:OptimalBinningSketch._compute_cat_prebins", "optbinning/binning/distributed/binning_sketch.py:OptimalBinningSketch.solve"]}
{"id": "C75", "title": "The options of a categorical streaming object hold for its table", "statement": "If the status is OPTIMAL or FEASIBLE and there is more than one pre-bin, the number of regular rows, their records, events and non-events, the monotonic trend, the minimum event rate difference and the p-value test obey the options; with any other status there is no split.", "quantifier": "all programs, records, options and solver answers that respect the built model", "why_tests_cant": "Ranges over all histories and all answers of an external solver.", "anchors": ["optbinning/binning/distributed/binning_sketch.py:OptimalBinningSketch._fit_optimizer", "optbinning/binning/distributed/binning_sketch.py:OptimalBinningSketch.solve"]}
{"id": "C76", "title": "A streaming process treats every variable as if it were alone", "statement": "After any history of add, merge and solve calls without exceptions, the object of a variable is in the state of a single OptimalBinningSketch that received exactly the columns of this variable, its counterparts in the merged processes and the calls of solve; other columns and the order of the columns have no effect, chunks may lack variables, and for numerical variables the table after solve is the one such a single object computes. information() counts the rows and calls of add.", "quantifier": "all histories of calls, chunks, variable lists and methods of the single objects", "why_tests_cant": "Ranges over all histories of chunks with changing columns and of merged processes.", "anchors": ["optbinning/binning/distributed/binning_process_sketch.py:BinningProcessSketch.add", "optbinning/binning/distributed/binning_process_sketch.py:BinningProcessSketch.merge", "optbinning/binning/distributed/binning_process_sketch.py:BinningProcessSketch.solve"]}
{"id": "C77", "title": "When a streaming process is solved, and what it selects", "statement": "solve succeeds exactly if data was added, no selection_criteria are given and every variable can be solved and analysed; in particular every variable must have been in a chunk. A solved process selects all variables, in their order. With selection_criteria no history of calls leads to a solved process.", "quantifier": "all histories of calls (also with exceptions that the caller catches)", "why_tests_cant": "Ranges over all histories of calls.", "anchors": ["optbinning/binning/distributed/binning_process_sketch.py:BinningProcessSketch.solve", "optbinning/binning/binning_process.py:BaseBinningProcess._binning_selection_criteria", "optbinning/binning/distributed/binning_process_sketch.py:BinningProcessSketch.get_support"]}
{"id": "C78", "title": "State of a streaming process after an exception", "statement": "If add, merge or solve of a process raises, the variables before the one that raised have been treated, the later ones are unchanged, and the counters, the solved flag and the selection are those from before the call.", "quantifier": "all states, chunks, other processes and crash points", "why_tests_cant": "Every variable can be the crash point.", "anchors": ["optbinning/binning/distributed/binning_process_sketch.py:BinningProcessSketch.add", "optbinning/binning/distributed/binning_process_sketch.py:BinningProcessSketch.merge", "optbinning/binning/distributed/binning_process_sketch.py:BinningProcessSketch.solve"]}
{"id": "C79", "title": "transform of a streaming process", "statement": "After any history, transform returns exactly if the process is solved, the metric is event_rate or woe, all variables are columns and all are transformed to numbers; the result has one column per variable, in the order and with the names of the variables, each the transformation by the object of this variable with its own metric (or that of the call) and the metric_special and metric_missing of its binning_transform_params if all or no variables have them.", "quantifier": "all histories, data frames, parameters", "why_tests_cant": "Ranges over all histories and parameter dictionaries.", "anchors": ["optbinning/binning/distributed/binning_process_sketch.py:BinningProcessSketch.transform"]}
{"id": "C80", "title": "The table of a piecewise binning counts the training records of each row", "statement": "After OptimalPWBinning.fit (no outlier detector) every row of the binning table - intervals of the split points, groups of special codes, missing values - counts exactly the training records of each class whose value belongs to the row, the totals are the class totals of the training data, and column c0 of the special and missing rows is their event rate (0 if one class is absent), the other coefficient columns are 0 there.", "quantifier": "all training sets, split points, special codes, solver answers and regression results", "why_tests_cant": "Ranges over all data sets and all answers of external solvers.", "anchors": ["optbinning/binning/piecewise/binning.py:OptimalPWBinning._fit", "optbinning/binning/piecewise/binning_statistics.py:PWBinningTable.build"]}
{"id": "C81", "title": "transform of a piecewise binning: polynomial of the interval, bounds, monotonicity, continuity", "statement": "transform(metric='event_rate') maps a clean value to the polynomial of its interval moved to the nearest number within lb and ub; it is increasing (decreasing) if the pieces are and do not jump the other way at split points, and continuous if neighbouring pieces agree at the split points.", "quantifier": "all values, split points, coefficients, bounds and special codes", "why_tests_cant": "Ranges over all real values and all polynomials.", "anchors": ["optbinning/binning/piecewise/transformations.py:transform_binary_target", "optbinning/binning/piecewise/transformations.py:_apply_transform"]}
{"id": "C82", "title": "metric_special and metric_missing of a piecewise binning", "statement": "A number given as metric_special or metric_missing is returned for special or missing values, unchanged also with metric='woe'; 'empirical' returns the event rate of the training records of the special group or of the missing records.", "quantifier": "all training sets, special codes, values and options", "why_tests_cant": "Ranges over all data sets and options.", "anchors": ["optbinning/binning/piecewise/binning.py:OptimalPWBinning.transform", "optbinning/binning/piecewise/transformations.py:transform_binary_target"]}
{"id": "C83", "title": "WoE of a piecewise binning", "statement": "With metric='woe' a clean value gets log of the odds of a non-event at its transformed event rate relative to the sample odds; with bounds 0 < lb <= ub < 1 it is finite, lies between the WoE of ub and of lb and is antitone in the event rate; with valid options transform raises only if metric_missing='empirical' and there is no missing non-event in the training data. A fitted object has records of both classes.", "quantifier": "all fitted objects, values, bounds and options", "why_tests_cant": "Ranges over all real values and fitted objects.", "anchors": ["optbinning/binning/piecewise/transformations.py:transform_binary_target", "optbinning/binning/transformations.py:transform_event_rate_to_woe"]}
{"id": "C84", "title": "Reported divergences of a piecewise binning", "statement": "The reported divergences (IV, JS, Hellinger, triangular) are non-negative for every fitted object, and zero exactly if every clean record has the overall event rate and every mixed special group and the missing records have the same share of both classes.", "quantifier": "all training sets, coefficients, divergences", "why_tests_cant": "Ranges over all data sets and all rates.", "anchors": ["optbinning/binning/piecewise/metrics.py:binary_metrics", "optbinning/binning/piecewise/metrics.py:divergences_asymptotic"]}
{"id": "C85", "title": "Piecewise binning with a continuous target", "statement": "After ContinuousOptimalPWBinning.fit (no outlier detector) split points and rows are those of ContinuousOptimalBinning with the same parameters: every row summarises exactly the targets of its training records, Count, Sum and Zeros count of the totals are those of all targets, Min and Max those of the clean ones; transform maps a clean value to the polynomial of its interval within the bounds, special and missing values to the mean of their training targets (empirical) or the given number; fit_transform is fit followed by transform.", "quantifier": "all training sets, special codes, values, bounds, options, solver answers and regression results", "why_tests_cant": "Ranges over all data sets and all answers of external solvers.", "anchors": ["optbinning/binning/piecewise/continuous_binning.py:ContinuousOptimalPWBinning._fit", "optbinning/binning/piecewise/transformations.py:transform_continuous_target", "optbinning/binning/piecewise/binning_statistics.py:PWContinuousBinningTable.build"]}
{"id": "C86", "title": "Significance tests of a piecewise table compare neighbouring bins", "statement": "analysis() of a piecewise binning table tests exactly the pairs of neighbouring regular bins.", "quantifier": "all tables and special codes", "why_tests_cant": "Ranges over all numbers of bins and groups of special codes.", "anchors": ["optbinning/binning/piecewise/binning_statistics.py:PWBinningTable.analysis", "optbinning/binning/piecewise/binning_statistics.py:PWContinuousBinningTable.analysis"]}
{"id": "C87", "title": "Two-dimensional bins for a continuous target partition the plane and transform finds the bin", "statement": "After ContinuousOptimalBinning2D.fit with status OPTIMAL or FEASIBLE every pair of known values lies in exactly one bin; transform(metric='indices') returns its position and transform(metric='mean') the mean target of the training records in it; special and missing pairs get the given numbers or, with 'empirical', the mean of the special or missing training records; a pair with an unknown category or infinite x gets index 0 and mean 0.", "quantifier": "all training sets, pre-binnings, options, solver answers and values", "why_tests_cant": "Ranges over all data sets, values and answers of external solvers.", "anchors": ["optbinning/binning/multidimensional/continuous_binning_2d.py:ContinuousOptimalBinning2D._fit", "optbinning/binning/multidimensional/transformations_2d.py:transform_continuous_target"]}
{"id": "C88", "title": "The table of a two-dimensional binning with a continuous target describes the training targets", "statement": "Row i of the table holds the number, sum and population variance of the targets of exactly the clean training records in bin i; the special and missing rows describe the special and missing records; the counts add up to the number of records plus the number of records which are special and missing at once, the sums likewise if no target is missing; WoE, IV and their totals are the distances from the total mean, weighted by the share of records for the IV.", "quantifier": "all training sets, special codes, options and solver answers", "why_tests_cant": "Ranges over all data sets.", "anchors": ["optbinning/binning/multidimensional/continuous_binning_2d.py:ContinuousOptimalBinning2D._fit", "optbinning/binning/multidimensional/binning_statistics_2d.py:ContinuousBinningTable2D.build", "optbinning/binning/multidimensional/model_data_2d.py:continuous_model_data"]}
{"id": "C89", "title": "Bin limits and trends of a two-dimensional binning with a continuous target", "statement": "Every bin has a record and respects min_bin_size and max_bin_size (the latter rounded up to whole records), the number of bins respects min_n_bins and max_n_bins, neighbouring bins follow the requested trends with the minimum difference of means, and along lines parallel to an axis the mean never moves against the trend of that axis.", "quantifier": "all training sets, options and solver answers", "why_tests_cant": "Ranges over all data sets and solver answers.", "anchors": ["optbinning/binning/multidimensional/model_data_2d.py:continuous_model_data", "optbinning/binning/multidimensional/cp_2d.py:Binning2DCP.build_model", "optbinning/binning/multidimensional/mip_2d.py:Binning2DMIP.build_model"]}
{"id": "C90", "title": "Optimality of a two-dimensional binning with a continuous target", "statement": "Status OPTIMAL means that among all tilings of the grid of pre-bins which satisfy the limits and trends none has a larger sum over its bins of the distance between the mean of the bin and the overall mean (minus, with gamma, the weighted difference of largest and smallest bin); status INFEASIBLE means that no such tiling exists; with the integer coefficients of the CP model the sum is optimal up to one millionth per bin.", "quantifier": "all training sets, options and solver answers; all tilings of the grid", "why_tests_cant": "Ranges over all tilings of grids of any size.", "anchors": ["optbinning/binning/multidimensional/model_data_2d.py:continuous_model_data", "optbinning/binning/multidimensional/cp_2d.py:Binning2DCP", "optbinning/binning/multidimensional/mip_2d.py:Binning2DMIP"]}
{"id": "C91", "title": "Significance tests of a two-dimensional table compare neighbouring bins", "statement": "analysis() of a two-dimensional binning table (binary or continuous target) tests exactly the ordered pairs of bins (A, B) such that B begins along x or y where A ends and they share an interval of the other axis, each pair once, in lexicographic order, and each test uses the statistics of the training records in the two bins.", "quantifier": "all successful fits", "why_tests_cant": "Ranges over all tilings of grids of any size.", "anchors": ["optbinning/binning/multidimensional/binning_statistics_2d.py:get_paths", "optbinning/binning/multidimensional/binning_statistics_2d.py:get_pairs", "optbinning/binning/multidimensional/binning_statistics_2d.py:BinningTable2D.analysis", "optbinning/binning/multidimensional/binning_statistics_2d.py:ContinuousBinningTable2D.analysis"]}
{"id": "C92", "title": "Number of refinements of a two-dimensional binning", "statement": "The number of refinements reported for a two-dimensional binning is the number of rectangular blocks of pre-bins which cannot be a bin, because they have no record (for a binary target: no event or no non-event) or violate a limit on records, events or non-events.", "quantifier": "all training sets and options", "why_tests_cant": "Ranges over grids of any size.", "anchors": ["optbinning/binning/multidimensional/binning_2d.py:OptimalBinning2D._fit", "optbinning/binning/multidimensional/continuous_binning_2d.py:ContinuousOptimalBinning2D._fit", "optbinning/binning/multidimensional/model_data_2d.py:model_data"]}
{"id": "C93", "title": "Two-dimensional binning with strategy cart", "statement": "With strategy 'cart', after a successful fit: every pair of known values lies in exactly one bin, and transform returns the index, event rate, WoE or mean of that bin; the rows of the table count the training records of their bins; the limits on records, events, non-events and number of bins hold; the trends hold between neighbouring bins; two pairs of values which the decision tree sends to the same leaf lie in the same bin; and every bin joins at least two leaves.", "quantifier": "all training sets, options, decision trees of any size, special codes and values", "why_tests_cant": "Ranges over decision trees and grids of any size.", "anchors": ["optbinning/binning/multidimensional/model_data_cart_2d.py:get_rectangles", "optbinning/binning/multidimensional/model_data_cart_2d.py:get_matrix", "optbinning/binning/multidimensional/model_data_cart_2d.py:model_data_cart", "optbinning/binning/multidimensional/model_data_cart_2d.py:continuous_model_data_cart", "optbinning/binning/multidimensional/binning_2d.py:OptimalBinning2D._fit", "optbinning/binning/multidimensional/continuous_binning_2d.py:ContinuousOptimalBinning2D._fit"]}
{"id": "C94", "title": "Optimality of two-dimensional binning with strategy cart", "statement": "With strategy 'cart', when the status is OPTIMAL no rectangular binning whose bins are unions of at least two leaves of the decision tree and respect all limits and trends has a larger divergence (minus gamma times the spread of bin sizes) than the binning returned; when it is INFEASIBLE no such binning exists; apart from the trend in x the binning returned is one of them.", "quantifier": "all training sets, options, decision trees of any size and binnings", "why_tests_cant": "Ranges over all binnings of grids of any size.", "anchors": ["optbinning/binning/multidimensional/model_data_cart_2d.py:model_data_cart", "optbinning/binning/multidimensional/model_data_cart_2d.py:continuous_model_data_cart", "optbinning/binning/multidimensional/cp_2d.py:Binning2DCP", "optbinning/binning/multidimensional/mip_2d.py:Binning2DMIP"]}
{"id": "C95", "title": "Percentage metrics of a regression", "statement": "regression_metrics reports under each name the metric of that name: MAPE and MPE are the averages of the absolute and signed relative errors, MdAPE their median, SMAPE and SMdAPE average and median of |y-p|/(|y|+|p|); MAPE is NaN exactly for no data or a truth of zero predicted as zero, infinite exactly if another truth is zero; SMAPE lies in [0,1]; a finite MAPE or SMAPE is zero exactly for perfect predictions; |MPE| <= MAPE; the symmetric metrics do not change when truths and predictions are exchanged, and none changes with the unit of measurement.", "quantifier": "all lists of truths and predictions", "why_tests_cant": "Ranges over samples of any size and any values.", "anchors": ["optbinning/metrics/regression.py:mean_absolute_percentage_error", "optbinning/metrics/regression.py:median_absolute_percentage_error", "optbinning/metrics/regression.py:mean_percentage_error", "optbinning/metrics/regression.py:symmetric_mean_absolute_percentage_error", "optbinning/metrics/regression.py:symmetric_median_absolute_percentage_error", "optbinning/metrics/regression.py:regression_metrics"]}
{"id": "C96", "title": "Tables of scorecard monitoring", "statement": "After ScorecardMonitoring.fit row i of the table of significance tests holds, for the records of the actual and the expected sample whose score lies in the i-th score interval, their numbers, event rates and the squared two-sample statistic for equal proportions (continuous target: number, mean and standard deviation of the targets); the statistic is between 0 and the number of records, zero exactly for equal rates and symmetric in the samples; fit raises ValueError exactly if a non-empty interval lacks records of one sample, events or non-events; the target table holds the numbers and shares of records, events, non-events; the shares of the PSI table add up to one and its total is the sum of its terms; the detailed table of a variable holds its bins and no others and its summary is their total if no bin is empty in both samples; the PSI histogram counts every bin once.", "quantifier": "all score splits, samples and variables", "why_tests_cant": "Ranges over samples and numbers of bins of any size.", "anchors": ["optbinning/scorecard/monitoring.py:ScorecardMonitoring._fit_system", "optbinning/scorecard/monitoring.py:ScorecardMonitoring._system_tests_binary", "optbinning/scorecard/monitoring.py:ScorecardMonitoring._system_tests_continuous", "optbinning/scorecard/monitoring.py:ScorecardMonitoring._system_target_binary", "optbinning/scorecard/monitoring.py:ScorecardMonitoring._fit_variables", "optbinning/scorecard/monitoring.py:ScorecardMonitoring.psi_variable_table", "optbinning/scorecard/monitoring.py:print_psi_report"]}
{"id": "C97", "title": "Gini coefficient", "statement": "metrics.gini(y, scores) is defined exactly if both classes occur, and is then (concordant - discordant pairs) / (events * non-events); it lies in [-1, 1], is 1 (-1) exactly if every event has a larger (smaller) score than every non-event, depends only on the ranking and not on the order of the records, changes its sign when the ranking is reversed, and is 0 for constant scores.", "quantifier": "all samples of scored records", "why_tests_cant": "Ranges over samples of any size with any ties.", "anchors": ["optbinning/metrics/classification.py:gini"]}
{"id": "C98", "title": "A monitoring object across fits", "statement": "After a successful ScorecardMonitoring.fit all tables are those of a new object fitted with the same arguments, whatever happened before; the accessors raise NotFittedError exactly as long as no fit has succeeded; a call rejected by the argument checks changes nothing, and a fit which fails later leaves the object as it was.", "quantifier": "all histories of successful and failed calls", "why_tests_cant": "Ranges over histories of any length.", "anchors": ["optbinning/scorecard/monitoring.py:ScorecardMonitoring.fit", "optbinning/scorecard/monitoring.py:ScorecardMonitoring._fit_system", "optbinning/scorecard/monitoring.py:ScorecardMonitoring._check_is_fitted"]}
{"id": "C99", "title": "Significance tests of a binary binning table", "statement": "BinningTable.analysis tests exactly the pairs of neighbouring regular bins (never the special, missing or others rows): the chi-square statistic is the squared two-sample statistic for equal event rates, zero exactly if the event rates agree; P[A > B] is the midpoint-rule probability that the event rate of the first bin is larger, P[B > A] its complement; they lie in [0,1] and do not depend on the random shuffling; Cramer's V of the regular bins lies in [0,1], is 0 exactly if all event rates agree and 1 exactly if every bin is pure; the quality score is in [0,1] unless a p-value is NaN; with valid arguments the chi-square analysis raises exactly for (at least two regular bins with records and) an empty regular bin or two neighbouring bins which together lack events or non-events. After a successful fit with any divergence and any other arguments it never raises, and if a max_pvalue was given every reported p-value respects it.", "quantifier": "all binning tables, tests, numbers of samples and all training sets and options of fit", "why_tests_cant": "Ranges over tables with any number of bins and any counts.", "anchors": ["optbinning/binning/binning_statistics.py:BinningTable.analysis", "optbinning/binning/metrics.py:frequentist_pvalue", "optbinning/binning/metrics.py:chi2_cramer_v", "optbinning/binning/metrics.py:bayesian_probability", "optbinning/binning/metrics.py:binning_quality_score"]}
{"id": "C100", "title": "Significance tests of a multiclass binning table", "statement": "MulticlassBinningTable.analysis tests exactly the pairs of neighbouring regular bins: the statistic is the chi-square homogeneity statistic of the class distributions of the two bins, zero exactly if these agree; Cramer's V lies in [0,1] and is zero exactly if all bins have the same class distribution; with at least two bins holding records it raises exactly if a regular bin is empty or two neighbouring bins together lack a class, which cannot happen after a successful fit.", "quantifier": "all binning tables and all training sets and options of fit", "why_tests_cant": "Ranges over tables with any number of bins and classes.", "anchors": ["optbinning/binning/binning_statistics.py:MulticlassBinningTable.analysis", "optbinning/binning/metrics.py:chi2_cramer_v_multi"]}
{"id": "C101", "title": "Significance tests of a continuous binning table", "statement": "ContinuousBinningTable.analysis tests exactly the pairs of neighbouring regular bins: the statistic is the difference of the two bin means divided by the root of the sum of (standard deviation of the bin)^2 / records of the bin; it is positive, zero or negative exactly as the mean of the first bin is larger than, equal to or smaller than that of the second.", "quantifier": "all binning tables", "why_tests_cant": "Ranges over tables with any number of bins and any records.", "anchors": ["optbinning/binning/binning_statistics.py:ContinuousBinningTable.analysis", "optbinning/binning/binning_statistics.py:ContinuousBinningTable.build"]}
{"id": "C102", "title": "Constructor arguments of OptimalBinning", "statement": "Numeric and choice arguments of OptimalBinning within the documented ranges are accepted by fit, all others are refused with ValueError before anything is computed. After a successful fit of N records with at least two bins, whatever the divergence, solver and other arguments: the number of bins lies within min_n_bins and max_n_bins; every bin has at least min_bin_size*N and at most max_bin_size*N records (rounded up to a record), and its events and non-events lie within min/max_bin_n_event and min/max_bin_n_nonevent; every bin contains at least one event and one non-event; with monotonic_trend ascending, descending or auto_asc_desc the event rates of the table have that order (exactly with solver mip, up to 1e-6 with cp); neighbouring event rates differ by at least min_event_rate_diff (same precision); with max_pvalue the p-value of the proportion test of neighbouring bins (all pairs with policy all) does not exceed it.", "quantifier": "all constructor arguments, all training sets, all special codes, all pre-binnings and all answers of the external solver", "why_tests_cant": "Ranges over all combinations of some twenty constructor arguments with all data sets.", "anchors": ["optbinning/binning/binning.py:_check_parameters", "optbinning/binning/binning.py:OptimalBinning._fit_optimizer", "optbinning/binning/binning.py:OptimalBinning.fit"]}
{"id": "C103", "title": "The table of a fit with status OPTIMAL is the best one", "statement": "If OptimalBinning.fit of a numerical variable reports status OPTIMAL (gamma=0), then among all tables obtained by cutting the same records at any selection of the pre-binning splits (after removal of pre-bins with one class only) that meets the constructor arguments, none has a larger divergence (the one chosen by `divergence`) than the table at the returned splits; with solver cp up to 1e-6 per bin. If there are no special or missing records, this is the divergence the built binning table reports.", "quantifier": "all constructor arguments, all training sets, all pre-binnings, all answers of the external solver, all competing selections of splits", "why_tests_cant": "The competitors are all subsets of the pre-binning splits; a test can compare a few of them on one data set.", "anchors": ["optbinning/binning/binning.py:OptimalBinning._fit", "optbinning/binning/mip.py:BinningMIP", "optbinning/binning/cp.py:BinningCP", "optbinning/binning/model_data.py:model_data", "optbinning/binning/binning_statistics.py:BinningTable.build"]}
{"id": "C104", "title": "Constructor arguments of ContinuousOptimalBinning and the table", "statement": "ContinuousOptimalBinning accepts exactly the documented ranges of its arguments (except that NaN and infinities pass for min_mean_diff, gamma and time_limit) and otherwise fit raises ValueError.  If a fit keeps at least one split, the table meets the arguments: the number of bins is within min_n_bins/max_n_bins; every bin has at least min_bin_size*N records and less than one record more than max_bin_size*N; the Means, truncated to six digits, follow monotonic_trend (every explicit value, and one of the allowed shapes for auto, auto_heuristic, auto_asc_desc); Means of neighbouring bins differ by at least min_mean_diff; the p-value of the t-test computed from the Count, Mean and standard deviation of two neighbouring bins (any two with policy all) is at most max_pvalue.", "quantifier": "all constructor arguments, all training sets, special codes, outlier detectors, pre-binnings and answers of the external solver", "why_tests_cant": "A test exercises a few argument combinations on one data set and one solver run; the claim ranges over all of them and over the automatic trend decision.", "anchors": ["optbinning/binning/continuous_binning.py:_check_parameters", "optbinning/binning/continuous_binning.py:ContinuousOptimalBinning._fit_optimizer", "optbinning/binning/auto_monotonic.py:auto_monotonic_continuous", "optbinning/binning/continuous_cp.py:ContinuousBinningCP"]}
{"id": "C105", "title": "Status OPTIMAL of ContinuousOptimalBinning", "statement": "If ContinuousOptimalBinning.fit reports status OPTIMAL, the returned splits are the best selection of the pre-binning splits (all of them if no pre-bin is empty): no selection of these cut points which meets the arguments (bin counts and sizes, trend None/ascending/descending, or peak/valley if the targets do not take both signs, min_mean_diff, max_pvalue, any gamma) has a larger sum over its intervals of the distance between the mean target of the interval and the overall mean, up to 1e-6 per interval.  The information value of the table, which weights the distances by the share of records, is not maximised.", "quantifier": "all constructor arguments with these trends, all unweighted training sets, special codes, outlier detectors, sorted pre-binnings and answers of a solver that respects the model", "why_tests_cant": "Optimality quantifies over all alternative selections of cut points (exponentially many) for every data set and every set of arguments; a test compares against a stored result.", "anchors": ["optbinning/binning/continuous_cp.py:ContinuousBinningCP", "optbinning/binning/model_data.py:continuous_model_data", "optbinning/binning/continuous_binning.py:ContinuousOptimalBinning.fit", "optbinning/binning/binning_statistics.py:ContinuousBinningTable.build"]}
{"id": "C106", "title": "The solver argument", "statement": "OptimalBinning(solver=s).fit(x, y) with s = 'cp' or 'mip' is the fit of which the other properties speak.  The documented value s = 'ls', which the parameter check accepts, never yields a binning with a split: whenever the fit with 'cp' returns, the fit with 'ls' on the same data and options raises ValueError (build_model expects six values from model_data, which returns five), unless no split is left after the pre-binning, in which case no solver runs and the single bin is returned.", "quantifier": "all constructor arguments, training sets, weights, special codes, outlier detectors, pre-binnings and solver answers", "why_tests_cant": "The repository has no test of solver='ls' (it needs a commercial package); that no call at all can succeed is a statement about every input.", "anchors": ["optbinning/binning/ls.py:BinningLS.build_model", "optbinning/binning/model_data.py:model_data", "optbinning/binning/binning.py:OptimalBinning._fit_optimizer"]}
{"id": "C107", "title": "Constructor arguments of MulticlassOptimalBinning", "statement": "MulticlassOptimalBinning(...).fit(x, y) refuses arguments outside the documented ranges with ValueError whatever the data, accepts all others (monotonic_trend is None, one of the automatic modes, or a list with one entry per class), and a fit with at least two bins respects what was asked: the number of bins is within min_n_bins/max_n_bins, for every class the event rates of neighbouring bins differ at least by min_event_rate_diff, the p-values computed from the counts of the table are at most max_pvalue, and the event rates of the class follow the trend asked for it (automatic modes: some trend of the mode); with a list of the wrong length there is no binning.", "quantifier": "all constructor arguments, training sets with any number of classes, special codes, outlier detectors, pre-binnings and solver answers", "why_tests_cant": "The tests fit one data set with a handful of argument combinations; which combination of arguments survives resolution, refinement and solver is a statement about all of them.", "anchors": ["optbinning/binning/multiclass_binning.py:_check_parameters", "optbinning/binning/multiclass_binning.py:MulticlassOptimalBinning._fit_optimizer", "optbinning/binning/auto_monotonic.py:auto_monotonic"]}
{"id": "C108", "title": "Bin labels of a numerical variable", "statement": "The column Bin of the binning table and transform(metric='bins') name the bins as documented: with show_digits between 0 and 8 (all others raise ValueError) every row has a label; the label of a record is the label of the row whose number transform(metric='indices') gives; the printed bounds are the splits rounded to show_digits decimals (to the nearest, halves to even), so a record lies in the interval its label names up to half a unit of the last decimal, and exactly if the splits have no more decimals than shown; '-inf' and 'inf' occur in the first and last bin only; special and missing records get 'Special' (or the name of their group) and 'Missing'. Labels of different bins differ when the splits are further apart than one unit of the last decimal shown (not otherwise).", "quantifier": "all split lists, all show_digits, all special codes and all values", "why_tests_cant": "The rounding, the sign and the padding of a printed number, and the agreement of two separate pieces of code which produce the label, range over all rational splits and values.", "anchors": ["optbinning/binning/binning_statistics.py:bin_str_format", "optbinning/binning/transformations.py:_apply_transform", "optbinning/binning/transformations.py:transform_binary_target", "optbinning/binning/binning_statistics.py:BinningTable.build"]}
{"id": "C109", "title": "Jensen-Shannon divergence of a multiclass table", "statement": "The attribute js of MulticlassBinningTable is the mean Kullback-Leibler divergence of the classes from the mean distribution over the rows. For the table of every fit it exists and lies between 0 and log(number of classes); it is 0 exactly if all classes are distributed alike over the rows, log(number of classes) exactly if no row has records of two classes; joining rows never increases it; the quality score computed from it lies in [0,1]. jensen_shannon_multivariate with weights refuses weights of a wrong number or not adding up to one, and with non-negative weights its value lies between 0 and the entropy of the weights.", "quantifier": "all binning tables with any number of rows and classes, all ways of joining rows, all weights", "why_tests_cant": "Inequalities and equality cases over all tables; a test compares one number with a stored one.", "anchors": ["optbinning/binning/metrics.py:jensen_shannon_multivariate", "optbinning/binning/binning_statistics.py:MulticlassBinningTable.build", "optbinning/binning/metrics.py:multiclass_binning_quality_score"]}
{"id": "C110", "title": "Constructor arguments of the two-dimensional classes hold of the table", "statement": "For OptimalBinning2D and ContinuousOptimalBinning2D: arguments in the documented ranges are accepted, all others rejected with ValueError before any data is used (exceptions: NaN or infinite gamma and time_limit). Whatever the accepted arguments and the data, the table of a fit with status OPTIMAL or FEASIBLE has at least one record (binary: event and non-event) in every bin, respects min/max_bin_size (max rounded up to whole records), min/max_bin_n_event and n_nonevent, min/max_n_bins, and neighbouring bins follow monotonic_trend_y (with strategy grid also monotonic_trend_x) by more than the minimum difference. Without gamma every accepted call returns; with gamma a grid call fails with ZeroDivisionError only if no binning respects the arguments. With solver mip, strategy grid and no gamma, OPTIMAL means that no binning of the pre-binning grid respecting the arguments has a larger divergence of the chosen kind. split_digits has no effect.", "quantifier": "all argument values incl. NaN and infinities, all data, all answers of solvers, pre-binnings and trees keeping their contracts", "why_tests_cant": "Combinations of twenty arguments with all data sets; tests fix one or two arguments on one data set and never verify optimality.", "anchors": ["optbinning/binning/multidimensional/binning_2d.py:_check_parameters", "optbinning/binning/multidimensional/binning_2d.py:OptimalBinning2D._fit_optimizer", "optbinning/binning/multidimensional/continuous_binning_2d.py:_check_parameters", "optbinning/binning/multidimensional/cp_2d.py", "optbinning/binning/multidimensional/mip_2d.py"]}
{"id": "C111", "title": "Table, labels and plot of OptimalBinning2D describe the fitted bins", "statement": "After OptimalBinning2D(...).fit with status OPTIMAL or FEASIBLE, binning_table.build() succeeds and has one row per bin, then Special and Missing: Count, Non-event, Event are numbers of records of the bin, the event rate is events over records, WoE = log(share of non-events / share of events), IV and JS are those of the shares; Count (%) adds up to 1, total IV and JS are the sums of the columns and not negative, JS <= log 2; Count adds up to the number of records plus the number of records both special and missing (counted twice). transform gives to a known pair of values exactly the rate and WoE of the row of its bin. The columns 'Bin x' and 'Bin y' tell the bounds of the bin (within half a unit of the last decimal shown, '[' and 'inf' correct) or its categories; show_digits outside 0..8 is refused. The matrix of plot holds in the cell of a pair the number, rate and WoE of its bin; plot never fails on it, and each step line shows along a row (column) of the grid the values of the bins there. With no special or missing record and the conditions of C110, the total IV of an OPTIMAL table is the largest of all binnings of the grid that respect the arguments.", "quantifier": "all data sets, variable types, accepted constructor arguments, solver answers, numbers of digits, values transformed and argsort results", "why_tests_cant": "Tests look at a handful of data sets; agreement of table, transform, labels and plot must hold for every shape of the bins in the grid.", "anchors": ["optbinning/binning/multidimensional/binning_statistics_2d.py:BinningTable2D.build", "optbinning/binning/multidimensional/binning_statistics_2d.py:BinningTable2D.plot", "optbinning/binning/multidimensional/binning_statistics_2d.py:bin_xy_str_format", "optbinning/binning/multidimensional/binning_2d.py:OptimalBinning2D._fit", "optbinning/binning/multidimensional/transformations_2d.py:transform_binary_target"]}
{"id": "C112", "title": "solver=\"ls\" computes the same kind of binning as the other solvers", "statement": "OptimalBinning(solver=\"ls\"): with status OPTIMAL or FEASIBLE the returned bins are a partition of the pre-bins meeting min/max n_bins, min/max bin size, min/max events and non-events, the fixed user splits and the monotonic trend (event rates compared at precision 1e-6); for ascending, descending and the two heuristic trends any two bins on one side of the change point differ by min_event_rate_diff up to 2e-6; the solver never reads outside its tables. Except for concave and convex the binnings it can return are exactly those meeting these requirements (and, without min_event_rate_diff, with no split inside a run against the trend), and OPTIMAL means the largest sum of divergences (truncated at 1e-6) among them; for an ascending or descending trend the divergence is within 1e-6 per bin of that of any binning with the trend, and where the formulations state the same constraints the optimal values of \"ls\" and \"cp\" are equal. With any other status there is one bin.", "quantifier": "all records, options, divergences, trends and solver answers (the solver itself is trusted to report OPTIMAL/FEASIBLE correctly)", "why_tests_cant": "LocalSolver needs a licence and is not run in the test suite; the index arithmetic of the formulation must be right for every binning.", "anchors": ["optbinning/binning/ls.py:BinningLS", "optbinning/binning/model_data.py:model_data"]}
{"id": "C113", "title": "The arguments of OptimalBinningSketch hold for every later solve, and the object's history is reported correctly", "statement": "OptimalBinningSketch (numerical): the constructor accepts exactly the documented argument values (else ValueError; a NaN or infinite gamma or time_limit may pass). For any history of add and solve calls, a solve with more than one pre-bin and status OPTIMAL or FEASIBLE returns a table in which every regular row meets min/max n_bins, min/max bin size relative to all labelled records received so far, min/max events and non-events, and contains both classes; the trend 'ascending', 'descending' or 'auto_asc_desc', max_pvalue and (mip) min_event_rate_diff hold between rows. solve completes exactly if both classes have a clean value among the records received, and once it has completed it always completes. Each completed solve appends exactly one entry (number of add calls, number of labelled records, divergence of the table) to the progress statistics; a failing one leaves table and statistics unchanged. information() works exactly after a solve with more than one pre-bin (AttributeError after solves with a single pre-bin only). eps=0 is accepted but every add raises ZeroDivisionError; split_digits has no effect; whether an earlier solve met a pre-bin of one class has no effect on a later one.", "quantifier": "all arguments, histories of add and solve, records, special codes and solver answers", "why_tests_cant": "Ranges over all argument values and all call histories; the interplay of options and sketch state is only tested on single fits.", "anchors": ["optbinning/binning/distributed/binning_sketch.py:_check_parameters", "optbinning/binning/distributed/binning_sketch.py:OptimalBinningSketch.add", "optbinning/binning/distributed/binning_sketch.py:OptimalBinningSketch.solve", "optbinning/binning/distributed/binning_sketch.py:OptimalBinningSketch.information", "optbinning/binning/distributed/binning_sketch.py:OptimalBinningSketch.plot_progress", "optbinning/binning/distributed/binning_sketch.py:OptimalBinningSketch._fit_optimizer", "optbinning/binning/distributed/binning_sketch.py:OptimalBinningSketch._update_streaming_stats"]}
{"id": "C114", "title": "SBOptimalBinning: arguments are validated and respected, the order of the scenarios is irrelevant, one scenario is ordinary binning", "statement": "The constructor accepts exactly the documented ranges (plus NaN or infinite time_limit) and refuses everything else with ValueError, a dict of special codes with TypeError. fit raises ValueError unless there are as many targets (and weights, if given) as scenarios, and never succeeds on an empty list. If the solver reports OPTIMAL or FEASIBLE, then in the table of every scenario the number of bins, min_bin_size and max_bin_size (fractions of the records of that scenario), min_event_rate_diff (up to 2e-6), max_pvalue and monotonic_trend given to the constructor are respected. binning_table_scenario(i) is the table of the records of scenario i for 0 <= i < n, any other integer is refused. Listing the scenarios (with their weights) in another order gives the same status, the same splits and the same table for the same scenario, and the same exception. With one scenario every binning OptimalBinning may return may be returned, the choice is the same unless the trend is ascending or descending with min_event_rate_diff = 0, and the optimal information value is at least that of OptimalBinning (equal in the former case).", "quantifier": "all arguments, lists of scenarios and weights, permutations of them, special codes, pre-binnings independent of the record order, and solver answers", "why_tests_cant": "Ranges over all argument values, all scenario lists and all their orders.", "anchors": ["optbinning/binning/uncertainty/binning_scenarios.py:_check_parameters", "optbinning/binning/uncertainty/binning_scenarios.py:_check_X_Y_weights", "optbinning/binning/uncertainty/binning_scenarios.py:SBOptimalBinning._fit", "optbinning/binning/uncertainty/binning_scenarios.py:SBOptimalBinning.binning_table_scenario", "optbinning/binning/cp.py:BinningCP.build_model_scenarios"]}
{"id": "C115", "title": "Saving to JSON succeeds exactly for storable tables, and a saved table is restored", "statement": "to_json of OptimalBinning, ContinuousOptimalBinning and MulticlassOptimalBinning succeeds exactly if the object is fitted and every attribute of its table can be written (special_codes and user_splits are None, Python lists or dictionaries; min_x and max_x are floats); it then touches only the file at the given path, and read_json of this file into any object of the class makes it fitted with a table of the same attributes with the same values. Without a path, or before fit, nothing is written. Findings: for integer-valued or categorical variables to_json raises TypeError and leaves an incomplete file in place of whatever was there; an OptimalBinning restored from a file can never be saved again (TypeError, the file is destroyed); a failed read_json still marks the object as fitted.", "quantifier": "all tables, option values, files and sequences save / load / save", "why_tests_cant": "Ranges over all attribute values and the state of the file system after each call; the test suite has no test of to_json or read_json.", "anchors": ["optbinning/binning/binning.py:OptimalBinning.to_json", "optbinning/binning/binning.py:OptimalBinning.read_json", "optbinning/binning/continuous_binning.py:ContinuousOptimalBinning.to_json", "optbinning/binning/continuous_binning.py:ContinuousOptimalBinning.read_json", "optbinning/binning/multiclass_binning.py:MulticlassOptimalBinning.to_json", "optbinning/binning/multiclass_binning.py:MulticlassOptimalBinning.read_json"]}
{"id": "C116", "title": "Arguments of BinningProcess hold for the table of every variable", "statement": "BinningProcess accepts exactly the documented ranges of its numerical arguments and refuses everything else with ValueError before a variable is fitted. Arguments it accepts are accepted by the binning class of every variable without entry in binning_fit_params, for each type of target. After a successful fit the object of each variable is the result of the binning class (binary, continuous or multiclass) on its own column with these options: the value in the variable's dictionary of binning_fit_params if present (in whatever order the items are written), otherwise the value of the process, otherwise the default of the class; an option the class does not have, or a combination it does not accept, makes fit fail. Hence in every table with at least two bins the number of bins, min_bin_size, max_bin_size and the event limits of the variable hold. Findings: max_bin_size of the process is checked but has no effect, also on the table; valid arguments of the process and a valid entry of a variable may contradict each other and are then refused.", "quantifier": "all argument values, dictionaries binning_fit_params, data sets, numbers of workers, types of the target and solver answers", "why_tests_cant": "Ranges over all argument values and all data sets; the tests check single tables with a few options.", "anchors": ["optbinning/binning/binning_process.py:_check_parameters", "optbinning/binning/binning_process.py:_fit_variable", "optbinning/binning/binning_process.py:BinningProcess.fit", "optbinning/binning/binning.py:_check_parameters", "optbinning/binning/continuous_binning.py:_check_parameters", "optbinning/binning/multiclass_binning.py:_check_parameters"]}
{"id": "C117", "title": "User splits: every argument holds for bins cut at user splits, fixed splits are kept, and the best selection is returned", "statement": "OptimalBinning with user_splits (numerical variable): fit succeeds only with valid arguments, at least one split, no split twice, and flags user_splits_fixed which are Python bools, one per split. The splits returned are user splits (rounded to split_digits digits if given) in increasing order; they are those of a fit whose pre-binning finds exactly the user splits, sorted and rounded. Each limit, trend, minimum rate difference and maximum p-value given to the constructor holds for the table; every split flagged as fixed is a split of the result if the solver found a solution; with status OPTIMAL (divergence iv or js, no regularisation, any limits without shortcut trends) no selection of the user splits which contains the fixed ones and meets the arguments has a larger divergence, if each interval of the user splits holds both classes. Without flags a fit leaves the object's user splits unchanged, so that it can be fitted again; with flags the object is changed (numpy flags) and every further fit is refused.", "quantifier": "all arguments, user splits in any order, flags, data sets, special codes and solver answers", "why_tests_cant": "Ranges over all splits, flags, data and solver answers; the tests fit a few lists of splits and never fit an object with flags twice.", "anchors": ["optbinning/binning/binning.py:_check_parameters", "optbinning/binning/binning.py:OptimalBinning._fit", "optbinning/binning/binning.py:OptimalBinning._fit_optimizer", "optbinning/binning/binning.py:OptimalBinning._compute_prebins", "optbinning/binning/cp.py:BinningCP.add_constraint_fixed_splits", "optbinning/binning/mip.py:BinningMIP.add_constraint_fixed_splits"]}
{"id": "C118", "title": "Categorical variables: every argument holds for the groups of categories, and the best grouping along the ranking is returned", "statement": "OptimalBinning(dtype='categorical') without user_splits: fit succeeds only with valid arguments and 0 < cat_cutoff <= 1. The groups are consecutive pieces of the categories ranked by event rate; each limit, the minimum rate difference and the maximum p-value given to the constructor hold for the rows of the table before the group of rare categories; with any monotonic_trend except None the event rates of the groups ascend (descending, peak, ... are treated as ascending); with status OPTIMAL (divergence iv or js, no regularisation) no other way of cutting the ranking at the pre-splits which meets the arguments has a larger divergence. Finding: split_digits=0 puts the categories of rank 2j and 2j+1 always in one bin.", "quantifier": "all arguments, special codes, category values, data sets, rankings by event rate, pre-binnings and solver answers", "why_tests_cant": "Ranges over all categorical data and solver answers; the tests fit one column of one data set.", "anchors": ["optbinning/binning/binning.py:_check_parameters", "optbinning/binning/binning.py:OptimalBinning._fit", "optbinning/binning/binning.py:OptimalBinning._fit_optimizer", "optbinning/binning/preprocessing.py:categorical_transform", "optbinning/binning/preprocessing.py:categorical_cutoff", "optbinning/binning/binning_statistics.py:bin_categorical"]}
{"id": "C119", "title": "The arguments of BinningProcessSketch hold for the table of every variable after any history of add and solve", "statement": "BinningProcessSketch(max_n_prebins, min_n_bins, max_n_bins, min_bin_size, max_bin_size, max_pvalue, split_digits) accepts exactly the documented ranges and raises ValueError otherwise. For numerical variables: the options of a variable are those of its entry in binning_fit_params, then of the process, then the defaults; an unknown option makes every add raise ValueError and no data are ever added. After any history of add and solve calls without exceptions the object of a variable is in the state of a single OptimalBinningSketch with these options that received the same columns and calls; so its limits on bins, sizes (relative to the labelled records of its columns), events, monotonic_trend, min_event_rate_diff and max_pvalue hold for its table. solve completes exactly if every variable has received regular values of both classes. Findings: max_bin_size of the process has no effect; option values in binning_fit_params are never checked.", "quantifier": "all arguments, dictionaries binning_fit_params, histories of add and solve, chunks, special codes and solver answers", "why_tests_cant": "Ranges over all option dictionaries, chunk sequences and solver answers.", "anchors": ["optbinning/binning/distributed/binning_process_sketch.py:_check_parameters", "optbinning/binning/distributed/binning_process_sketch.py:BinningProcessSketch.add", "optbinning/binning/distributed/binning_process_sketch.py:BinningProcessSketch.solve", "optbinning/binning/distributed/binning_sketch.py:OptimalBinningSketch.add", "optbinning/binning/distributed/binning_sketch.py:OptimalBinningSketch.solve"]}
{"id": "C120", "title": "User splits of ContinuousOptimalBinning: every argument holds for bins cut at user splits, fixed splits are kept, and the best selection is returned", "statement": "ContinuousOptimalBinning with user_splits (numerical variable): fit succeeds only with valid arguments, at least one split, no split twice, and flags user_splits_fixed which are Python bools, one per split. The splits returned are user splits (rounded to split_digits digits if given) in increasing order; they are those of a fit whose pre-binning finds exactly the user splits, sorted and rounded. Each limit, trend, min_mean_diff and max_pvalue given to the constructor holds for the table; every split flagged as fixed is a split of the result if the solver found a solution; with status OPTIMAL (no regularisation, unit weights, plain trends) no selection of the user splits which contains the fixed ones and meets the arguments has a larger total distance of bin means from the overall mean, up to 1e-6 per bin, if each interval of the user splits holds records. Without flags a fit leaves the object's user splits unchanged; with flags every further fit is refused, and so are flags given as a numpy array.", "quantifier": "all arguments, user splits in any order, flags, data sets, outlier detectors, special codes and solver answers", "why_tests_cant": "Ranges over all splits, flags, data and solver answers; the tests fit a few lists of splits and never fit an object with flags twice.", "anchors": ["optbinning/binning/continuous_binning.py:_check_parameters", "optbinning/binning/continuous_binning.py:ContinuousOptimalBinning._fit", "optbinning/binning/continuous_binning.py:ContinuousOptimalBinning._fit_optimizer", "optbinning/binning/continuous_binning.py:ContinuousOptimalBinning._prebinning_refinement", "optbinning/binning/continuous_binning.py:ContinuousOptimalBinning._compute_prebins", "optbinning/binning/continuous_cp.py:ContinuousBinningCP.build_model"]}
{"id": "C121", "title": "Categorical variables with a continuous target: every argument holds for the groups of categories, each row describes its group, and the best grouping along the ranking is returned", "statement": "ContinuousOptimalBinning(dtype='categorical') without user_splits: fit succeeds only with valid arguments and 0 < cat_cutoff <= 1, and raises ValueError otherwise. The groups are consecutive pieces of the categories ranked by mean target; exactly the categories with less than the fraction cat_cutoff of the binned records form the last group; row k of the table gives count, sum, standard deviation, minimum, maximum and zeros of the targets of the records whose category is in group k. Number of bins, bin sizes, min_mean_diff and max_pvalue given to the constructor hold for the rows before the group of rare categories; with any monotonic_trend except None their Means ascend (up to 2e-6; descending, peak, ... are treated as ascending); with status OPTIMAL and unit weights no other way of cutting the ranking at the pre-splits which meets the arguments has a larger sum of distances from the mean (up to 1e-6 per bin).", "quantifier": "all arguments, special codes, category values, data sets, rankings by mean target, pre-binnings and solver answers", "why_tests_cant": "Ranges over all categorical data and solver answers; the tests fit one column of one data set.", "anchors": ["optbinning/binning/continuous_binning.py:_check_parameters", "optbinning/binning/continuous_binning.py:ContinuousOptimalBinning._fit", "optbinning/binning/continuous_binning.py:ContinuousOptimalBinning._fit_optimizer", "optbinning/binning/continuous_binning.py:ContinuousOptimalBinning._prebinning_refinement", "optbinning/binning/preprocessing.py:categorical_transform", "optbinning/binning/binning_statistics.py:bin_categorical", "optbinning/binning/binning_statistics.py:continuous_bin_info"]}
{"id": "C122", "title": "Groups of categories with a continuous target: every bin consists of whole groups, every training category is in one bin, each row describes its bin, and the arguments hold", "statement": "ContinuousOptimalBinning(dtype='categorical', user_splits=groups) without user_splits_fixed: fit succeeds only with valid arguments, at least one group and no category twice. Each bin before 'others' consists of whole groups; 'others' holds exactly the training categories in no group. If at least two groups occur in the training data, every training category is in exactly one bin, row k gives count, sum, standard deviation, minimum, maximum and zeros of the targets of the records of bin k, followed by the special rows and the row of missing values; with at least two bins before 'others' the limits min_n_bins, max_n_bins, min_bin_size, max_bin_size, min_mean_diff, max_pvalue hold, and with any monotonic_trend except None the Means ascend. If every group occurs and status is OPTIMAL, no other merge of neighbouring groups meeting the limits has a larger sum of distances between bin means and the overall mean, up to 1e-6 per bin. If only one group occurs, its records are in no row of the table (finding).", "quantifier": "all groups, arguments, special codes, category values, data sets, sorts of the groups by mean target and solver answers", "why_tests_cant": "Ranges over all groups, categorical data and solver answers; the tests fit one list of groups on one data set.", "anchors": ["optbinning/binning/continuous_binning.py:_check_parameters", "optbinning/binning/continuous_binning.py:ContinuousOptimalBinning._fit", "optbinning/binning/continuous_binning.py:ContinuousOptimalBinning._compute_prebins", "optbinning/binning/continuous_binning.py:ContinuousOptimalBinning._prebinning_refinement", "optbinning/binning/preprocessing.py:preprocessing_user_splits_categorical", "optbinning/binning/binning_statistics.py:bin_categorical", "optbinning/binning/binning_statistics.py:continuous_bin_info"]}
{"id": "C123", "title": "Flagged groups of categories with a continuous target: a group flagged as fixed occurs in the training data and ends its bin; everything else holds as without flags", "statement": "ContinuousOptimalBinning(dtype='categorical', user_splits=groups, user_splits_fixed=flags): fit succeeds only with valid arguments, one Python bool per group. If the solver found a solution, a group flagged as fixed occurs in the training data and no group with a higher mean rank shares its bin. Bins consist of whole groups, 'others' holds exactly the training categories in no group; if two groups occur every training category is in exactly one bin and row k describes bin k; the limits, the trend and min_mean_diff hold. If every group occurs and status is OPTIMAL, no other merge of neighbouring groups in which every flagged group ends its bin and which meets the limits has a larger sum of distances between bin means and the overall mean, up to 1e-6 per bin. Findings: an object with flags cannot be fitted twice; when a group does not occur, the attribute user_splits left behind can lose another group than the one removed.", "quantifier": "all groups, flags, arguments, special codes, category values, data sets, sorts of the groups by mean target and solver answers", "why_tests_cant": "Ranges over all groups, flags, categorical data and solver answers; the tests fit one list of groups on one data set.", "anchors": ["optbinning/binning/continuous_binning.py:_check_parameters", "optbinning/binning/continuous_binning.py:ContinuousOptimalBinning._fit", "optbinning/binning/continuous_binning.py:ContinuousOptimalBinning._compute_prebins", "optbinning/binning/continuous_cp.py:ContinuousBinningCP.build_model", "optbinning/binning/preprocessing.py:preprocessing_user_splits_categorical"]}
