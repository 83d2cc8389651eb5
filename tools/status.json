{
 "C08": [
  "proved",
  "CP and MIP; partition, determined by diagonal, and converse."
 ],
 "C09": [
  "proved",
  "CP and MIP; exactness of the constraint is part of C18_exact_*."
 ],
 "C10": [
  "proved",
  "CP and MIP; exactness of the constraint is part of C18_exact_*."
 ],
 "C11": [
  "proved",
  "CP and MIP; exactness of the constraint is part of C18_exact_*."
 ],
 "C12": [
  "proved",
  "Exact for MIP, up to 1e-6 for CP; C12_cp_not_exact shows that the tolerance is needed."
 ],
 "C13": [
  "proved",
  "CP on rates truncated to 6 digits, MIP exact; on the rows of the table from the constructor arguments: C13_table_mip, C13_table_cp."
 ],
 "C14": [
  "proved",
  "CP on truncated rates (and the implied 2e-6 tolerance), MIP exact."
 ],
 "C15": [
  "proved",
  "The statistical test itself is a parameter."
 ],
 "C16": [
  "partial",
  "One fit proved up to the reported splits; the refit part is false (C16_refit_fixes_other_split)."
 ],
 "C17": [
  "proved",
  "CP and MIP."
 ],
 "C18": [
  "partial",
  "Exact outside preprocessing cuts and concave/convex trends; for those the full statement is false (C18_cuts_exclude_admissible, C18_concave_excludes_admissible, C18_convex_excludes_admissible). With an ascending/descending trend and no limit but max_n_bins the cuts exclude admissible binnings but never all optimal ones (C18_monotone_mip, C18_monotone_cp)."
 ],
 "C19": [
  "proved",
  "Solver fallback; table totals in C02."
 ],
 "C01": [
  "proved",
  "Known targets and proper special codes; outside of that records are counted twice (C01_special_with_missing_target_counted_twice, C01_nan_special_code_counted_twice)."
 ],
 "C02": [
  "proved",
  "Whole-number weights (in particular unit weights); with fractional weights false: C02_fractional_weights_lost."
 ],
 "C03": [
  "proved",
  "Pre-binning splits or user splits; regular, special and missing rows."
 ],
 "C04": [
  "proved",
  ""
 ],
 "C05": [
  "proved",
  "Including the collision with default metric_missing=0 (C05_default_collides)."
 ],
 "C06": [
  "proved",
  "Termination, no pure pre-bin, sublist, no record lost, nothing removed without need."
 ],
 "C07": [
  "partial",
  "Holds if the group sorted last and another one contain both classes; otherwise false: C07_pure_last_group_lost, C07_single_group_lost."
 ],
 "C31": [
  "proved",
  "Without user splits; groups partition the training categories, are ordered by event rate, others exactly by cutoff."
 ],
 "C32": [
  "partial",
  "Unknown categories as documented; the default is the average only with an empirical option (C32_default_exceeds_one), and an integer cat_unknown truncates all other values (C32_int_truncates_known)."
 ],
 "C38": [
  "partial",
  "Only the binning table is restored; the claim is false for every object (C38_restored_cannot_transform, C38_stale_transform)."
 ],
 "C20": [
  "proved",
  "Both transformations, table columns; C20_pure_event_bin_shows_zero: a bin with only events shows event rate 0."
 ],
 "C21": [
  "partial",
  "Non-negativity, bounds, symmetry for all tables. 'Zero only for equal distributions' holds without pure bins and is false with them (C21_pure_bins_hide_divergence); build raises if all bins are pure (C21_separated_table_raises)."
 ],
 "C22": [
  "partial",
  "Any coarsening, without pure bins; false with pure bins (C22_merging_pure_bin_increases_iv)."
 ],
 "C23": [
  "proved",
  "For every sorting order of ties; Gini shown equal to the concordance, KS to the largest gap."
 ],
 "C39": [
  "proved",
  "Numerical variables; metric options empirical or numeric."
 ],
 "C29": [
  "proved",
  "Every answer is characterised; findings: ties are reported as peak (still true as a weak peak), and the analysis report includes special rows when special_codes is a dict."
 ],
 "C30": [
  "proved",
  "For every count vector with at least two pre-bins and every convex-hull value; the external ConvexHull and polyfit results are modelled exactly (slope sign) or as an arbitrary oracle (hull)."
 ],
 "C37": [
  "partial",
  "Exact behaviour proved: the largest signed lead minus 1/n_nonevent. The full claim is false: C37_ks_below_distance, C37_perfect_separation_not_one, C37_one_sided, C37_ties_depend_on_order."
 ],
 "C36": [
  "partial",
  "System PSI: non-negative, zero iff same distribution when every bin is populated, symmetric always; system counts add up. False parts: empty bins give inf/NaN (C36_empty_bins); the per-variable report drops actual records above the largest expected index (C36_new_bin_invisible) and merges missing with bin 0 (C36_missing_invisible)."
 ],
 "C33": [
  "partial",
  "pdo_odds and min_max scores as affine functions of the linear predictor, anchor and pdo, ranking, intercept_based, rounding error, end-to-end link to transform. False with reverse_scorecard (C33_pdo_reverse_shifted: intercept has the wrong sign), for unknown categories (C33_unknown_gets_missing_points) and after a refit (C33_stale_intercept); unscaled scores omit the intercept (C33_unscaled)."
 ],
 "C34": [
  "partial",
  "Unrounded: range and both ends. Rounded: range for every answer satisfying the constraints; ends need not be attained (C34_end_not_attained) and the back-up rounding leaves the range (C34_backup_leaves_range)."
 ],
 "C35": [
  "proved",
  "RangeDetector (ETI, HDI), ModifiedZScoreDetector and YQuantileDetector(zscore): the flagged values are exactly those outside one interval that depends on the values only; share kept. Findings: interval_length=0 can flag everything, HDI with interval_length=1 always raises, zero MAD flags every value other than the median. Exact rationals instead of floats."
 ],
 "C24": [
  "proved",
  "exact rationals instead of floats; eps > 0; any history of add/len/quantile on one sketch"
 ],
 "C25": [
  "proved",
  "exact rationals instead of floats; eps > 0"
 ],
 "C26": [
  "partial",
  "Counts add up for every history in which each sketch is merged away at most once and not used afterwards, when both are non-empty for missing/special (full statement is false of the code: see findings C26_merge_*); quantile error for star-shaped merges"
 ],
 "C27": [
  "proved",
  "all histories in which a merged-away sketch is not used again; aliasing witness C27_merge_aliases shows why"
 ],
 "C40": [
  "partial",
  "accuracy and totals proved; the boundary clause is false of the code (C40_boundary_mismatch)"
 ],
 "C28": [
  "partial",
  "termination, strictly increasing splits and leaf sizes for all data; the refit clause is false of the code (C28_refit_accumulates); further findings C28_rejected_split_kept, C28_tie_mismatch, C28_order_dependent"
 ],
 "C41": [
  "partial",
  "All clauses proved when 'proximity' is among the objectives (default); without it the outcome clause is false (C41_no_proximity). special_missing=False leaves special rows as candidates when a dictionary of specials is used; default max_changes is 0 for one variable."
 ],
 "C42": [
  "proved",
  "Weighted and hierarchical methods, all outcome types; requires 'proximity' among the objectives (default), non-negative weights and range weights. For outcome type probability the probability is the piecewise linear approximation g passed to the model. Solver answers are assumed optimal."
 ],
 "C43": [
  "proved",
  "Every pair of known values in exactly one bin; indices, event_rate, woe transforms; special/missing rows. Finding: unseen categories and inf get index 0 (C43_unknown_gets_first_bin)."
 ],
 "C44": [
  "partial",
  "Bin, special and missing rows count exactly the records described. Missing: 'exactly once' is false of the code: records that are special and missing are counted twice (C44_totals states the exact total)."
 ],
 "C45": [
  "proved",
  "All limits, both solvers (any ordered ring of solver values)."
 ],
 "C46": [
  "proved",
  "Neighbouring bins and along every horizontal/vertical line."
 ],
 "C47": [
  "proved",
  "OPTIMAL: divergence (with and without gamma) maximal over all admissible tilings; CP gap of 1e-6 per bin; INFEASIBLE: none exists; result is admissible."
 ],
 "C48": [
  "partial",
  "Soundness proved for all trends, at solver and table level; completeness proved except for peak/valley trends with group means of both signs, for which it is refuted (C48_peak_excludes_mixed_signs)."
 ],
 "C49": [
  "partial",
  "Optimality proved under the same sign condition for peak/valley; the gamma clause is refuted (C49_gamma_no_effect)."
 ],
 "C50": [
  "proved",
  "Numerical variable, unit weights, known targets."
 ],
 "C51": [
  "partial",
  "All clauses proved for unit weights and known targets, Min/Max for a fresh object; the quality-score clause is refuted (C51_uninformative_score)."
 ],
 "C52": [
  "proved",
  "Numerical variable, unit weights, known targets."
 ],
 "C53": [
  "partial",
  "The claim as stated is refuted in five ways (findings); proved: fresh objects (C53_fresh_missing)."
 ],
 "C54": [
  "partial",
  "proved for both formulations for the limits on the number of bins, fixed splits, trends ascending/descending/peak/valley, p-value and rate difference; the heuristic/concave/convex trends are not enforced by the code (C54_other_trends_ignored, counterexample C54_concave_violated); min_bin_size/max_bin_size not modelled"
 ],
 "C55": [
  "partial",
  "exact characterisation, objective and optimality proved for both formulations when the model adds no cuts (MultiNoCuts); with the cuts of ascending/descending the full claim is false of the code (C55_cuts_exclude_admissible), only soundness (C54) holds"
 ],
 "C56": [
  "proved",
  "Numerical fits; the outlier detector is excluded from the count statements (it drops records), present in the row-level limits."
 ],
 "C57": [
  "proved",
  "Metric \"bins\" is not modelled."
 ],
 "C58": [
  "proved",
  "CP (the only solver of SBOptimalBinning); all trends, sizes, p-value and rate difference in every scenario, for every valid solver answer"
 ],
 "C59": [
  "partial",
  "exactness and optimality proved for trends other than concave/convex; for concave the full claim is false of the code (C59_concave_excludes_admissible), soundness is C58; the weights seen by the solver are truncated, with default or whole-number weights the claim is exact, otherwise within a factor 2"
 ],
 "C60": [
  "proved",
  "targets known; special_codes a list"
 ],
 "C61": [
  "proved",
  "all tables, all scenarios"
 ],
 "C62": [
  "partial",
  "success and failure characterised; fixed splits proved when nothing is refined, counterexamples otherwise"
 ],
 "C63": [
  "proved",
  "whole statement, for the first fit of an object (later fits: C67)"
 ],
 "C64": [
  "partial",
  "full statement false: parameters given for one variable leak to later ones (C64_parameter_leaks) and 'indices' truncates other metrics; proved for parameters without leak, and the actual arguments are characterised"
 ],
 "C65": [
  "partial",
  "full statement false: leak across chunks; proved for parameters given for all selected variables or none"
 ],
 "C66": [
  "proved",
  "for the model of the parallel fit in which results are collected in block order"
 ],
 "C67": [
  "partial",
  "full statement false after update_binned_variable until summary, and for refits with changed variable_names; proved for all histories otherwise"
 ],
 "C68": [
  "partial",
  "holds with more than one pre-bin or without missing/special records; counterexample C68_double_count otherwise"
 ],
 "C69": [
  "proved",
  ""
 ],
 "C70": [
  "proved",
  ""
 ],
 "C71": [
  "proved",
  "C71 trend: exact for mip, up to 1e-6 for cp as in C12"
 ],
 "C72": [
  "partial",
  "the identity of later solves after splitting batches, special and missing rows of collecting objects are proved; missing: total rows when objects that collected others are merged again (tree-shaped merges), and solve in between only keeps the records, not the sketch state"
 ],
 "C73": [
  "proved",
  "all programs of creations, chunks and merges; findings on collapse and single pre-bins"
 ],
 "C74": [
  "proved",
  "both classes of errors characterised as stated"
 ],
 "C75": [
  "proved",
  "cp and mip; min_event_rate_diff for mip, test for cp"
 ],
 "C76": [
  "proved",
  "Numerical variables with sketch='gk'; categorical ones through the abstract class."
 ],
 "C77": [
  "proved",
  ""
 ],
 "C78": [
  "proved",
  "RanUntil states the crash point; counters: C78_add_crash, C78_solve_crash."
 ],
 "C79": [
  "proved",
  "C79_transform with C79_no_leak; without the condition the values leak to later variables (C79_leak)."
 ],
 "C80": [
  "proved",
  "Without outlier detector (with one the detector runs twice: C80_outlier_twice) and without sample weights, which the class does not have."
 ],
 "C81": [
  "proved",
  ""
 ],
 "C82": [
  "partial",
  "Given numbers: proved. The claim about 'empirical' is false: the call swaps the counts of events and non-events (C82_empirical_not_event_rate); C82_empirical_partial states what is returned."
 ],
 "C83": [
  "proved",
  "The raising case is C83_empirical_missing_raises."
 ],
 "C84": [
  "proved",
  ""
 ],
 "C85": [
  "partial",
  "The clause about fit_transform is false (C85_fit_transform_not_fit_then_transform); all others are proved, with and without user splits (given their flags). split_digits is not modelled for this class."
 ],
 "C86": [
  "partial",
  "False for a dict of more than one group of special codes (C86_only_one_group); C86_pairs_partial states the tested pairs."
 ],
 "C87": [
  "proved",
  "Partition, indices and mean transforms, special/missing values, unknown values."
 ],
 "C88": [
  "proved",
  "Rows, special and missing rows, totals, WoE and IV; finding: one missing target makes the totals NaN."
 ],
 "C89": [
  "proved",
  "Limits, neighbours, lines."
 ],
 "C90": [
  "proved",
  "Optimality with and without gamma, infeasibility, CP gap; solver contract assumed."
 ],
 "C91": [
  "proved",
  "Pairs and arguments of the tests, both targets; the tests themselves are external."
 ],
 "C92": [
  "proved",
  "Both targets."
 ],
 "C93": [
  "partial",
  "everything is proved for both targets except the trend in x, which is false: proved counterexample C93_trend_x_not_enforced"
 ],
 "C94": [
  "proved",
  "binary (with and without gamma) and continuous target; the solver is an external with the contract of OR-tools"
 ],
 "C95": [
  "proved",
  "Exact arithmetic with NaN and infinities; C95_correct_zero records that a correct prediction of zero makes all metrics NaN."
 ],
 "C96": [
  "proved",
  "Includes the exact failure condition (C96_tests_fail) and findings C96_boundary_label, C96_summary_skips_nan, C96_histogram_boundary; 'summary is the total' holds when no bin is empty in both samples."
 ],
 "C97": [
  "proved",
  "Mann-Whitney form proved for the trapezoid area of the dropped-intermediate ROC curve."
 ],
 "C98": [
  "partial",
  "The last clause (a failed fit leaves the object as it was) is false: C98_mixture is a counterexample; rejected calls change nothing (C98_rejected)."
 ],
 "C99": [
  "proved",
  "SciPy's survival function, Fisher test and incomplete beta function are arbitrary functions."
 ],
 "C100": [
  "proved",
  "SciPy's survival function is an arbitrary function."
 ],
 "C101": [
  "proved",
  "the p-value (a SciPy function of the statistic and the counts) is not modelled"
 ],
 "C102": [
  "partial",
  "Proved for all arguments, data and solver answers except that the range check accepts NaN/infinite gamma and time_limit (C102_checks states exactly which arguments are accepted; C102_nan_gamma_accepted), and max_bin_size holds only after rounding up (C102_limits gives the exact bound, C102_max_size_exceeded). Type checks are not modelled."
 ],
 "C103": [
  "partial",
  "Proved for iv and js, any limits with trend None/peak/valley (or ascending/descending with a minimum rate difference), for ascending/descending with max_n_bins only, and for hellinger/triangular with non-empty pre-bins and mixed intervals (C103_pure_*); elsewhere the claim fails because of the preprocessing cuts (C18_cuts_exclude_admissible) or because special/missing records change the totals of the table (C103_missing_not_maximal). Concave/convex and gamma > 0 not covered."
 ],
 "C104": [
  "proved",
  "Full statement on the model of a numerical variable without user splits. The t-test p-value is an arbitrary function of the six numbers scipy receives. The external solver is any solver respecting the constraints it was given (RespectsC)."
 ],
 "C105": [
  "proved",
  "unit weights; trends None/ascending/descending, peak/valley for targets of one sign; tolerance 1e-6 per interval (integer solver). The table IV is not maximal: C105_iv_not_maximal (finding 66)."
 ],
 "C106": [
  "proved",
  "C106_cp_mip: cp and mip are the fits of the other properties; C106_ls, C106_ls_raises: solver='ls' never returns a split"
 ],
 "C107": [
  "proved",
  "min_bin_size/max_bin_size are checked but their effect in the multiclass solver (two-dimensional array handed to ortools) is not modelled; cp: trends and min_event_rate_diff up to six decimals, as documented in C54; list entries concave, convex, *_heuristic and auto_heuristic are ignored by the code (C107_ignored)"
 ],
 "C108": [
  "proved",
  "Numerical variables; categorical labels are the category arrays themselves (not modelled as text); the sign of a printed negative zero is not modelled. Splits are exact rationals."
 ],
 "C109": [
  "proved",
  "Over real numbers."
 ],
 "C110": [
  "proved",
  "argument checks, limits, trends, termination, optimality (mip/grid) for all accepted arguments; strategy cart: trend_x not enforced (C93)"
 ],
 "C111": [
  "proved",
  "Theorems C111_*; labels and plot data, not the drawing; floats as reals."
 ],
 "C112": [
  "proved",
  "Formulation of ls.py; the solver itself is an oracle. For concave/convex only soundness (the big-M constants exclude some admissible binnings, as with cp/mip)."
 ],
 "C113": [
  "proved",
  "limits on bin size are relative to all labelled records, including special and missing ones, as in the code; time limits and t-digest sketches are not modelled"
 ],
 "C114": [
  "proved",
  "Arguments of SBOptimalBinning, order of the scenarios, one scenario. The solver and the pre-binning are arbitrary (the latter independent of the record order for the order theorem)."
 ],
 "C115": [
  "proved",
  "Saving and loading over Python/numpy values and file states; the JSON encoder is modelled by the types it accepts."
 ],
 "C116": [
  "proved",
  "Numerical variables; C116_limits_multiclass covers the number of bins only (multiclass fits with min_bin_size are not modelled)."
 ],
 "C117": [
  "proved",
  "limits, trend, rate difference, p-values, fixed splits, optimality among the selections of the user splits (mip and cp up to 1e-6 per bin; user splits which are still distinct after rounding), equivalence with a pre-binning, rounding by split_digits (any monotone rounding; C117_round_monotone for np.round on exact values), refits"
 ],
 "C118": [
  "proved",
  "fit of a categorical variable without user_splits; optimality for divergence iv/js, gamma 0, and (no trend or a minimum rate difference or no limit except max_n_bins); finding: every trend acts as ascending (C118_descending)"
 ],
 "C119": [
  "proved",
  "numerical variables without merge of processes; GK sketches; limits relative to all labelled records of the variable's columns; findings: C119_max_bin_size_unused, C119_unchecked"
 ],
 "C120": [
  "proved",
  "checks and errors, splits, limits, trend, p-values, fixed splits, optimality under flags, second fit; numpy rounding enters through any monotone rounding function"
 ],
 "C121": [
  "proved",
  "fit of a categorical variable without user_splits; optimality and rows for unit weights; any ranking by mean target and any sorted pre-binning (split_digits is part of it); finding: every trend acts as ascending (C121_descending)"
 ],
 "C122": [
  "proved",
  "the clauses with two occurring groups are stated under that condition (the code loses the records of a single group: C122_single_group_lost), optimality if every group occurs; the sort of the groups is any permutation; user_splits_fixed: C123"
 ],
 "C123": [
  "proved",
  "the sort of the groups is any argsort; clauses on rows and partition under the condition that two groups occur (C122_single_group_lost)"
 ]
}