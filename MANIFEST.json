{
 "claims": [
  {
   "property": "C01",
   "status": "proved",
   "theorems": [
    "OptBinning.C01_groups",
    "OptBinning.C01_order",
    "OptBinning.C01_partition",
    "OptBinning.C01_special_with_missing_target_counted_twice",
    "OptBinning.C01_nan_special_code_counted_twice",
    "OptBinning.C01_fix_ub_ignored",
    "OptBinning.C01_clean_records"
   ],
   "note": "Known targets and proper special codes; outside of that records are counted twice (C01_special_with_missing_target_counted_twice, C01_nan_special_code_counted_twice)."
  },
  {
   "property": "C02",
   "status": "proved",
   "theorems": [
    "OptBinning.C02_totals_categorical",
    "OptBinning.C02_totals",
    "OptBinning.C02_totals_unit",
    "OptBinning.C02_totals_user_splits",
    "OptBinning.C02_fractional_weights_lost"
   ],
   "note": "Whole-number weights (in particular unit weights); with fractional weights false: C02_fractional_weights_lost."
  },
  {
   "property": "C03",
   "status": "proved",
   "theorems": [
    "OptBinning.C03_histogram_categorical",
    "OptBinning.C03_histogram",
    "OptBinning.C03_histogram_user_splits"
   ],
   "note": "Pre-binning splits or user splits; regular, special and missing rows."
  },
  {
   "property": "C04",
   "status": "proved",
   "theorems": [
    "OptBinning.C04_interval",
    "OptBinning.C04_unique",
    "OptBinning.C04_pointwise",
    "OptBinning.C04_monotone"
   ],
   "note": ""
  },
  {
   "property": "C05",
   "status": "proved",
   "theorems": [
    "OptBinning.C05_missing",
    "OptBinning.C05_special_list",
    "OptBinning.C05_special_dict",
    "OptBinning.C05_no_confusion",
    "OptBinning.C05_default_collides"
   ],
   "note": "Including the collision with default metric_missing=0 (C05_default_collides)."
  },
  {
   "property": "C06",
   "status": "proved",
   "theorems": [
    "OptBinning.C06_terminates",
    "OptBinning.C06_no_pure_prebin",
    "OptBinning.C06_identity",
    "OptBinning.C06_no_record_lost"
   ],
   "note": "Termination, no pure pre-bin, sublist, no record lost, nothing removed without need."
  },
  {
   "property": "C07",
   "status": "partial",
   "theorems": [
    "OptBinning.C07_histogram_partial",
    "OptBinning.C07_repeated_category_rejected",
    "OptBinning.C07_pure_last_group_lost",
    "OptBinning.C07_single_group_lost"
   ],
   "note": "Holds if the group sorted last and another one contain both classes; otherwise false: C07_pure_last_group_lost, C07_single_group_lost."
  },
  {
   "property": "C08",
   "status": "proved",
   "theorems": [
    "OptBinning.C08_partition_cp",
    "OptBinning.C08_partition_mip",
    "OptBinning.C08_assignment_determined",
    "OptBinning.C08_every_partition_accepted"
   ],
   "note": "CP and MIP; partition, determined by diagonal, and converse."
  },
  {
   "property": "C09",
   "status": "proved",
   "theorems": [
    "OptBinning.C09_table_limits_cp",
    "OptBinning.C09_table_limits_mip",
    "OptBinning.C09_optimal_without_solver",
    "OptBinning.C09_table_limits",
    "OptBinning.C09_number_of_bins_cp",
    "OptBinning.C09_number_of_bins_mip"
   ],
   "note": "CP and MIP; exactness of the constraint is part of C18_exact_*."
  },
  {
   "property": "C10",
   "status": "proved",
   "theorems": [
    "OptBinning.C10_bin_size_cp",
    "OptBinning.C10_bin_size_mip"
   ],
   "note": "CP and MIP; exactness of the constraint is part of C18_exact_*."
  },
  {
   "property": "C11",
   "status": "proved",
   "theorems": [
    "OptBinning.C11_event_bounds_cp",
    "OptBinning.C11_event_bounds_mip"
   ],
   "note": "CP and MIP; exactness of the constraint is part of C18_exact_*."
  },
  {
   "property": "C12",
   "status": "proved",
   "theorems": [
    "OptBinning.C12_table_mip",
    "OptBinning.C12_table_cp",
    "OptBinning.C12_monotone_mip",
    "OptBinning.C12_monotone_cp",
    "OptBinning.C12_cp_not_exact"
   ],
   "note": "Exact for MIP, up to 1e-6 for CP; C12_cp_not_exact shows that the tolerance is needed."
  },
  {
   "property": "C13",
   "status": "proved",
   "theorems": [
    "OptBinning.C13_trend_cp",
    "OptBinning.C13_trend_mip",
    "OptBinning.C13_table_mip",
    "OptBinning.C13_table_cp"
   ],
   "note": "CP on rates truncated to 6 digits, MIP exact; on the rows of the table from the constructor arguments: C13_table_mip, C13_table_cp."
  },
  {
   "property": "C14",
   "status": "proved",
   "theorems": [
    "OptBinning.C14_table_mip",
    "OptBinning.C14_table_cp",
    "OptBinning.C14_min_event_rate_diff_mip",
    "OptBinning.C14_min_event_rate_diff_cp"
   ],
   "note": "CP on truncated rates (and the implied 2e-6 tolerance), MIP exact."
  },
  {
   "property": "C15",
   "status": "proved",
   "theorems": [
    "OptBinning.C15_table_cp",
    "OptBinning.C15_table_mip",
    "OptBinning.C15_max_pvalue_cp",
    "OptBinning.C15_max_pvalue_mip"
   ],
   "note": "The statistical test itself is a parameter."
  },
  {
   "property": "C16",
   "status": "partial",
   "theorems": [
    "OptBinning.C16_remaining_user_splits",
    "OptBinning.C16_unsorted_user_splits_corrupted",
    "OptBinning.C16_fixed_splits_in_result",
    "OptBinning.C16_refit_fixes_other_split",
    "OptBinning.C16_fixed_splits_cp",
    "OptBinning.C16_fixed_splits_mip"
   ],
   "note": "One fit proved up to the reported splits; the refit part is false (C16_refit_fixes_other_split)."
  },
  {
   "property": "C17",
   "status": "proved",
   "theorems": [
    "OptBinning.C17_objective_mip",
    "OptBinning.C17_objective_cp"
   ],
   "note": "CP and MIP."
  },
  {
   "property": "C18",
   "status": "partial",
   "theorems": [
    "OptBinning.C18_monotone_mip",
    "OptBinning.C18_monotone_cp",
    "OptBinning.C18_exact_cp_partial",
    "OptBinning.C18_exact_mip_partial",
    "OptBinning.C18_optimal_mip_partial",
    "OptBinning.C18_optimal_cp_partial",
    "OptBinning.C18_cuts_exclude_admissible",
    "OptBinning.C18_concave_excludes_admissible",
    "OptBinning.C18_convex_excludes_admissible"
   ],
   "note": "Exact outside preprocessing cuts and concave/convex trends; for those the full statement is false (C18_cuts_exclude_admissible, C18_concave_excludes_admissible, C18_convex_excludes_admissible). With an ascending/descending trend and no limit but max_n_bins the cuts exclude admissible binnings but never all optimal ones (C18_monotone_mip, C18_monotone_cp)."
  },
  {
   "property": "C19",
   "status": "proved",
   "theorems": [
    "OptBinning.C19_single_row",
    "OptBinning.C19_fallback_single_bin"
   ],
   "note": "Solver fallback; table totals in C02."
  },
  {
   "property": "C20",
   "status": "proved",
   "theorems": [
    "OptBinning.C20_event_rate_of_woe_of_event_rate",
    "OptBinning.C20_woe_of_event_rate_of_woe",
    "OptBinning.C20_event_rate_in_unit_interval",
    "OptBinning.C20_event_rate_decreasing",
    "OptBinning.C20_woe_decreasing",
    "OptBinning.C20_woe_zero_iff",
    "OptBinning.C20_table_woe",
    "OptBinning.C20_pure_event_bin_shows_zero"
   ],
   "note": "Both transformations, table columns; C20_pure_event_bin_shows_zero: a bin with only events shows event rate 0."
  },
  {
   "property": "C21",
   "status": "partial",
   "theorems": [
    "OptBinning.C21_nonneg",
    "OptBinning.C21_bounds",
    "OptBinning.C21_symmetric",
    "OptBinning.C21_zero_iff_partial",
    "OptBinning.C21_zero_iff_on_mixed",
    "OptBinning.C21_pure_bins_hide_divergence",
    "OptBinning.C21_separated_table_raises"
   ],
   "note": "Non-negativity, bounds, symmetry for all tables. 'Zero only for equal distributions' holds without pure bins and is false with them (C21_pure_bins_hide_divergence); build raises if all bins are pure (C21_separated_table_raises)."
  },
  {
   "property": "C22",
   "status": "partial",
   "theorems": [
    "OptBinning.C22_merging_partial",
    "OptBinning.C22_two_bins",
    "OptBinning.C22_merging_pure_bin_increases_iv"
   ],
   "note": "Any coarsening, without pure bins; false with pure bins (C22_merging_pure_bin_increases_iv)."
  },
  {
   "property": "C23",
   "status": "proved",
   "theorems": [
    "OptBinning.C23_gini_is_concordance",
    "OptBinning.C23_ranges",
    "OptBinning.C23_ks_is_max_gap",
    "OptBinning.C23_quality_score",
    "OptBinning.C23_other_quality_scores"
   ],
   "note": "For every sorting order of ties; Gini shown equal to the concordance, KS to the largest gap."
  },
  {
   "property": "C24",
   "status": "proved",
   "theorems": [
    "OptBinning.C24_accounts",
    "OptBinning.C24_rank_bounds"
   ],
   "note": "exact rationals instead of floats; eps > 0; any history of add/len/quantile on one sketch"
  },
  {
   "property": "C25",
   "status": "proved",
   "theorems": [
    "OptBinning.C25_quantile",
    "OptBinning.C25_rejects"
   ],
   "note": "exact rationals instead of floats; eps > 0"
  },
  {
   "property": "C26",
   "status": "partial",
   "theorems": [
    "OptBinning.C26_sketch_counts",
    "OptBinning.C26_merge_drops_missing",
    "OptBinning.C26_merge_drops_missing_example",
    "OptBinning.C26_merge_forgets_missing",
    "OptBinning.C26_merge_aliases",
    "OptBinning.C26_mergeable_ignores_codes",
    "OptBinning.C26_merge_counts",
    "OptBinning.C26_merged_quantile",
    "OptBinning.C26_mergeable",
    "OptBinning.C26_merge_loses_precision",
    "OptBinning.C26_weights_exceed_count",
    "OptBinning.C26_bins_total",
    "OptBinning.C26_bins_total_merged"
   ],
   "note": "Counts add up for every history in which each sketch is merged away at most once and not used afterwards, when both are non-empty for missing/special (full statement is false of the code: see findings C26_merge_*); quantile error for star-shaped merges"
  },
  {
   "property": "C27",
   "status": "proved",
   "theorems": [
    "OptBinning.C27_counts",
    "OptBinning.C27_order_irrelevant",
    "OptBinning.C27_totals",
    "OptBinning.C27_bins",
    "OptBinning.C27_merge_aliases",
    "OptBinning.C27_cutoff_counts_missing"
   ],
   "note": "all histories in which a merged-away sketch is not used again; aliasing witness C27_merge_aliases shows why"
  },
  {
   "property": "C28",
   "status": "partial",
   "theorems": [
    "OptBinning.C28_splits",
    "OptBinning.C28_number_of_bins",
    "OptBinning.C28_best_split",
    "OptBinning.C28_distinct_values",
    "OptBinning.C28_order_irrelevant",
    "OptBinning.C28_refit_accumulates",
    "OptBinning.C28_rejected_split_kept",
    "OptBinning.C28_rejected_split_example",
    "OptBinning.C28_tie_mismatch",
    "OptBinning.C28_order_dependent"
   ],
   "note": "termination, strictly increasing splits and leaf sizes for all data; the refit clause is false of the code (C28_refit_accumulates); further findings C28_rejected_split_kept, C28_tie_mismatch, C28_order_dependent"
  },
  {
   "property": "C29",
   "status": "proved",
   "theorems": [
    "OptBinning.C29_answer_is_true",
    "OptBinning.C29_no_monotonic_iff",
    "OptBinning.C29_strict",
    "OptBinning.C29_ties_reported_as_peak",
    "OptBinning.C29_analysis_regular",
    "OptBinning.C29_analysis_includes_special_rows"
   ],
   "note": "Every answer is characterised; findings: ties are reported as peak (still true as a weak peak), and the analysis report includes special rows when special_codes is a dict."
  },
  {
   "property": "C30",
   "status": "proved",
   "theorems": [
    "OptBinning.C30_auto",
    "OptBinning.C30_auto_asc_desc",
    "OptBinning.C30_auto_heuristic",
    "OptBinning.C30_explicit_trend",
    "OptBinning.C30_heuristic_position",
    "OptBinning.C30_shares"
   ],
   "note": "For every count vector with at least two pre-bins and every convex-hull value; the external ConvexHull and polyfit results are modelled exactly (slope sign) or as an arbitrary oracle (hull)."
  },
  {
   "property": "C31",
   "status": "proved",
   "theorems": [
    "OptBinning.C31_partition",
    "OptBinning.C31_ordered_by_event_rate",
    "OptBinning.C31_others",
    "OptBinning.C31_cutoff_error"
   ],
   "note": "Without user splits; groups partition the training categories, are ordered by event rate, others exactly by cutoff."
  },
  {
   "property": "C32",
   "status": "partial",
   "theorems": [
    "OptBinning.C32_unknown",
    "OptBinning.C32_unknown_index",
    "OptBinning.C32_unknown_rate",
    "OptBinning.C32_default_is_average",
    "OptBinning.C32_known_unaffected_partial",
    "OptBinning.C32_int_truncates_known",
    "OptBinning.C32_default_exceeds_one",
    "OptBinning.C32_default_mixed",
    "OptBinning.C32_unknown_woe_zero",
    "OptBinning.C32_woe_known_and_given"
   ],
   "note": "Unknown categories as documented; the default is the average only with an empirical option (C32_default_exceeds_one), and an integer cat_unknown truncates all other values (C32_int_truncates_known)."
  },
  {
   "property": "C33",
   "status": "partial",
   "theorems": [
    "OptBinning.C33_pdo_score",
    "OptBinning.C33_pdo_anchor_partial",
    "OptBinning.C33_pdo_ranking",
    "OptBinning.C33_pdo_reverse_shifted",
    "OptBinning.C33_unscaled",
    "OptBinning.C33_intercept_based_same",
    "OptBinning.C33_intercept_based_nonneg",
    "OptBinning.C33_unknown_gets_missing_points",
    "OptBinning.C33_stale_intercept",
    "OptBinning.C33_rounding",
    "OptBinning.C33_minmax_affine",
    "OptBinning.C33_points_use_model_value"
   ],
   "note": "pdo_odds and min_max scores as affine functions of the linear predictor, anchor and pdo, ranking, intercept_based, rounding error, end-to-end link to transform. False with reverse_scorecard (C33_pdo_reverse_shifted: intercept has the wrong sign), for unknown categories (C33_unknown_gets_missing_points) and after a refit (C33_stale_intercept); unscaled scores omit the intercept (C33_unscaled)."
  },
  {
   "property": "C34",
   "status": "partial",
   "theorems": [
    "OptBinning.C34_rint_ties_to_even",
    "OptBinning.C34_range",
    "OptBinning.C34_rounded_range_partial",
    "OptBinning.C34_end_not_attained",
    "OptBinning.C34_backup_leaves_range"
   ],
   "note": "Unrounded: range and both ends. Rounded: range for every answer satisfying the constraints; ends need not be attained (C34_end_not_attained) and the back-up rounding leaves the range (C34_backup_leaves_range)."
  },
  {
   "property": "C35",
   "status": "proved",
   "theorems": [
    "OptBinning.C35_range_interval",
    "OptBinning.C35_between_unflagged",
    "OptBinning.C35_hdi_keeps_share",
    "OptBinning.C35_eti_keeps_share",
    "OptBinning.C35_zscore_interval",
    "OptBinning.C35_zscore_keeps_half",
    "OptBinning.C35_yquantile_local",
    "OptBinning.C35_eti_flags_all",
    "OptBinning.C35_hdi_full_length_raises",
    "OptBinning.C35_zscore_zero_mad"
   ],
   "note": "RangeDetector (ETI, HDI), ModifiedZScoreDetector and YQuantileDetector(zscore): the flagged values are exactly those outside one interval that depends on the values only; share kept. Findings: interval_length=0 can flag everything, HDI with interval_length=1 always raises, zero MAD flags every value other than the median. Exact rationals instead of floats."
  },
  {
   "property": "C36",
   "status": "partial",
   "theorems": [
    "OptBinning.C36_defined",
    "OptBinning.C36_psi_partial",
    "OptBinning.C36_symmetric",
    "OptBinning.C36_empty_bins",
    "OptBinning.C36_system_counts",
    "OptBinning.C36_variable_counts_partial",
    "OptBinning.C36_new_bin_invisible",
    "OptBinning.C36_missing_invisible"
   ],
   "note": "System PSI: non-negative, zero iff same distribution when every bin is populated, symmetric always; system counts add up. False parts: empty bins give inf/NaN (C36_empty_bins); the per-variable report drops actual records above the largest expected index (C36_new_bin_invisible) and merges missing with bin 0 (C36_missing_invisible)."
  },
  {
   "property": "C37",
   "status": "partial",
   "theorems": [
    "OptBinning.C37_ks_exact_partial",
    "OptBinning.C37_ks_below_distance",
    "OptBinning.C37_ks_short_by_one_record",
    "OptBinning.C37_ks_range",
    "OptBinning.C37_perfect_separation_not_one",
    "OptBinning.C37_one_sided",
    "OptBinning.C37_ties_depend_on_order",
    "OptBinning.C37_imbalanced_rates"
   ],
   "note": "Exact behaviour proved: the largest signed lead minus 1/n_nonevent. The full claim is false: C37_ks_below_distance, C37_perfect_separation_not_one, C37_one_sided, C37_ties_depend_on_order."
  },
  {
   "property": "C38",
   "status": "partial",
   "theorems": [
    "OptBinning.C38_table_restored_partial",
    "OptBinning.C38_not_fitted",
    "OptBinning.C38_restored_cannot_transform",
    "OptBinning.C38_stale_transform"
   ],
   "note": "Only the binning table is restored; the claim is false for every object (C38_restored_cannot_transform, C38_stale_transform)."
  },
  {
   "property": "C39",
   "status": "proved",
   "theorems": [
    "OptBinning.C39_transform_shows_table",
    "OptBinning.C39_regular_values_unaffected"
   ],
   "note": "Numerical variables; metric options empirical or numeric."
  },
  {
   "property": "C40",
   "status": "partial",
   "theorems": [
    "OptBinning.C40_bins_accuracy",
    "OptBinning.C40_boundary_mismatch"
   ],
   "note": "accuracy and totals proved; the boundary clause is false of the code (C40_boundary_mismatch)"
  },
  {
   "property": "C41",
   "status": "partial",
   "theorems": [
    "OptBinning.C41_changes",
    "OptBinning.C41_outcome_binary",
    "OptBinning.C41_outcome_continuous",
    "OptBinning.C41_outcome_probability",
    "OptBinning.C41_diversity",
    "OptBinning.C41_candidates",
    "OptBinning.C41_no_proximity",
    "OptBinning.C41_special_row_is_candidate",
    "OptBinning.C41_default_max_changes"
   ],
   "note": "All clauses proved when 'proximity' is among the objectives (default); without it the outcome clause is false (C41_no_proximity). special_missing=False leaves special rows as candidates when a dictionary of specials is used; default max_changes is 0 for one variable."
  },
  {
   "property": "C42",
   "status": "proved",
   "theorems": [
    "OptBinning.C42_closest",
    "OptBinning.C42_hierarchical",
    "OptBinning.C42_first_objective",
    "OptBinning.C42_feasible"
   ],
   "note": "Weighted and hierarchical methods, all outcome types; requires 'proximity' among the objectives (default), non-negative weights and range weights. For outcome type probability the probability is the piecewise linear approximation g passed to the model. Solver answers are assumed optimal."
  },
  {
   "property": "C43",
   "status": "proved",
   "theorems": [
    "OptBinning.C43_partition",
    "OptBinning.C43_transform_indices",
    "OptBinning.C43_transform_special_missing",
    "OptBinning.C43_unknown_gets_first_bin",
    "OptBinning.C43_unknown_in_no_bin",
    "OptBinning.C43_transform_event_rate",
    "OptBinning.C43_transform_woe"
   ],
   "note": "Every pair of known values in exactly one bin; indices, event_rate, woe transforms; special/missing rows. Finding: unseen categories and inf get index 0 (C43_unknown_gets_first_bin)."
  },
  {
   "property": "C44",
   "status": "partial",
   "theorems": [
    "OptBinning.C44_rows",
    "OptBinning.C44_special_missing_rows",
    "OptBinning.C44_totals"
   ],
   "note": "Bin, special and missing rows count exactly the records described. Missing: 'exactly once' is false of the code: records that are special and missing are counted twice (C44_totals states the exact total)."
  },
  {
   "property": "C45",
   "status": "proved",
   "theorems": [
    "OptBinning.C45_limits"
   ],
   "note": "All limits, both solvers (any ordered ring of solver values)."
  },
  {
   "property": "C46",
   "status": "proved",
   "theorems": [
    "OptBinning.C46_neighbours",
    "OptBinning.C46_along_lines"
   ],
   "note": "Neighbouring bins and along every horizontal/vertical line."
  },
  {
   "property": "C47",
   "status": "proved",
   "theorems": [
    "OptBinning.C47_optimal",
    "OptBinning.C47_optimal_gamma",
    "OptBinning.C47_infeasible",
    "OptBinning.C47_allowed",
    "OptBinning.C47_cp_gap"
   ],
   "note": "OPTIMAL: divergence (with and without gamma) maximal over all admissible tilings; CP gap of 1e-6 per bin; INFEASIBLE: none exists; result is admissible."
  },
  {
   "property": "C48",
   "status": "partial",
   "theorems": [
    "OptBinning.C48_table",
    "OptBinning.C48_solution",
    "OptBinning.C48_monotone",
    "OptBinning.C48_min_mean_diff",
    "OptBinning.C48_exact_partial",
    "OptBinning.C48_rounding_keeps_trend",
    "OptBinning.C48_peak_excludes_mixed_signs"
   ],
   "note": "Soundness proved for all trends, at solver and table level; completeness proved except for peak/valley trends with group means of both signs, for which it is refuted (C48_peak_excludes_mixed_signs)."
  },
  {
   "property": "C49",
   "status": "partial",
   "theorems": [
    "OptBinning.C49_optimal_partial",
    "OptBinning.C49_gamma_no_effect"
   ],
   "note": "Optimality proved under the same sign condition for peak/valley; the gamma clause is refuted (C49_gamma_no_effect)."
  },
  {
   "property": "C50",
   "status": "proved",
   "theorems": [
    "OptBinning.C50_rows",
    "OptBinning.C50_weighted",
    "OptBinning.C50_weights_distort_max"
   ],
   "note": "Numerical variable, unit weights, known targets."
  },
  {
   "property": "C51",
   "status": "partial",
   "theorems": [
    "OptBinning.C51_totals",
    "OptBinning.C51_total_min_max",
    "OptBinning.C51_iv",
    "OptBinning.C51_iv_zero_iff",
    "OptBinning.C51_merge",
    "OptBinning.C51_empty_rows_inflate_woe",
    "OptBinning.C51_uninformative_score"
   ],
   "note": "All clauses proved for unit weights and known targets, Min/Max for a fresh object; the quality-score clause is refuted (C51_uninformative_score)."
  },
  {
   "property": "C52",
   "status": "proved",
   "theorems": [
    "OptBinning.C52_options",
    "OptBinning.C52_value",
    "OptBinning.C52_given_values",
    "OptBinning.C52_sum_preserved",
    "OptBinning.C52_least_squares",
    "OptBinning.C52_range"
   ],
   "note": "Numerical variable, unit weights, known targets."
  },
  {
   "property": "C53",
   "status": "partial",
   "theorems": [
    "OptBinning.C53_dict_needs_special",
    "OptBinning.C53_empty_user_splits",
    "OptBinning.C53_single_split_empty_side",
    "OptBinning.C53_refit_keeps_missing",
    "OptBinning.C53_fresh_missing",
    "OptBinning.C53_unknown_target"
   ],
   "note": "The claim as stated is refuted in five ways (findings); proved: fresh objects (C53_fresh_missing)."
  },
  {
   "property": "C54",
   "status": "partial",
   "theorems": [
    "OptBinning.C54_limits_cp",
    "OptBinning.C54_limits_mip",
    "OptBinning.C54_trend_cp_partial",
    "OptBinning.C54_trend_mip_partial",
    "OptBinning.C54_max_pvalue",
    "OptBinning.C54_min_event_rate_diff_mip",
    "OptBinning.C54_min_event_rate_diff_cp",
    "OptBinning.C54_other_trends_ignored",
    "OptBinning.C54_concave_violated",
    "OptBinning.C54_table_limits",
    "OptBinning.C54_table_trend_mip_partial",
    "OptBinning.C54_table_trend_cp_partial",
    "OptBinning.C54_table_min_event_rate_diff",
    "OptBinning.C54_table_max_pvalue"
   ],
   "note": "proved for both formulations for the limits on the number of bins, fixed splits, trends ascending/descending/peak/valley, p-value and rate difference; the heuristic/concave/convex trends are not enforced by the code (C54_other_trends_ignored, counterexample C54_concave_violated); min_bin_size/max_bin_size not modelled"
  },
  {
   "property": "C55",
   "status": "partial",
   "theorems": [
    "OptBinning.C55_exact_cp",
    "OptBinning.C55_exact_mip",
    "OptBinning.C55_objective_mip",
    "OptBinning.C55_objective_cp",
    "OptBinning.C55_optimal_mip",
    "OptBinning.C55_optimal_cp",
    "OptBinning.C55_cuts_exclude_admissible"
   ],
   "note": "exact characterisation, objective and optimality proved for both formulations when the model adds no cuts (MultiNoCuts); with the cuts of ascending/descending the full claim is false of the code (C55_cuts_exclude_admissible), only soundness (C54) holds"
  },
  {
   "property": "C56",
   "status": "proved",
   "theorems": [
    "OptBinning.C56_classes",
    "OptBinning.C56_rows",
    "OptBinning.C56_rows_user",
    "OptBinning.C56_count",
    "OptBinning.C56_totals",
    "OptBinning.C56_all_records",
    "OptBinning.C56_rates",
    "OptBinning.C56_shares",
    "OptBinning.C56_nonpure",
    "OptBinning.C56_fit_succeeds",
    "OptBinning.C56_unseen_label_dropped"
   ],
   "note": "Numerical fits; the outlier detector is excluded from the count statements (it drops records), present in the row-level limits."
  },
  {
   "property": "C57",
   "status": "proved",
   "theorems": [
    "OptBinning.C57_mean_woe",
    "OptBinning.C57_weighted_mean_woe",
    "OptBinning.C57_between",
    "OptBinning.C57_metric_special_missing",
    "OptBinning.C57_two_classes",
    "OptBinning.C57_read_json_transform",
    "OptBinning.C57_json_table"
   ],
   "note": "Metric \"bins\" is not modelled."
  },
  {
   "property": "C58",
   "status": "proved",
   "theorems": [
    "OptBinning.C58_limits",
    "OptBinning.C58_bin_size",
    "OptBinning.C58_trend",
    "OptBinning.C58_min_event_rate_diff",
    "OptBinning.C58_max_pvalue"
   ],
   "note": "CP (the only solver of SBOptimalBinning); all trends, sizes, p-value and rate difference in every scenario, for every valid solver answer"
  },
  {
   "property": "C59",
   "status": "partial",
   "theorems": [
    "OptBinning.C59_exact_partial",
    "OptBinning.C59_objective",
    "OptBinning.C59_optimal_partial",
    "OptBinning.C59_default_weights",
    "OptBinning.C59_whole_weights",
    "OptBinning.C59_weight_bounds",
    "OptBinning.C59_half_optimal",
    "OptBinning.C59_weights_rounded_away",
    "OptBinning.C59_concave_excludes_admissible"
   ],
   "note": "exactness and optimality proved for trends other than concave/convex; for concave the full claim is false of the code (C59_concave_excludes_admissible), soundness is C58; the weights seen by the solver are truncated, with default or whole-number weights the claim is exact, otherwise within a factor 2"
  },
  {
   "property": "C60",
   "status": "proved",
   "theorems": [
    "OptBinning.C60_rows",
    "OptBinning.C60_totals",
    "OptBinning.C60_merged",
    "OptBinning.C60_nonpure"
   ],
   "note": "targets known; special_codes a list"
  },
  {
   "property": "C61",
   "status": "proved",
   "theorems": [
    "OptBinning.C61_n_bins",
    "OptBinning.C61_bin_size",
    "OptBinning.C61_trend",
    "OptBinning.C61_min_event_rate_diff",
    "OptBinning.C61_max_pvalue"
   ],
   "note": "all tables, all scenarios"
  },
  {
   "property": "C62",
   "status": "partial",
   "theorems": [
    "OptBinning.C62_mixed_candidates",
    "OptBinning.C62_fails",
    "OptBinning.C62_single_class_fails",
    "OptBinning.C62_succeeds",
    "OptBinning.C62_fixed_splits_partial",
    "OptBinning.C62_fixed_lost",
    "OptBinning.C62_fixed_removed_silently"
   ],
   "note": "success and failure characterised; fixed splits proved when nothing is refined, counterexamples otherwise"
  },
  {
   "property": "C63",
   "status": "proved",
   "theorems": [
    "OptBinning.C63_metrics",
    "OptBinning.C63_selection",
    "OptBinning.C63_bounds",
    "OptBinning.C63_fixed_selected",
    "OptBinning.C63_no_criteria",
    "OptBinning.C63_bounds_exact",
    "OptBinning.C63_top_number",
    "OptBinning.C63_best",
    "OptBinning.C63_not_empty",
    "OptBinning.C63_key_order",
    "OptBinning.C63_top_alone_ignored",
    "OptBinning.C63_unknown_fixed"
   ],
   "note": "whole statement, for the first fit of an object (later fits: C67)"
  },
  {
   "property": "C64",
   "status": "partial",
   "theorems": [
    "OptBinning.C64_shape",
    "OptBinning.C64_columns_partial",
    "OptBinning.C64_columns_default",
    "OptBinning.C64_actual_args",
    "OptBinning.C64_mixed_indices_truncated",
    "OptBinning.C64_nothing_selected",
    "OptBinning.C64_piecewise_rejected",
    "OptBinning.C64_parameter_leaks"
   ],
   "note": "full statement false: parameters given for one variable leak to later ones (C64_parameter_leaks) and 'indices' truncates other metrics; proved for parameters without leak, and the actual arguments are characterised"
  },
  {
   "property": "C65",
   "status": "partial",
   "theorems": [
    "OptBinning.C65_rows_partial",
    "OptBinning.C65_chunksize_partial",
    "OptBinning.C65_same_as_transform_partial",
    "OptBinning.C65_chunksize_matters",
    "OptBinning.C65_appends"
   ],
   "note": "full statement false: leak across chunks; proved for parameters given for all selected variables or none"
  },
  {
   "property": "C66",
   "status": "proved",
   "theorems": [
    "OptBinning.C66_njobs",
    "OptBinning.C66_column_order",
    "OptBinning.C66_array_or_frame",
    "OptBinning.C66_disk",
    "OptBinning.C66_objects",
    "OptBinning.C66_ready",
    "OptBinning.C66_options",
    "OptBinning.C66_max_bin_size_ignored",
    "OptBinning.C66_unknown_option",
    "OptBinning.C66_from_dict"
   ],
   "note": "for the model of the parallel fit in which results are collected in block order"
  },
  {
   "property": "C67",
   "status": "partial",
   "theorems": [
    "OptBinning.C67_support",
    "OptBinning.C67_summary",
    "OptBinning.C67_update",
    "OptBinning.C67_piecewise_breaks_summary",
    "OptBinning.C67_stale_after_update",
    "OptBinning.C67_refit_reordered",
    "OptBinning.C67_refit_fewer"
   ],
   "note": "full statement false after update_binned_variable until summary, and for refits with changed variable_names; proved for all histories otherwise"
  },
  {
   "property": "C68",
   "status": "partial",
   "theorems": [
    "OptBinning.C68_special_missing",
    "OptBinning.C68_regular_total_partial",
    "OptBinning.C68_total_partial",
    "OptBinning.C68_single_prebin",
    "OptBinning.C68_double_count"
   ],
   "note": "holds with more than one pre-bin or without missing/special records; counterexample C68_double_count otherwise"
  },
  {
   "property": "C69",
   "status": "proved",
   "theorems": [
    "OptBinning.C69_splits",
    "OptBinning.C69_cumulative",
    "OptBinning.C69_row"
   ],
   "note": ""
  },
  {
   "property": "C70",
   "status": "proved",
   "theorems": [
    "OptBinning.C70_refinements_zero",
    "OptBinning.C70_solvable",
    "OptBinning.C70_errors",
    "OptBinning.C70_both_classes",
    "OptBinning.C70_splits_distinct"
   ],
   "note": ""
  },
  {
   "property": "C71",
   "status": "proved",
   "theorems": [
    "OptBinning.C71_limits_cp",
    "OptBinning.C71_limits_mip",
    "OptBinning.C71_trend_mip",
    "OptBinning.C71_trend_cp",
    "OptBinning.C71_min_event_rate_diff_mip",
    "OptBinning.C71_test_cp",
    "OptBinning.C71_test_mip",
    "OptBinning.C71_unsolved"
   ],
   "note": "C71 trend: exact for mip, up to 1e-6 for cp as in C12"
  },
  {
   "property": "C72",
   "status": "partial",
   "theorems": [
    "OptBinning.C72_batches",
    "OptBinning.C72_empty_batch",
    "OptBinning.C72_solve_keeps_records_partial",
    "OptBinning.C72_solve_not_idempotent",
    "OptBinning.C72_merged_total_partial",
    "OptBinning.C72_merge_without_data",
    "OptBinning.C72_accounted_all",
    "OptBinning.C72_merged_special_missing",
    "OptBinning.C72_merge_loses",
    "OptBinning.C72_merge_loses_object"
   ],
   "note": "the identity of later solves after splitting batches, special and missing rows of collecting objects are proved; missing: total rows when objects that collected others are merged again (tree-shaped merges), and solve in between only keeps the records, not the sketch state"
  },
  {
   "property": "C73",
   "status": "proved",
   "theorems": [
    "OptBinning.C73_partition",
    "OptBinning.C73_rows",
    "OptBinning.C73_total",
    "OptBinning.C73_ordered",
    "OptBinning.C73_mixed",
    "OptBinning.C73_others",
    "OptBinning.C73_transform",
    "OptBinning.C73_single_prebin",
    "OptBinning.C73_rates_ascending",
    "OptBinning.C73_collapse",
    "OptBinning.C73_collapse_table",
    "OptBinning.C73_double_counting"
   ],
   "note": "all programs of creations, chunks and merges; findings on collapse and single pre-bins"
  },
  {
   "property": "C74",
   "status": "proved",
   "theorems": [
    "OptBinning.C74_solvable",
    "OptBinning.C74_unbound",
    "OptBinning.C74_completes"
   ],
   "note": "both classes of errors characterised as stated"
  },
  {
   "property": "C75",
   "status": "proved",
   "theorems": [
    "OptBinning.C75_limits_cp",
    "OptBinning.C75_limits_mip",
    "OptBinning.C75_trend_mip",
    "OptBinning.C75_trend_cp",
    "OptBinning.C75_min_event_rate_diff_mip",
    "OptBinning.C75_test_cp",
    "OptBinning.C75_unsolved"
   ],
   "note": "cp and mip; min_event_rate_diff for mip, test for cp"
  },
  {
   "property": "C76",
   "status": "proved",
   "theorems": [
    "OptBinning.C76_routing",
    "OptBinning.C76_extra_columns",
    "OptBinning.C76_counters",
    "OptBinning.C76_stream_data",
    "OptBinning.C76_stream_table",
    "OptBinning.C76_merge_first"
   ],
   "note": "Numerical variables with sketch='gk'; categorical ones through the abstract class."
  },
  {
   "property": "C77",
   "status": "proved",
   "theorems": [
    "OptBinning.C77_solve_ok",
    "OptBinning.C77_criteria_never_solved",
    "OptBinning.C77_support",
    "OptBinning.C77_variable_without_data"
   ],
   "note": ""
  },
  {
   "property": "C78",
   "status": "proved",
   "theorems": [
    "OptBinning.C78_merge_crash",
    "OptBinning.C78_add_crash",
    "OptBinning.C78_solve_crash",
    "OptBinning.C78_merge_retry"
   ],
   "note": "RanUntil states the crash point; counters: C78_add_crash, C78_solve_crash."
  },
  {
   "property": "C79",
   "status": "proved",
   "theorems": [
    "OptBinning.C79_transform",
    "OptBinning.C79_metric_rejected",
    "OptBinning.C79_not_solved",
    "OptBinning.C79_no_leak",
    "OptBinning.C79_leak"
   ],
   "note": "C79_transform with C79_no_leak; without the condition the values leak to later variables (C79_leak)."
  },
  {
   "property": "C80",
   "status": "proved",
   "theorems": [
    "OptBinning.C80_histogram",
    "OptBinning.C80_totals",
    "OptBinning.C80_coefficients",
    "OptBinning.C80_outlier_twice"
   ],
   "note": "Without outlier detector (with one the detector runs twice: C80_outlier_twice) and without sample weights, which the class does not have."
  },
  {
   "property": "C81",
   "status": "proved",
   "theorems": [
    "OptBinning.C81_value",
    "OptBinning.C81_value_unbounded",
    "OptBinning.C81_ascending",
    "OptBinning.C81_descending",
    "OptBinning.C81_linear_ascending",
    "OptBinning.C81_continuous"
   ],
   "note": ""
  },
  {
   "property": "C82",
   "status": "partial",
   "theorems": [
    "OptBinning.C82_given_rate",
    "OptBinning.C82_empirical_partial",
    "OptBinning.C82_empirical_not_event_rate",
    "OptBinning.C82_given"
   ],
   "note": "Given numbers: proved. The claim about 'empirical' is false: the call swaps the counts of events and non-events (C82_empirical_not_event_rate); C82_empirical_partial states what is returned."
  },
  {
   "property": "C83",
   "status": "proved",
   "theorems": [
    "OptBinning.C83_two_classes",
    "OptBinning.C83_woe",
    "OptBinning.C83_bounded",
    "OptBinning.C83_monotone",
    "OptBinning.C83_empirical_missing_raises",
    "OptBinning.C83_no_other_error"
   ],
   "note": "The raising case is C83_empirical_missing_raises."
  },
  {
   "property": "C84",
   "status": "proved",
   "theorems": [
    "OptBinning.C84_divergence",
    "OptBinning.C84_fitted"
   ],
   "note": ""
  },
  {
   "property": "C85",
   "status": "partial",
   "theorems": [
    "OptBinning.C85_same_table",
    "OptBinning.C85_rows",
    "OptBinning.C85_user_splits",
    "OptBinning.C85_totals",
    "OptBinning.C85_value",
    "OptBinning.C85_value_unbounded",
    "OptBinning.C85_ascending",
    "OptBinning.C85_special_missing",
    "OptBinning.C85_coefficients",
    "OptBinning.C85_total_min_max",
    "OptBinning.C85_fit_transform_not_fit_then_transform"
   ],
   "note": "The clause about fit_transform is false (C85_fit_transform_not_fit_then_transform); all others are proved, with and without user splits (given their flags). split_digits is not modelled for this class."
  },
  {
   "property": "C86",
   "status": "partial",
   "theorems": [
    "OptBinning.C86_pairs_partial",
    "OptBinning.C86_only_one_group",
    "OptBinning.C86_fitted"
   ],
   "note": "False for a dict of more than one group of special codes (C86_only_one_group); C86_pairs_partial states the tested pairs."
  },
  {
   "property": "C87",
   "status": "proved",
   "theorems": [
    "OptBinning.C87_partition",
    "OptBinning.C87_transform_indices",
    "OptBinning.C87_transform_mean",
    "OptBinning.C87_transform_special_missing",
    "OptBinning.C87_unknown"
   ],
   "note": "Partition, indices and mean transforms, special/missing values, unknown values."
  },
  {
   "property": "C88",
   "status": "proved",
   "theorems": [
    "OptBinning.C88_rows",
    "OptBinning.C88_special_missing_rows",
    "OptBinning.C88_totals",
    "OptBinning.C88_iv",
    "OptBinning.C88_missing_target_iv_nan"
   ],
   "note": "Rows, special and missing rows, totals, WoE and IV; finding: one missing target makes the totals NaN."
  },
  {
   "property": "C89",
   "status": "proved",
   "theorems": [
    "OptBinning.C89_limits",
    "OptBinning.C89_neighbours",
    "OptBinning.C89_along_lines"
   ],
   "note": "Limits, neighbours, lines."
  },
  {
   "property": "C90",
   "status": "proved",
   "theorems": [
    "OptBinning.C90_optimal",
    "OptBinning.C90_optimal_gamma",
    "OptBinning.C90_infeasible",
    "OptBinning.C90_allowed",
    "OptBinning.C90_cp_gap"
   ],
   "note": "Optimality with and without gamma, infeasibility, CP gap; solver contract assumed."
  },
  {
   "property": "C91",
   "status": "proved",
   "theorems": [
    "OptBinning.C91_pairs_continuous",
    "OptBinning.C91_statistics_continuous",
    "OptBinning.C91_pairs",
    "OptBinning.C91_statistics"
   ],
   "note": "Pairs and arguments of the tests, both targets; the tests themselves are external."
  },
  {
   "property": "C92",
   "status": "proved",
   "theorems": [
    "OptBinning.C92_refinements_continuous",
    "OptBinning.C92_refinements"
   ],
   "note": "Both targets."
  },
  {
   "property": "C93",
   "status": "partial",
   "theorems": [
    "OptBinning.C93_partition",
    "OptBinning.C93_transform_indices",
    "OptBinning.C93_transform_event_rate",
    "OptBinning.C93_transform_woe",
    "OptBinning.C93_rows",
    "OptBinning.C93_special_missing_rows",
    "OptBinning.C93_totals",
    "OptBinning.C93_limits",
    "OptBinning.C93_neighbours_y",
    "OptBinning.C93_along_columns",
    "OptBinning.C93_pairs",
    "OptBinning.C93_same_leaf_same_bin",
    "OptBinning.C93_number_of_bins",
    "OptBinning.C93_partition_continuous",
    "OptBinning.C93_transform_indices_continuous",
    "OptBinning.C93_transform_mean",
    "OptBinning.C93_rows_continuous",
    "OptBinning.C93_totals_continuous",
    "OptBinning.C93_limits_continuous",
    "OptBinning.C93_neighbours_y_continuous",
    "OptBinning.C93_pairs_continuous",
    "OptBinning.C93_same_leaf_same_bin_continuous",
    "OptBinning.C93_number_of_bins_continuous",
    "OptBinning.C93_trend_x_not_enforced"
   ],
   "note": "everything is proved for both targets except the trend in x, which is false: proved counterexample C93_trend_x_not_enforced"
  },
  {
   "property": "C94",
   "status": "proved",
   "theorems": [
    "OptBinning.C94_optimal",
    "OptBinning.C94_optimal_gamma",
    "OptBinning.C94_infeasible",
    "OptBinning.C94_allowed",
    "OptBinning.C94_optimal_continuous",
    "OptBinning.C94_infeasible_continuous"
   ],
   "note": "binary (with and without gamma) and continuous target; the solver is an external with the contract of OR-tools"
  },
  {
   "property": "C95",
   "status": "proved",
   "theorems": [
    "OptBinning.C95_relative",
    "OptBinning.C95_mape",
    "OptBinning.C95_mape_zero_truth",
    "OptBinning.C95_mdape",
    "OptBinning.C95_smape",
    "OptBinning.C95_smdape",
    "OptBinning.C95_symmetric",
    "OptBinning.C95_scale",
    "OptBinning.C95_report",
    "OptBinning.C95_correct_zero"
   ],
   "note": "Exact arithmetic with NaN and infinities; C95_correct_zero records that a correct prediction of zero makes all metrics NaN."
  },
  {
   "property": "C96",
   "status": "proved",
   "theorems": [
    "OptBinning.C96_tests_rows",
    "OptBinning.C96_tests_fail",
    "OptBinning.C96_statistic",
    "OptBinning.C96_symmetric",
    "OptBinning.C96_tests_continuous",
    "OptBinning.C96_target",
    "OptBinning.C96_boundary_label",
    "OptBinning.C96_psi_table",
    "OptBinning.C96_variable",
    "OptBinning.C96_variable_order",
    "OptBinning.C96_summary_skips_nan",
    "OptBinning.C96_histogram",
    "OptBinning.C96_histogram_boundary"
   ],
   "note": "Includes the exact failure condition (C96_tests_fail) and findings C96_boundary_label, C96_summary_skips_nan, C96_histogram_boundary; 'summary is the total' holds when no bin is empty in both samples."
  },
  {
   "property": "C97",
   "status": "proved",
   "theorems": [
    "OptBinning.C97_gini",
    "OptBinning.C97_range",
    "OptBinning.C97_ranking",
    "OptBinning.C97_order",
    "OptBinning.C97_reversed",
    "OptBinning.C97_constant"
   ],
   "note": "Mann-Whitney form proved for the trapezoid area of the dropped-intermediate ROC curve."
  },
  {
   "property": "C98",
   "status": "partial",
   "theorems": [
    "OptBinning.C98_last_fit",
    "OptBinning.C98_tables",
    "OptBinning.C98_not_fitted",
    "OptBinning.C98_rejected",
    "OptBinning.C98_mixture"
   ],
   "note": "The last clause (a failed fit leaves the object as it was) is false: C98_mixture is a counterexample; rejected calls change nothing (C98_rejected)."
  },
  {
   "property": "C99",
   "status": "proved",
   "theorems": [
    "OptBinning.C99_parameters",
    "OptBinning.C99_fails",
    "OptBinning.C99_fails_fisher",
    "OptBinning.C99_pairs",
    "OptBinning.C99_pairs_fisher",
    "OptBinning.C99_bayesian_deterministic",
    "OptBinning.C99_bayesian_range",
    "OptBinning.C99_bayesian_half",
    "OptBinning.C99_cramer",
    "OptBinning.C99_bayesian",
    "OptBinning.C99_quality",
    "OptBinning.C99_fit_succeeds_basic",
    "OptBinning.C99_fit_pvalues_basic",
    "OptBinning.C99_fit_succeeds",
    "OptBinning.C99_fit_pvalues"
   ],
   "note": "SciPy's survival function, Fisher test and incomplete beta function are arbitrary functions."
  },
  {
   "property": "C100",
   "status": "proved",
   "theorems": [
    "OptBinning.C100_fails",
    "OptBinning.C100_pairs",
    "OptBinning.C100_cramer",
    "OptBinning.C100_fit_succeeds"
   ],
   "note": "SciPy's survival function is an arbitrary function."
  },
  {
   "property": "C101",
   "status": "proved",
   "theorems": [
    "OptBinning.C101_pairs",
    "OptBinning.C101_sign",
    "OptBinning.C101_overstated"
   ],
   "note": "the p-value (a SciPy function of the statistic and the counts) is not modelled"
  },
  {
   "property": "C102",
   "status": "partial",
   "theorems": [
    "OptBinning.C102_checks",
    "OptBinning.C102_nan_gamma_accepted",
    "OptBinning.C102_limits",
    "OptBinning.C102_trend_mip",
    "OptBinning.C102_trend_cp",
    "OptBinning.C102_min_diff_mip",
    "OptBinning.C102_min_diff_cp",
    "OptBinning.C102_refused",
    "OptBinning.C102_pvalues",
    "OptBinning.C102_max_size_exceeded",
    "OptBinning.C102_pure_kept"
   ],
   "note": "Proved for all arguments, data and solver answers except that the range check accepts NaN/infinite gamma and time_limit (C102_checks states exactly which arguments are accepted; C102_nan_gamma_accepted), and max_bin_size holds only after rounding up (C102_limits gives the exact bound, C102_max_size_exceeded). Type checks are not modelled."
  },
  {
   "property": "C103",
   "status": "partial",
   "theorems": [
    "OptBinning.C103_limits_mip",
    "OptBinning.C103_limits_cp",
    "OptBinning.C103_monotone_mip",
    "OptBinning.C103_monotone_cp",
    "OptBinning.C103_reported",
    "OptBinning.C103_attained",
    "OptBinning.C103_missing_not_maximal",
    "OptBinning.C103_pure_mip",
    "OptBinning.C103_pure_cp"
   ],
   "note": "Proved for iv and js, any limits with trend None/peak/valley (or ascending/descending with a minimum rate difference), for ascending/descending with max_n_bins only, and for hellinger/triangular with non-empty pre-bins and mixed intervals (C103_pure_*); elsewhere the claim fails because of the preprocessing cuts (C18_cuts_exclude_admissible) or because special/missing records change the totals of the table (C103_missing_not_maximal). Concave/convex and gamma > 0 not covered."
  },
  {
   "property": "C104",
   "status": "proved",
   "theorems": [
    "OptBinning.C104_checks",
    "OptBinning.C104_nan_accepted",
    "OptBinning.C104_resolve",
    "OptBinning.C104_limits",
    "OptBinning.C104_trend",
    "OptBinning.C104_monotone",
    "OptBinning.C104_min_mean_diff",
    "OptBinning.C104_pvalues",
    "OptBinning.C104_refused",
    "OptBinning.C104_max_size_exceeded"
   ],
   "note": "Full statement on the model of a numerical variable without user splits. The t-test p-value is an arbitrary function of the six numbers scipy receives. The external solver is any solver respecting the constraints it was given (RespectsC)."
  },
  {
   "property": "C105",
   "status": "proved",
   "theorems": [
    "OptBinning.C105_optimal",
    "OptBinning.C105_iv_not_maximal"
   ],
   "note": "unit weights; trends None/ascending/descending, peak/valley for targets of one sign; tolerance 1e-6 per interval (integer solver). The table IV is not maximal: C105_iv_not_maximal (finding 66)."
  },
  {
   "property": "C106",
   "status": "proved",
   "theorems": [
    "OptBinning.C106_data",
    "OptBinning.C106_cp_mip",
    "OptBinning.C106_ls",
    "OptBinning.C106_ls_raises"
   ],
   "note": "C106_cp_mip: cp and mip are the fits of the other properties; C106_ls, C106_ls_raises: solver='ls' never returns a split"
  },
  {
   "property": "C107",
   "status": "proved",
   "theorems": [
    "OptBinning.C107_checks",
    "OptBinning.C107_trend_mip",
    "OptBinning.C107_trend_cp",
    "OptBinning.C107_limits",
    "OptBinning.C107_min_event_rate_diff",
    "OptBinning.C107_pvalues",
    "OptBinning.C107_list_length",
    "OptBinning.C107_succeeds",
    "OptBinning.C107_refused",
    "OptBinning.C107_ignored",
    "OptBinning.C107_wrong_length_accepted"
   ],
   "note": "min_bin_size/max_bin_size are checked but their effect in the multiclass solver (two-dimensional array handed to ortools) is not modelled; cp: trends and min_event_rate_diff up to six decimals, as documented in C54; list entries concave, convex, *_heuristic and auto_heuristic are ignored by the code (C107_ignored)"
  },
  {
   "property": "C108",
   "status": "proved",
   "theorems": [
    "OptBinning.C108_printed",
    "OptBinning.C108_show_digits",
    "OptBinning.C108_same_row",
    "OptBinning.C108_interval",
    "OptBinning.C108_special_missing",
    "OptBinning.C108_distinct",
    "OptBinning.C108_collision"
   ],
   "note": "Numerical variables; categorical labels are the category arrays themselves (not modelled as text); the sign of a printed negative zero is not modelled. Splits are exact rationals."
  },
  {
   "property": "C109",
   "status": "proved",
   "theorems": [
    "OptBinning.C109_value",
    "OptBinning.C109_bounds",
    "OptBinning.C109_zero_iff",
    "OptBinning.C109_max_iff",
    "OptBinning.C109_joined",
    "OptBinning.C109_fit",
    "OptBinning.C109_weights",
    "OptBinning.C109_negative_weights"
   ],
   "note": "Over real numbers."
  },
  {
   "property": "C110",
   "status": "proved",
   "theorems": [
    "OptBinning.C110_checks",
    "OptBinning.C110_checks_binary",
    "OptBinning.C110_refused",
    "OptBinning.C110_refused_continuous",
    "OptBinning.C110_limits",
    "OptBinning.C110_trends",
    "OptBinning.C110_returns",
    "OptBinning.C110_optimal",
    "OptBinning.C110_split_digits_ignored",
    "OptBinning.C110_limits_continuous",
    "OptBinning.C110_gamma_raises"
   ],
   "note": "argument checks, limits, trends, termination, optimality (mip/grid) for all accepted arguments; strategy cart: trend_x not enforced (C93)"
  },
  {
   "property": "C111",
   "status": "proved",
   "theorems": [
    "OptBinning.C111_rows",
    "OptBinning.C111_totals",
    "OptBinning.C111_transform",
    "OptBinning.C111_matrix",
    "OptBinning.C111_plot_lines",
    "OptBinning.C111_labels",
    "OptBinning.C111_iv_optimal"
   ],
   "note": "Theorems C111_*; labels and plot data, not the drawing; floats as reals."
  },
  {
   "property": "C112",
   "status": "proved",
   "theorems": [
    "OptBinning.C112_index_in_range",
    "OptBinning.C112_bins",
    "OptBinning.C112_admissible",
    "OptBinning.C112_min_event_rate_diff",
    "OptBinning.C112_exact",
    "OptBinning.C112_objective",
    "OptBinning.C112_optimal",
    "OptBinning.C112_monotone_optimal",
    "OptBinning.C112_agrees_with_cp",
    "OptBinning.C112_fallback",
    "OptBinning.C112_change_point_gap"
   ],
   "note": "Formulation of ls.py; the solver itself is an oracle. For concave/convex only soundness (the big-M constants exclude some admissible binnings, as with cp/mip)."
  },
  {
   "property": "C113",
   "status": "proved",
   "theorems": [
    "OptBinning.C113_checks",
    "OptBinning.C113_eps_zero",
    "OptBinning.C113_eps_zero_accepted",
    "OptBinning.C113_limits",
    "OptBinning.C113_trend_mip",
    "OptBinning.C113_trend_cp",
    "OptBinning.C113_min_event_rate_diff_mip",
    "OptBinning.C113_pvalue_cp",
    "OptBinning.C113_pvalue_mip",
    "OptBinning.C113_solvable",
    "OptBinning.C113_stays_solvable",
    "OptBinning.C113_solve_stats",
    "OptBinning.C113_progress",
    "OptBinning.C113_information",
    "OptBinning.C113_split_digits_ignored",
    "OptBinning.C113_information_example",
    "OptBinning.C113_flag_irrelevant"
   ],
   "note": "limits on bin size are relative to all labelled records, including special and missing ones, as in the code; time limits and t-digest sketches are not modelled"
  },
  {
   "property": "C114",
   "status": "proved",
   "theorems": [
    "OptBinning.C114_checks",
    "OptBinning.C114_lengths",
    "OptBinning.C114_limits",
    "OptBinning.C114_trend",
    "OptBinning.C114_table",
    "OptBinning.C114_order",
    "OptBinning.C114_order_error",
    "OptBinning.C114_one_scenario"
   ],
   "note": "Arguments of SBOptimalBinning, order of the scenarios, one scenario. The solver and the pre-binning are arbitrary (the latter independent of the record order for the order theorem)."
  },
  {
   "property": "C115",
   "status": "proved",
   "theorems": [
    "OptBinning.C115_saves",
    "OptBinning.C115_save_effect",
    "OptBinning.C115_roundtrip",
    "OptBinning.C115_failed_read",
    "OptBinning.C115_numerical",
    "OptBinning.C115_categorical",
    "OptBinning.C115_multiclass",
    "OptBinning.C115_resave",
    "OptBinning.C115_save_load_save"
   ],
   "note": "Saving and loading over Python/numpy values and file states; the JSON encoder is modelled by the types it accepts."
  },
  {
   "property": "C116",
   "status": "proved",
   "theorems": [
    "OptBinning.C116_checks",
    "OptBinning.C116_accepted_by_variables",
    "OptBinning.C116_options_binary",
    "OptBinning.C116_options_continuous",
    "OptBinning.C116_options_multiclass",
    "OptBinning.C116_item_order",
    "OptBinning.C116_refused",
    "OptBinning.C116_fit_binary",
    "OptBinning.C116_limits_binary",
    "OptBinning.C116_process_limits",
    "OptBinning.C116_limits_continuous",
    "OptBinning.C116_limits_multiclass",
    "OptBinning.C116_max_bin_size_ignored",
    "OptBinning.C116_crossed",
    "OptBinning.C116_max_bin_size_exceeded"
   ],
   "note": "Numerical variables; C116_limits_multiclass covers the number of bins only (multiclass fits with min_bin_size are not modelled)."
  },
  {
   "property": "C117",
   "status": "proved",
   "theorems": [
    "OptBinning.C117_round_monotone",
    "OptBinning.C117_round_near",
    "OptBinning.C117_accepted",
    "OptBinning.C117_as_prebinning",
    "OptBinning.C117_unflagged",
    "OptBinning.C117_splits",
    "OptBinning.C117_limits",
    "OptBinning.C117_trend_mip",
    "OptBinning.C117_trend_cp",
    "OptBinning.C117_min_diff_mip",
    "OptBinning.C117_min_diff_cp",
    "OptBinning.C117_pvalues",
    "OptBinning.C117_fixed",
    "OptBinning.C117_unflagged_kept",
    "OptBinning.C117_second_fit_refused",
    "OptBinning.C117_optimal_mip",
    "OptBinning.C117_optimal_cp",
    "OptBinning.C117_numpy_flags_refused"
   ],
   "note": "limits, trend, rate difference, p-values, fixed splits, optimality among the selections of the user splits (mip and cp up to 1e-6 per bin; user splits which are still distinct after rounding), equivalence with a pre-binning, rounding by split_digits (any monotone rounding; C117_round_monotone for np.round on exact values), refits"
  },
  {
   "property": "C118",
   "status": "proved",
   "theorems": [
    "OptBinning.C118_accepted",
    "OptBinning.C118_limits",
    "OptBinning.C118_trend_mip",
    "OptBinning.C118_trend_cp",
    "OptBinning.C118_min_diff_mip",
    "OptBinning.C118_min_diff_cp",
    "OptBinning.C118_pvalues",
    "OptBinning.C118_optimal_mip",
    "OptBinning.C118_optimal_cp",
    "OptBinning.C118_ascending_mip",
    "OptBinning.C118_bins",
    "OptBinning.C118_descending",
    "OptBinning.C118_split_digits_pairs",
    "OptBinning.C118_split_digits_two"
   ],
   "note": "fit of a categorical variable without user_splits; optimality for divergence iv/js, gamma 0, and (no trend or a minimum rate difference or no limit except max_n_bins); finding: every trend acts as ascending (C118_descending)"
  },
  {
   "property": "C119",
   "status": "proved",
   "theorems": [
    "OptBinning.C119_checks",
    "OptBinning.C119_options",
    "OptBinning.C119_object",
    "OptBinning.C119_table",
    "OptBinning.C119_limits",
    "OptBinning.C119_process_limits",
    "OptBinning.C119_trend_mip",
    "OptBinning.C119_trend_cp",
    "OptBinning.C119_min_event_rate_diff_mip",
    "OptBinning.C119_pvalue",
    "OptBinning.C119_refused",
    "OptBinning.C119_unknown_option",
    "OptBinning.C119_adds",
    "OptBinning.C119_completes",
    "OptBinning.C119_max_bin_size_unused",
    "OptBinning.C119_unchecked"
   ],
   "note": "numerical variables without merge of processes; GK sketches; limits relative to all labelled records of the variable's columns; findings: C119_max_bin_size_unused, C119_unchecked"
  },
  {
   "property": "C120",
   "status": "proved",
   "theorems": [
    "OptBinning.C120_accepted",
    "OptBinning.C120_as_prebinning",
    "OptBinning.C120_splits",
    "OptBinning.C120_limits",
    "OptBinning.C120_trend",
    "OptBinning.C120_monotone",
    "OptBinning.C120_min_mean_diff",
    "OptBinning.C120_pvalues",
    "OptBinning.C120_fixed",
    "OptBinning.C120_unflagged_kept",
    "OptBinning.C120_second_fit_refused",
    "OptBinning.C120_optimal",
    "OptBinning.C120_numpy_flags_refused"
   ],
   "note": "checks and errors, splits, limits, trend, p-values, fixed splits, optimality under flags, second fit; numpy rounding enters through any monotone rounding function"
  },
  {
   "property": "C121",
   "status": "proved",
   "theorems": [
    "OptBinning.C121_accepted",
    "OptBinning.C121_limits",
    "OptBinning.C121_trend",
    "OptBinning.C121_monotone",
    "OptBinning.C121_min_mean_diff",
    "OptBinning.C121_pvalues",
    "OptBinning.C121_optimal",
    "OptBinning.C121_others",
    "OptBinning.C121_bins",
    "OptBinning.C121_rows",
    "OptBinning.C121_descending",
    "OptBinning.C121_refused"
   ],
   "note": "fit of a categorical variable without user_splits; optimality and rows for unit weights; any ranking by mean target and any sorted pre-binning (split_digits is part of it); finding: every trend acts as ascending (C121_descending)"
  },
  {
   "property": "C122",
   "status": "proved",
   "theorems": [
    "OptBinning.C122_accepted",
    "OptBinning.C122_others",
    "OptBinning.C122_whole_groups",
    "OptBinning.C122_partition",
    "OptBinning.C122_rows",
    "OptBinning.C122_row_count",
    "OptBinning.C122_single_group_lost",
    "OptBinning.C122_optimal",
    "OptBinning.C122_arguments",
    "OptBinning.C122_limits",
    "OptBinning.C122_trend",
    "OptBinning.C122_min_mean_diff",
    "OptBinning.C122_pvalues"
   ],
   "note": "the clauses with two occurring groups are stated under that condition (the code loses the records of a single group: C122_single_group_lost), optimality if every group occurs; the sort of the groups is any permutation; user_splits_fixed: C123"
  },
  {
   "property": "C123",
   "status": "proved",
   "theorems": [
    "OptBinning.C123_arguments",
    "OptBinning.C123_groups",
    "OptBinning.C123_partition",
    "OptBinning.C123_rows",
    "OptBinning.C123_limits",
    "OptBinning.C123_trend",
    "OptBinning.C123_min_mean_diff",
    "OptBinning.C123_fixed",
    "OptBinning.C123_second_fit_refused",
    "OptBinning.C123_optimal"
   ],
   "note": "the sort of the groups is any argsort; clauses on rows and partition under the condition that two groups occur (C122_single_group_lost)"
  }
 ]
}