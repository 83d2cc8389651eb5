# Formal model of optbinning in Lean 4 — design

## Layout

* `lean/Verif/Model/*.lean`  executable/shallow model, branch by branch; each definition cites `/repo` file and lines.
* `lean/Verif/Spec/*.lean`   small specifications, written without reference to the model's helpers.
* `lean/Verif/Lemmas/*.lean` helper lemmas.
* `lean/Verif/Props/*.lean`  the property theorems (names start with the property id, e.g. `C08_…`), each followed by an
  `example` showing a concrete non-trivial case meeting its hypotheses.
* `properties.jsonl`, `MANIFEST.json`, `seeded/LOG.jsonl` as required by the task.

## Conventions and trusted base

* Lean's kernel; axioms at most `propext`, `Classical.choice`, `Quot.sound` (no own axioms, no compiled-code axioms).
* **Numbers.** Python ints are `ℤ`/`ℕ`.  IEEE floats are idealised: `ℚ` where only field operations/comparisons occur,
  `ℝ` where `log`, `exp`, `sqrt` occur, or any linear order where only comparisons occur.  Rounding of floating point
  arithmetic is *not* modelled.  `int64` overflow is not modelled.  `.astype(np.int64)` of a non-negative float is `⌊·⌋`
  (of a general float: truncation towards zero), and this truncation *is* modelled where it matters (CP rates, scaled by 10^6).
* **Missing values.** A cell is `none` (NaN / None) or `some v`.
* **Empty pre-bins.** NumPy gives NaN for the event rate (and the triangular divergence) of a pre-bin without any record; the solver models use 0.
  Such a pre-bin reaches the solver only with `divergence` "hellinger"/"triangular" (others remove it); theorems which depend on this say so.
* **Exceptions** are values (`Except`).
* **NumPy/pandas/sklearn/OR-tools** are external: boolean-mask selection, `digitize`, `searchsorted`, `cumsum`, `isin`,
  `argmax`, stable sort are re-defined by their documented meaning; decision trees/quantile binning (pre-binning) are an arbitrary
  list of splits; a solver is an arbitrary function that returns *some* assignment satisfying all constraints (and, for
  optimality claims, one of maximal objective) or a failure status.  The pre-binning estimators, LocalSolver, plotting,
  logging, printing, timing are not modelled.

## Plan per property

| id | what is modelled | how it is proved |
|----|------------------|------------------|
| C01 | `split_data` masks over `List (Cell × Target)` | list induction; counterexample for special & NaN target |
| C02 | `_fit` pipeline: split, prebins, solver answer, `bin_info` | sums over lists, C06, C08 |
| C03 | same + `transform` | merging prebins = digitizing with the sub-list of splits |
| C04 | `np.digitize`, interval spec | induction on splits |
| C05 | `_apply_transform` | masks; negation for default metric_missing=0 |
| C06 | `_compute_prebins` recursion (well-founded on number of splits) | functional induction |
| C07 | categorical branch of `_compute_prebins`, `bin_info` | negation by witness, partial theorem |
| C08–C16 | constraint generators of `cp.py`, `mip.py` as predicates over assignments `x : ℕ → ℕ → ℤ` | spec `IsBin sol s e`; invariants, telescoping |
| C17 | objective | telescoping |
| C18 | completeness of constraints | construction of the assignment; negations for preprocessing cuts and too small big-M; with only a trend and `max_n_bins` an exchange argument shows that the cuts keep an optimum |
| C19 | `solve` fallback | direct, with C02 |
| C20 | WoE transforms over ℝ | log/exp algebra |
| C21–C22 | divergences over ℝ | `x log x` convexity, log-sum inequality |
| C23 | gini, hhi, ks, quality score | rearrangement/Chebyshev, Cauchy–Schwarz, `t·exp((1-t²)/2) ≤ 1` |
| C24–C25 | GK state machine | invariant by induction over operation lists |
| C26–C27 | BSketch, BCatSketch (with object identity: heap of cells) | refinement to multiset counting; negations for lost counts and aliasing |
| C28 | MDLP recursion | well-founded recursion, negation for refit |
| C29–C30 | `auto_monotonic.py` | case analysis, list lemmas |
| C31–C32 | categorical code | list partition lemmas |
| C33–C34 | scorecard point scaling, rounding MIP constraints | field algebra |
| C35 | detectors | order lemmas |
| C36 | PSI | from C21 |
| C37 | `metrics.ks` | off-by-one: exact relation + negation of the claim |
| C38 | json round trip state machine | negation: `read_json` does not restore split state |
| C39 | transform to WoE / event rate for numerical and categorical variables | list lemmas, field/log algebra |
| C40 | `BSketch.bins` on top of the GK invariant | rank error bounds, telescoping |
| C41–C42 | counterfactual MIPs (`mip.py`, `multi_mip.py`) | positions of the binary rows ↔ proposals; encoding of every proposal as a solution; induction over the levels of the hierarchical method |
| C43–C47 | `OptimalBinning2D` (strategy `grid`): `preprocessing_2d.py`, `model_data_2d.py`, `cp_2d.py`, `mip_2d.py`, `binning_2d.py` fit/transform | solutions of the program ↔ tilings of the grid by rectangles (both directions), hence soundness, optimality and infeasibility; counting records per block |
| C48–C53 | `ContinuousOptimalBinning` (numerical variable): `continuous_cp.py`, `model_data.py:continuous_model_data`, `continuous_binning.py` fit, `binning_statistics.py` (`continuous_bin_info`, special/missing statistics, `ContinuousBinningTable.build`), `transform_continuous_target` | solutions of the program ↔ admissible binnings; row = summary of the records with its index by induction over the accumulation; least squares by the variance decomposition |
| C54–C55 | multiclass optimiser: `multiclass_cp.py`, `multiclass_mip.py`, `model_data.py:multiclass_model_data` | an assignment is accepted iff for every class it is accepted by the binary formulation with that class's trend (auxiliary variables per class), so exactness and optimality follow from C16/C17 class by class |
| C56–C57 | multiclass fit, table, transform: `multiclass_binning.py`, `binning_statistics.py:multiclass_bin_info, MulticlassBinningTable`, `transformations.py:transform_multiclass_target` | induction on the refinement; column k of the table = number of records of the class sent to k by `transform`; end-to-end trend, min-diff and p-value theorems on table rows by combining with C54 |
| C58–C62 | scenario-based binning: `uncertainty/binning_scenarios.py`, `cp.py:build_model_scenarios` | the constraint lemmas of C08–C19 applied to every scenario with shared variables (one change point), encode/decode completeness, real-analysis lemma on the integer weights, induction on the refinement for the tables; counterexamples for fixed splits |
| C63–C67 | `binning_process.py`: selection, transform, transform_disk, fit (parallel), fit_disk, fit_from_dict, update, summary | induction over metrics against a relational specification of a selection step (`Spec/Process.lean`), loop invariants for the overwritten local variables, `array_split` reassembles the index list, invariant over all histories of calls; counterexamples for parameter leaks and stale statistics |
| C68–C72 | `OptimalBinningSketch` (numerical, `sketch="gk"`): add, solve, merge | invariant over all histories (the object's sketches are filled with the used values of the streamed records), error bounds of C26/C40 carried through quantiles, refinement and `bin_info`; success of `solve` characterised; examples by kernel evaluation |
| C73–C75 | `OptimalBinningSketch` for a categorical variable: `solve`, `_compute_cat_prebins` | the world invariant of C27 gives the sketch contents; induction on the recursion of `_compute_cat_prebins` (splits are compared with positions in shorter and shorter lists, yet the counts stay those of the groups shown); solver-level statements carried to the table |
| C76–C79 | `BinningProcessSketch`: `add`, `merge`, `solve`, `transform`, `get_support` over abstract single objects, and with the objects of `Model/Stream.lean` | the loops over variables satisfy `RanUntil` (`Spec/ProcessSketch.lean`); routing by induction on the history; crash points from `RanUntil`; the numerical instance by simulation with `Stream.runMerge` |
| C80–C86 | `OptimalPWBinning` and `ContinuousOptimalPWBinning`: `fit` around the inner binning, the tables, `transform` (`event_rate`, `woe`, mean), divergences, the pairs of `analysis`; estimator and regression are arbitrary functions | table rows by the histogram lemmas of C03/C50 and the row specification `InRow` (`Spec/Piecewise.lean`); transform by `np.polyval` = polynomial, clamp to the nearest number in the bounds, induction over the split points for monotonicity and continuity; the WoE in NumPy arithmetic with inf/NaN; divergences by the non-negativity lemmas of C11 |
| C87–C92 | `ContinuousOptimalBinning2D` (strategy `grid`): the grid, the optimisation model, the tables, `transform`; the test pairs of `analysis` and the number of refinements for both two-dimensional classes | geometry of tilings shared with C43–C47 (`Lemmas/Geo2D.lean`); cell sums = sums over records; soundness and completeness of the 0/1 program for admissible tilings as in C47; the paths along rows and columns of the matrix of bins by induction over a line on which equal values are contiguous; counting of rectangles |
| C93, C94 | two-dimensional binning with strategy `cart` (binary and continuous target): the paths of the tree, the matrix of leaves, the candidate rectangles, the optimisation model | induction on the tree gives leaf of a cell = entry of the matrix; candidates = rectangles which are unions of ≥ 2 leaves (fold invariant); a feasible solution is then one of strategy `grid` without trend in `x`, so C43–C46, C87–C90 transfer |
| C95–C98 | `metrics/regression.py`, `gini`, the tables, reports and life cycle of `ScorecardMonitoring` | floats as rationals with NaN and infinities (`XQ`); the area under the corner points of the ROC curve is turned into a count of concordant pairs by induction on the sorted sample; Pearson's sum is rewritten into the two-sample proportion statistic; the object is a state machine over `fit` |
| C99–C101 | `analysis` of the three one-dimensional binning tables: test pairs, chi-square / Fisher / Bayesian / Welch statistics, Cramér's V | Pearson's sum rewritten by `ring`/`field_simp` into z² and the between-bin variance; zero/one cases by sums of squares; after a fit the failure condition is refuted with the bin contents proved for C03/C17 |
| C102 | `OptimalBinning`'s numeric and choice arguments: `_check_parameters`, `_fit_optimizer` (rounding, `_flag_min_n_event_nonevent`, auto trend), then `fit` | range checks by cases over NaN/infinite/finite floats; limits by C09/C11 with the options computed from the arguments, transported from solver bins to table rows (`fit_mixed`, `C09_table_limits`) |
| C103 | `fit` from the constructor arguments to the table, `Spec/Cuts.lean` describes tables by cut points only | `C18` (no admissible grouping of pre-bins excluded, optimum attained) transported from solver groupings to selections of split points (`CutBins`); for ascending/descending trends without further limits the preprocessing cuts keep an optimum (isotonic pooling argument, `Lemmas/Isotonic.lean`, `IsoDiv.lean`, `Optimal.lean`: convexity of the divergence) |
| C104 | `_check_parameters` of `ContinuousOptimalBinning`, automatic trend of the means, solver options, `fit` (`Model/ParamsC.lean`, `Model/Continuous.lean`); `Spec/TrendRows.lean` says what each `monotonic_trend` means for a sequence of rows | range checks by case analysis; `contTable` carries the solver's guarantees (C48) to Count, Mean and standard deviation of the rows; peaks and valleys by transporting the change point from pre-bins to rows |
| C105 | the whole continuous fit (`Model/ParamsC.lean`, `Model/Continuous.lean`, `Model/ContinuousSolver.lean`); `Spec/CutsC.lean` describes the table of arbitrary cut points (targets per interval, mean, standard deviation, distance) without pre-bins | selections of splits ↔ binnings of the pre-bins (`Lemmas/CutsC.lean`), then C49 |
| C106 | the tuple returned by `model_data`, the unpacking in the three `build_model`, the branch on `solver` in `_fit_optimizer` (`Model/SolverChoice.lean`) | unfolding; equality with `fitParams` for cp/mip; case split on the number of pre-bins for ls |
| C107 | `_check_parameters` and the trend resolution of `MulticlassOptimalBinning` (`Model/ParamsM.lean`), composed with the refinement, the solver model and the table of C54–C56 | case analysis of the checks; induction on the classes for the resolution; composition with `rowsM_bins` |
| C108 | `bin_str_format` and the label branch of the transforms (`Model/Labels.lean`), over exact rationals and lists of characters; a parser in `Spec/Labels.lean` reads a label back | digit induction (`Nat.digits`), rounding half to even, composition with the `transform` theorems of C01–C05 |
| C109 | `jensen_shannon_multivariate` on the matrix of class shares of a table (`Model/JsMulti.lean`), reals | convexity of x log x (Jensen, strict), log-sum inequality, sum over fibres of the row map; composition with C56 for the table of a fit |
| C110 | the argument checks of the two 2D classes and the passing of the arguments to the 2D job (`Model/Params2D.lean`) | check order by cases; C43–C47, C88–C89, C93 instantiated with the job of the arguments; optimality C47 over the reals for `mip`; concrete case with solver `mip` |
| C111 | `BinningTable2D.build`, the labels and the data drawn by `plot` (`Model/Table2D.lean`) on the table of `fitArgs2D` | C44/C45 facts of the fit turned into rows; C21/C23 for the divergences; C108 for printed numbers; step lines by the column-wise structure of a cover by rectangles; total IV = optimal value from C110; concrete fits |
| C112 | `BinningLS.build_model`, `solve` (`Model/LocalSolver.lean`): variables, the recursion for run lengths, table access from the end, all trends and limits | the recursion is the distance to the last end of a bin (induction), so a table access at an end is the total of its bin; each big-M inequality is equivalent to a statement on bins; completeness by a witness assignment; monotone optimality from the exchange argument of C18 |
| C113 | constructor checks, the object state between calls (`flag`, table, statistics, `_optimizer`), `add`, `solve` (with the final `build()`), `information`, `plot_progress` of `OptimalBinningSketch` (`Model/SketchArgs.lean`), on top of the numerical streaming model | check-by-check comparison with a specification of ranges; induction over the history of calls (data = the stream of C68, total = labelled records); limits by replacing the data-dependent options by constant ones (`stream_const`) and C71; flag irrelevance from `minMaxCount_iff` |
| C114 | constructor checks, length checks, mapping of the arguments to the optimiser and `binning_table_scenario` of `SBOptimalBinning` (`Model/ScenArgs.lean`) on top of `Model/Scenarios.lean` | check-by-check comparison with a specification of ranges (`Spec/ScenArgs.lean`); limits from C61; order: the accepted assignments of `build_model_scenarios` are common constraints plus one predicate per scenario, the objective is a sum over the scenarios scaled by the smallest weight, the refinement of pre-bins looks at the scenarios through `any` only – so a solver answer valid for one order is valid for the other; one scenario: constraint-by-constraint comparison with `BinningCP.build_model` |
| C115 | `to_json`, `read_json`, `binning_table` of the three estimators over Python and numpy values, with the state of the file (`Model/JsonFile.lean`); the standard JSON encoder is modelled by which types it writes | mutual structural induction over nested values: `dump` succeeds iff the value is storable (inductive predicate), `load ∘ dump`, `tolist` and `np.array` preserve the value up to its Python/numpy type; tables as lists of attributes |
| C116 | `_check_parameters` of `BinningProcess`, the options `_fit_variable` gives to the class of the target, `set_params` with the dictionary of the variable, composed with `procFit` and the three fits (`Model/ProcessArgs.lean`) | C66 (each variable is fitted on its own column) composed with C102, C104, C107; induction over the items of the dictionary |
| C117 | `_check_parameters` of `user_splits`/`user_splits_fixed`, `_fit` with user splits, flags handed to the solver (`Model/UserParams.lean`), rounding by `split_digits` (`Model/SplitRound.lean`) | a fit with user splits is a fit whose pre-binning finds the sorted (and rounded) user splits (induction over the refinement, any object state); flags only restrict the accepted assignments, so C102 transfers; C103 redone with the flags as a constraint of the candidates |
| C118 | `_check_parameters` (cat_cutoff), `fit` of a categorical variable, the options of 917-1021 with the trend of 979-982 (`Model/CatParams.lean`) | a categorical fit is a numerical fit of the positions of the categories in the ranking (`cat_numerical`), so the C102/C103 theorems apply with the number of all records as `n_samples` |
| C119 | `_check_parameters` of `BinningProcessSketch`, creation of the objects with `set_params`, `add` and `solve` (`Model/SketchProcessArgs.lean`, with the process of `Model/ProcessSketch.lean` and the objects of `Model/SketchArgs.lean`) | routing (C76) reduces the object of a variable to a single object with the same calls (`C119_object`, `C119_table`), then C113 |
| C120 | user splits and flags of `ContinuousOptimalBinning` (`Model/UserParamsC.lean`): checks, rounding, fit, flags handed to the solver, attributes left behind | as C117: the fit is a fit whose pre-binning finds the sorted and rounded user splits, so C104 transfers; C105 redone with the flags as a constraint of the candidates |
| C121 | `fit` of a categorical variable with a continuous target without `user_splits` (`Model/CatParamsC.lean`): checks, cutoff, ranking by mean target, rows, trend of 800-803 | as C118: the fit is a numerical fit of the positions of the categories in the ranking (`cat_numericalC`), so C104/C105 transfer; the rows by `fitCoreC_rows`, the groups by `mem_bins` |
| C122 | `fit` of a categorical variable with a continuous target with `user_splits` and without `user_splits_fixed` (`Model/CatUserC.lean`): the check for repeated categories, the sort of the groups, the codes of the groups, the refinement which removes empty groups, rows | codes of groups are unique because no category repeats; the bin of a record is the position of its group among the kept ends (`bins_partition`), rows by counting over cells; for the arguments the fit is shown to be a numerical fit of the codes with the cuts `code + 1` (`groups_as_cuts`, `user_numericalC`), so C104 and, for optimality (`C122_optimal`), C105 transfer |
| C123 | as C122 with `user_splits_fixed` (`Model/CatFixedC.lean`): checks of the flags, flags in the order of the sorted groups, the refinement with flags, attributes left behind | the pre-bins do not depend on the flags if the fit succeeds (`catFixed_user`), so C122 transfers (status demoted for the solver arguments); flags travel with the codes through the refinement (`computePrebinsC_fixed`), the solver keeps them as ends of bins; if all groups occur the fit is the numerical fit of C120 with flagged cuts (`fitParamsC_as_user`, `respectsC_take`), so C120_optimal transfers |

## What is modelled

| model file | code |
|---|---|
| `Model/Solver.lean` | `binning/cp.py`, `binning/mip.py` (all constraint families and the objective, binary target), `solve` fall-back |
| `Model/ModelData.lean` | `binning/model_data.py` (aggregation of pre-bins, scaled CP data, min-diff / p-value pairs) |
| `Model/Fit.lean` | `preprocessing.split_data`, `binning.py` `_compute_prebins`, `_fit_optimizer` (control flow), `fit` with and without `user_splits`, `transform` to indices, `bin_info` |
| `Model/Categorical.lean`, `Model/TransformRate.lean` | `preprocessing.categorical_transform/cutoff`, `transformations.py` for categorical variables, metrics `indices`, `bins`, `event_rate`, `woe` |
| `Model/Metrics.lean` | `binning/metrics.py`: entropies, divergences, gini, hhi, ks of bins, quality score; WoE helpers of `transformations.py` |
| `Model/AutoMonotonic.lean` | `binning/auto_monotonic.py` (feature extraction, binary decision tree, peak/valley heuristics), `type_of_monotonic_trend` |
| `Model/Ks.lean`, `Model/Monitoring.lean` | `metrics/classification.py` ks and gini parts; `scorecard/monitoring.py` PSI tables |
| `Model/Scorecard.lean` | `scorecard/scorecard.py` fit/points/score, `scorecard/rounding.py` MIP |
| `Model/Outlier.lean` | `binning/outlier.py` range, modified Z-score |
| `Model/Json.lean` | `to_json` / `read_json` of the binary table |
| `Model/GK.lean`, `Model/BSketch.lean` | `binning/distributed/gk.py`, `bsketch.py` (numerical and categorical) |
| `Model/Mdlp.lean` | `binning/mdlp.py` |
| `Model/Counterfactual.lean` | `scorecard/counterfactual/` `mip.py`, `multi_mip.py`, `model_data.py`, `counterfactual.py` (preparation and report) |
| `Model/Grid2D.lean`, `Model/Fit2D.lean` | `binning/multidimensional/`: `preprocessing_2d.py`, `model_data_2d.py`, `cp_2d.py`, `mip_2d.py`, `binning_2d.py` (fit, transform; strategy `grid`), `transformations_2d.py` |
| `Model/ContinuousSolver.lean`, `Model/Continuous.lean` | `binning/continuous_cp.py`, `model_data.py:continuous_model_data`, `continuous_binning.py` (fit with and without user splits, refinement, categorical variables only through `catUser`), `binning_statistics.py` lines 168-378 and the columns and totals of `ContinuousBinningTable.build`, `transformations.py:transform_continuous_target`; exact rationals, `Std` by its square; not: analysis text, plots, categorical pre-binning of the continuous class |
| `Model/MulticlassSolver.lean` | `binning/multiclass_cp.py`, `binning/multiclass_mip.py`, `model_data.py:multiclass_model_data`; not: `min_bin_size`/`max_bin_size` (the inherited method gets a two-dimensional array) |
| `Model/Multiclass.lean` | `multiclass_binning.py` fit/`_compute_prebins`/`_fit_optimizer`/json, `multiclass_bin_info`, `target_info_special_multiclass`, the count, share and rate columns of `MulticlassBinningTable.build`, `transform_multiclass_target` (mean_woe, weighted_mean_woe, indices) | pre-binning algorithms, `min_bin_size`/`max_bin_size`, metric "bins", plots, `analysis` |
| `Model/Scenarios.lean` | `build_model_scenarios`, `add_constraint_min_max_bin_size_scenarios` of `cp.py`; `binning_scenarios.py`: `_fit`, `_prebinning_refinement`, `_compute_prebins`, `_fit_optimizer`, scenario tables, summed table | pre-binning algorithms and the weights passed to them, rounding of user splits (`split_digits`), a second fit of the same object; weights are reals (no floating point), 0 and negative weights (where `log10` is -inf/NaN) are outside the weight theorems |
| `Model/Process.lean` | `binning_process.py`: `_check_selection_criteria`, `_support_selection_criteria`, `_binning_selection_criteria`, `_fit`, `_fit_block`, option passing of `_fit_variable`, `_fit_disk`, `_fit_from_dict`, `update_binned_variable`, `summary`, `get_support`, `_transform`, `_transform_disk` | the fit of a single variable is a parameter (modelled elsewhere), argument-type checks, state after a raising call, NaN metrics, dtype/status/n_bins columns of `summary`, csv parsing, joblib scheduling (results are collected in block order) |
| `Model/Stream.lean` | `binning_sketch.py`: `add`, `solve`, `_prebinning_data` (gk), `_compute_prebins`, `merge`; `bsketch.py`: `merge_sketches`, `bins` | `sketch="t-digest"`, timings, `information`, `plot_progress`, `_solve_stats`, argument checks; sharing of data after `merge` is modelled in `Model/BSketch.lean` only |
| `Model/CatStream.lean` | `binning_sketch.py`: `solve`, `_prebinning_data`, `_compute_cat_prebins` (categorical); `bsketch.py`: `BCatSketch.bins` splits | objects without data, timings, `information`, streaming statistics |
| `Model/ProcessSketch.lean`, `Model/ProcessStream.lean` | `binning_process_sketch.py`: `add`, `merge`, `solve`, `transform`, `get_support`; `binning_process.py`: `_binning_selection_criteria` as used here | argument checks, timings, dtype/status/n_bins of `summary`, repeated column names, the support left behind when `selection_criteria` raise; statistics and transformation of a single table are parameters |
| `Model/Piecewise.lean`, `Model/PiecewiseC.lean` | `piecewise/binning.py`, `piecewise/continuous_binning.py`: `_fit`, `transform`, `fit_transform` (continuous); `piecewise/transformations.py`; `piecewise/binning_statistics.py`: counts, coefficient columns, totals, test pairs; `piecewise/metrics.py`: divergences | RobustPWRegression, the estimator, subsampling, argument checks, Gini/KS/average precision/Brier and regression metrics, plots and printed reports; dict values for `metric_special`; user splits with a continuous target |
| `Model/Fit2DC.lean` | `multidimensional/continuous_binning_2d.py` (fit, transform; strategy `grid`), `model_data_2d.py:continuous_model_data`, `binning_statistics_2d.py`: `get_paths`, `get_pairs`, the columns and totals of `ContinuousBinningTable2D.build`, pairs and arguments of the tests of both `analysis` | pre-binning and solvers (arbitrary, with the contract of C43–C47), strategy `cart`, argument checks, p-values of the tests, plots; variance over ℚ (the code takes a square root, `max(0, ·)` under it is modelled) |
| `Model/Cart2D.lean` | `multidimensional/model_data_cart_2d.py` (all functions), the branches for strategy `cart` in `binning_2d.py` and `continuous_binning_2d.py` | the fitted scikit-learn tree is an arbitrary function of its training data with the array invariants `CartTree.WellFormed` (a tree with one node raises in the code, so it is excluded) |
| `Model/Regression.lean`, `Model/Gini.lean`, `Model/MonitorSystem.lean` | `metrics/regression.py` (percentage metrics; the scikit-learn ones are not modelled), `metrics/classification.py:gini` with scikit-learn's `roc_curve`/`auc` (exact arithmetic), `scorecard/monitoring.py` 225-314, 498-712, 776-817 and the accessors | statistics in exact arithmetic; p-values, percentiles, performance table and bin labels are not modelled; `chi2_contingency` as documented by SciPy (raises for a zero expected frequency, NaN for an empty table) |
| `Model/Analysis.lean` | `binning_statistics.py`: `analysis` of the binary, multiclass and continuous table (879-1005, 1398-1485, 1951-2049); `metrics.py`: `bayesian_probability`, `chi2_cramer_v`, `chi2_cramer_v_multi`, `frequentist_pvalue` | statistics in exact arithmetic; survival function of chi-square, Fisher's test and the incomplete beta function are arbitrary functions; printing |
| `Model/Params.lean` | `binning.py` `_check_parameters` (40-249, ranges of numbers and choices), `_fit_optimizer` (883-982: how the arguments become solver options) | exact products; types, outlier/weight/category/user split/special code arguments |
| `Model/ParamsC.lean` | `continuous_binning.py` `_check_parameters` (33-182), `_fit_optimizer` (741-829), `auto_monotonic.py` 158-228 | exact products; types, outlier/category/user split/special code arguments; infinite `min_mean_diff` |
| `Model/SolverChoice.lean` | `model_data.py` 171-174, the first statement of `build_model` in `cp.py`, `mip.py`, `ls.py` (52-54), `binning.py` 991-1021 | the components of the tuple are names; the LocalSolver formulation behind the failing statement (ls.py:56-229) cannot be reached and is not modelled |
| `Model/ParamsM.lean` | `multiclass_binning.py:34-183` (ranges), `684-765` (trends per class, options); not: `min_bin_size`/`max_bin_size` in the solver (two-dimensional array), type checks |
| `Model/Labels.lean` | `binning_statistics.py:63-77` (`bin_str_format`), `_check_show_digits`, `transformations.py:152-173, 255-316` (metric "bins"); not: categorical labels (the category arrays), the sign of a negative zero, `numpy` string dtype |
| `Model/JsMulti.lean` | `metrics.py:160-196`, `binning_statistics.py:1177-1178`; floats are reals (the test `weights.sum() != 1.0` is exact) |
| `Model/Params2D.lean` | `binning_2d.py:34-208, 351-361, 813-898`, `continuous_binning_2d.py:31-161, 286-294, 739-818`; a NaN or infinite `gamma` passes the checks, the fit with it is not modelled |
| `Model/Table2D.lean` | `binning_statistics_2d.py:34-89, 205-339, 341-424, 743-809`; of `plot` the data of matrix and lines, not the drawing |
| `Model/LocalSolver.lean` | `binning/ls.py:49-359`; the solver is an oracle (`AnswerLS.Valid`: OPTIMAL is an optimum of the stated model, FEASIBLE a feasible point) |
| `Model/SketchArgs.lean` | `binning/distributed/binning_sketch.py:42-221, 369-459, 461-531, 563-568, 570-647, 808-974` (numerical, `sketch="gk"`); type checks, timings and `sketch="t-digest"` are not modelled. Empty pre-bins, which `hellinger`/`triangular` keep, have NaN rates in numpy and rate 0 in the model |
| `Model/ScenArgs.lean` | `binning/uncertainty/binning_scenarios.py:31-172, 264-334, 469-545, 745-765, 791-811`; type checks, `name`, `prebinning_method`, `class_weight`, `verbose` and the rounding of user splits are not modelled |
| `Model/JsonFile.lean` | `binning/binning.py:846-861, 1144-1149, 1180-1234`, `binning/continuous_binning.py:711-722, 982-1043`, `binning/multiclass_binning.py:615-617, 878-924`; the text of the file, the coercion of mixed lists by `np.array` and categorical variables with `user_splits` are not modelled; the JSON encoder and `np.array` are external and modelled by their documented behaviour |
| `Model/ProcessArgs.lean` | binning_process.py:75-128, 201-308 (numerical arguments), 1053-1136: arguments of `BinningProcess`, options of each variable, fit for the three types of target | Python types, `n_jobs`, categorical variables, special codes and pre-binning options per variable (external), `min_bin_size`/`max_bin_size` of multiclass tables |
| `Model/UserParams.lean`, `Model/SplitRound.lean` | binning.py:206-223, 700-707, 772-807, 991-1021, 1063-1072, 1111-1127: flags as Python bools or numpy array, checks, fit with `user_splits`, attributes left in the object | type tests of lists/arrays, state left by a failing fit, categorical user splits (C07) |
| `Model/CatParams.lean` | binning.py:195-198, 700-707, 904-1021: cutoff check, trend of a categorical variable, `fit` without `user_splits` | the sort of ties in the ranking (any ranking by event rate) |
| `Model/SketchProcessArgs.lean` | binning_process_sketch.py:32-120, 275-276, 315-343: checks, the object of a variable and `set_params` | `categorical_variables=None`, GK sketches; `merge` of processes raises here (it is covered by C76, C79); Python types |
| `Model/UserParamsC.lean` | continuous_binning.py:143-160, 548-740, 881-892, 955: as `Model/UserParams.lean` for a continuous target | as `Model/UserParams.lean` |
| `Model/CatParamsC.lean` | continuous_binning.py:133-137, 548-740, 800-803, 848-895; preprocessing.py:25-42, 262-281; binning_statistics.py:80-111, 337-378: `fit` of a categorical variable without `user_splits` | the sort of ties in the ranking (any ranking by mean); `split_digits` (888-889) is part of the pre-binning function |
| `Model/CatUserC.lean` | continuous_binning.py:133-141, 548-740, 848-967; preprocessing.py:321-374; binning_statistics.py:80-111, 337-378: `fit` of a categorical variable with `user_splits` | the sort of the groups (any permutation of them); `user_splits_fixed` in `Model/CatFixedC.lean` |
| `Model/CatFixedC.lean` | continuous_binning.py:133-160, 548-740, 813-824, 848-967; preprocessing.py:321-374: `fit` of a categorical variable with `user_splits` and `user_splits_fixed` | the sort of the groups (any `argsort`); `np.asarray` of groups of different length (an error in numpy ≥ 1.24 when the refinement removes a group) |

Further files are listed in their own headers; every definition cites the lines it models.

Not modelled: argument validation (except where an exception is part of a property), logging, printing, plotting, timing; LocalSolver
(`ls.py`); the pre-binning estimators of scikit-learn; the Gaussian copula / YQuantile detector; RobustPWRegression;
floating point rounding; `int64` overflow.

## Findings (claims that are false of the unchanged code, each proved as a theorem unless marked "read")

1. `split_data`: a special value with unknown target, and a missing value when NaN is a special code, are counted twice
   (`C01_special_with_missing_target_counted_twice`, `C01_nan_special_code_counted_twice`); `fix_ub` is ignored when `fix_lb` is given (`C01_fix_ub_ignored`).
   NaN targets count as events in the batch fit but nowhere in the sketch.
2. Categorical `user_splits`: a pure last group or a single group is lost (`C07_pure_last_group_lost`, `C07_single_group_lost`).
3. `user_splits_fixed` is stored permuted, as a numpy array: a second `fit` is refused (finding 84) and, after conversion to a list, fixes other splits
   (`C16_refit_fixes_other_split`); for unsorted `user_splits` the
   refinement removes the wrong ones from the object (`C16_unsorted_user_splits_corrupted`).
4. `transform(metric="indices")`: default `metric_missing=0` collides with the first bin (C05, `C36_missing_invisible`).
5. An integer `cat_unknown` truncates the values of all known categories (`C32_int_truncates_known`); the default event rate of unknown
   categories can exceed 1 (`C32_default_exceeds_one`).
6. `special_codes` given as an array is tested for truth (read).  LocalSolver branch unpacks 6 values from a 5-tuple (read).
7. GK merge: weights add up to more than the count and the error exceeds eps (C26).  `BSketch.merge` drops missing/special counts; `_copy` and
   `BCatSketch.merge` alias the other sketch (C26, C27); `bins` uses another boundary convention than `transform` (`C40_boundary_mismatch`);
   the category cut-off is relative to all records (C27).
8. MDLP: `fit` twice accumulates splits; a split rejected by the MDL criterion is kept; splits equal to data values; order dependence (C28_*).
9. Scorecard: sign of the intercept with `reverse_scorecard`, unknown categories get the points of missing, unscaled points omit the intercept, stale
   `intercept_` (C33); rounding does not attain the ends and the back-up rounding leaves the range (C34).
10. `metrics.ks` is one-sided, off by one and depends on the order of ties (C37).
11. `type_of_monotonic_trend` includes special rows and calls ties "peak" (C29).
12. `read_json` restores only the table; `to_json` fails for categorical tables (C38).
13. CP: monotonicity, min-diff and optimality hold only up to the rounding of 10⁻⁶ (C12–C18); pre-processing cuts and the concave/convex
    constraints exclude admissible binnings (C18).  Multiclass heuristic trends are ignored (read).
14. Fractional sample weights are truncated per cell (C02).
15. Status OPTIMAL is reported without a solver call when the refinement removes all splits (C19).  `user_splits=[]` ends in a TypeError.
16. Pure bins contribute 0 to IV and the other divergences (C20–C22).
17. PSI: empty bins give inf/NaN or are dropped; new bins are dropped in the variable report (C36).
18. Outlier detectors: ETI with `interval_length=0` can flag all, HDI with 1 raises, zero MAD flags everything else (C35).
19. Counterfactuals: without the objective "proximity" the outcome is not enforced (`C41_no_proximity`); `special_missing=False` drops only the last
    two rows; default `max_changes` is 0 for one variable.
20. 2D binning: a record with a special code and a missing value is counted in both rows (`C44_totals`); `transform(metric="indices")` gives unseen
    categories and `inf` the index of the first bin, other metrics 0 (`C43_unknown_gets_first_bin`); the weight of `gamma` is divided by the total of
    all candidate rectangles instead of the number of records; an infeasible CP fit raises for numpy 1.24-1.26 (`np.bool`, read), an infeasible MIP fit ends
    with a fitted object without bins.  Strategy `"cart"`: `outer_x` holds only the last cell of a rectangle, so the x trend is not enforced
    (model_data_cart_2d.py:177-183, read).
21. Continuous target: the big-M constants of the trends `peak` and `valley` assume means of one sign; with means of both signs admissible binnings are
    excluded (`C48_peak_excludes_mixed_signs`); `gamma` has no effect: the regularisation variables are unconstrained from above by the sizes and the optimum
    ignores them (`C49_gamma_no_effect`).
22. Continuous target: rows without records enter the WoE total with |0 - mean|, so a variable with constant non-zero target has a positive first quality
    factor (`C51_empty_rows_inflate_woe`, `C51_uninformative_score`).
23. Continuous target: `fit` raises for a dict of special codes none of which occurs (`C53_dict_needs_special`), for `user_splits=[]`
    (`C53_empty_user_splits`), and for a single split with an empty side (`C53_single_split_empty_side`); a refit keeps std/min/max of the missing records of
    the previous fit and pollutes the totals (`C53_refit_keeps_missing`); one NaN target makes the IV NaN (`C53_unknown_target`).
    With `sample_weight` the columns Min, Max, Std and Zeros describe the products weight·target, not the targets (`C50_weighted`).
24. Multiclass target: the trends `peak_heuristic`, `valley_heuristic`, `concave` and `convex` are accepted but have no effect, because the list of trends is
    compared with a string (`C54_other_trends_ignored`, `C54_concave_violated`).
25. Multiclass target: records of a label that occurs only with special or missing values are counted in no row and not in the totals
    (`C56_unseen_label_dropped`); with two classes `transform(metric="mean_woe")` is identically 0 (`C57_two_classes`); after `read_json` `transform`
    raises (`C57_read_json_transform`).
26. Scenario binning: the weights are scaled by 10^|log10(min weight)| and truncated to integers; weights such as 0.3 and 0.5 both become 1, so the solver
    ignores the difference (`C59_weights_rounded_away`; `C59_half_optimal` bounds the loss by a factor 2).
27. Scenario binning: `fit` raises (IndexError on `n_nonevent[:, s]`) whenever no candidate split survives, e.g. if one scenario has a single class
    (`C62_fails`, `C62_single_class_fails`); the other classes return a single bin.
28. Scenario binning with `user_splits_fixed`: after a refinement the flags passed to the solver keep their old positions, so a fixed split can be dropped
    (`C62_fixed_lost`); with user splits not in increasing order a fixed split can be removed without the documented error (`C62_fixed_removed_silently`).
29. `BinningProcess.transform` with `binning_transform_params`: a parameter given for one variable stays in force for all later variables that do not
    give it (`C64_parameter_leaks`, `C64_actual_args`); in `transform_disk` it also carries over to the next chunk, so the output depends on `chunksize`
    (`C65_chunksize_matters`).
30. `transform(metric="indices")` with another metric for some variable stores this column in an integer array: WoE values are truncated
    (`C64_mixed_indices_truncated`).
31. `transform_disk` appends to an existing output file, writing a second header (`C65_appends`); with no selected variable it does not return early as
    `transform` does; `input_path.split(".")[1]` rejects paths such as `./data.csv`.
32. `BinningProcess(max_bin_size=…)` is validated but never passed to the binning objects (`C66_max_bin_size_ignored`).
33. "top" without "strategy" in `selection_criteria` is accepted and ignored (`C63_top_alone_ignored`).
34. `update_binned_variable` leaves `get_support` and `transform` with the old selection until `summary` is called (`C67_stale_after_update`);
    `_variable_stats` survives refits: with reordered `variable_names` the wrong variables are selected, with fewer ones the fit raises
    (`C67_refit_reordered`, `C67_refit_fewer`); an accepted `ContinuousOptimalPWBinning` makes `summary` raise (`C67_piecewise_breaks_summary`).
35. `OptimalBinningSketch.solve` with a single pre-bin puts all records of the class (also missing and special ones) in the only bin and counts the missing
    and special ones again in their rows (`C68_single_prebin`, `C68_double_count`).
36. `solve` compresses the sketches: two consecutive calls can return different tables (`C72_solve_not_idempotent`).  The reported number of refinements is
    always 0 (`C70_refinements_zero`).  With one class only, `solve` raises an `IndexError` (iv/js) or a `ValueError` (hellinger/triangular: shares 0/0) (`C70_errors`).
37. `OptimalBinningSketch.merge` raises `AttributeError` if one of the objects has no data yet (`C72_merge_without_data`).
38. Merging an `OptimalBinningSketch` whose records are all missing or special silently drops them, and merging into such an object drops the records it had
    (`C72_merge_loses`, `C72_merge_loses_object`).
39. `_compute_cat_prebins` keeps cut points that refer to the original list of categories but compares them with positions in the regrouped list: cut points
    are removed again and again, here until a single bin is left (`C73_collapse`, `C73_collapse_table`).  The table stays consistent (`C73_rows`).
40. With a single pre-bin a categorical streaming table counts "others", special and missing records twice (`C73_single_prebin`, `C73_double_counting`).
41. Categorical `solve` raises `IndexError` if one class has no record in a category to bin (`C74_solvable`) and `UnboundLocalError` with
    `divergence="hellinger"`/`"triangular"`, `cat_heuristic=True` and a pure category (`C74_unbound`).
42. `BinningProcessSketch` with `selection_criteria` can never be solved: `_binning_selection_criteria` reads `fixed_variables`, which this class lacks, and
    raises `AttributeError` (`C77_criteria_never_solved`).
43. `BinningProcessSketch.merge` is not atomic: if it raises for a variable (e.g. one that the other process has not seen) the earlier variables stay merged and a
    retry counts their records twice (`C78_merge_crash`, `C78_merge_retry`).  It needs a previous `add` (`C76_merge_first`), and the rows of merged processes are
    not counted (`C76_counters`).
44. `BinningProcessSketch.transform`: `metric_special`/`metric_missing` given for one variable are also used for later variables without their own
    (`C79_leak`), and the metrics "indices" and "bins" prepared for in the code are rejected (`C79_metric_rejected`).
45. One variable without data makes `solve` of the whole process raise (`C77_variable_without_data`), although chunks may lack variables.
46. `OptimalPWBinning.transform` passes the special and missing counts of non-events where `transform_binary_target` expects those of events and vice versa:
    `"empirical"` returns the share of non-events (`C82_empirical_partial`, `C82_empirical_not_event_rate`), while the table shows the event rate in column c0.
47. `ContinuousOptimalPWBinning.fit_transform` passes `check_input` as `lb` to `fit` and never passes `lb`, `ub`: by default it fits with lower bound 0
    (`C85_fit_transform_not_fit_then_transform`).
48. `OptimalPWBinning.transform(metric="woe", metric_missing="empirical")` raises `ZeroDivisionError` if the training data has no missing non-event
    (`C83_empirical_missing_raises`); without bounds the WoE of a clean value can be infinite or NaN (`C83_woe`).
49. `analysis` of a piecewise table drops two rows instead of the special and missing rows: with a dict of m > 1 groups it also tests m - 1 special rows
    (`C86_pairs_partial`, `C86_only_one_group`).
50. In piecewise binning the outlier detector runs on the data and again inside the inner binning, so the table may count fewer records than were used for the
    regression (`C80_outlier_twice`).
51. Totals of a continuous piecewise table: Count and Sum include special and missing records, Min and Max do not (`C85_total_min_max`).
52. Two-dimensional binning with a continuous target: a record which is special and missing is counted in both rows, so "Totals" counts it twice
    (`C88_totals`); one missing target makes the total IV and WoE NaN (`C88_missing_target_iv_nan`); a pair with an unseen category or infinite value gets
    index 0, i.e. that of the first bin, and mean 0 (`C87_unknown`); `max_bin_size` is rounded up, so a bin may exceed it by less than one record (`C89_limits`).
53. Strategy `cart`, trend in `x`: `outer_x` is overwritten in the loop, so only the last cell of a rectangle is compared with its right neighbours. With
    `monotonic_trend_x="ascending"` and status OPTIMAL a bin may have a smaller event rate than its left neighbour (`C93_trend_x_not_enforced`). The trend in `y` holds.
54. Strategy `cart`: a single leaf is never a bin (`len(path) > 1`), so there are at most half as many bins as leaves (`C93_number_of_bins`), and binnings which
    keep a leaf alone are not considered. A tree without a split makes `get_rectangles` raise `ValueError` (`.item()` of an empty array).
55. `regression_metrics`: one record with truth 0 predicted (correctly) as 0 makes MAPE, MPE, MdAPE, SMAPE and SMdAPE NaN (`C95_correct_zero`).
56. `ScorecardMonitoring.fit` raises `ValueError` from SciPy as soon as a score bin has records of only one sample, or no event, or no non-event at all
    (`C96_tests_fail`) — the strong population shift monitoring is meant to detect makes it fail.
57. Score bins are labelled `[a, b)` but counted as `(a, b]` (`np.digitize(..., right=True)`): a score equal to a split is reported under a label that excludes it
    (`C96_boundary_label`). Likewise a PSI of exactly 0.10 is in the histogram bin `[0.00, 0.10)` but gets the verdict "Requires investigation" (`C96_histogram_boundary`).
58. `psi_variable_table(style="summary")` skips NaN terms: a variable with a bin empty in both samples gets a number where the total is NaN (`C96_summary_skips_nan`).
59. A refit of a fitted `ScorecardMonitoring` that fails in the tests leaves the object fitted, with target and PSI tables of the new and tests,
    performance and variable tables of the old data (`C98_mixture`).
60. Multiclass: the preprocessing cuts of an ascending/descending class trend exclude binnings that satisfy every constraint for every class, in both
    formulations (`C55_cuts_exclude_admissible`); exactness (`C55_exact_cp`, `C55_exact_mip`) holds exactly when no cuts are added.
61. Scenario-based binning: with trend "concave" a two-bin binning, on which the trend demands nothing, may be refused by the solver
    (`C59_concave_excludes_admissible`).
62. `OptimalBinning` accepts NaN and infinity as `gamma` and infinity as `time_limit` (`C102_nan_gamma_accepted`); a bin may hold more
    than the fraction `max_bin_size` of the records, because the limit is rounded up (`C102_max_size_exceeded`; the excess is less
    than one record, `C102_limits`).
63. `ContinuousBinningTable.analysis` passes population standard deviations to SciPy's `ttest_ind_from_stats`, which expects divisor n−1:
    the reported t statistic is strictly larger in absolute value than Welch's (`C101_overstated`).
64. The optimiser maximises the divergence of the clean records, but `BinningTable.build` divides by totals which include special and missing
    records: with missing values a fit with status OPTIMAL can report a smaller divergence than another binning allowed by the same
    arguments (`C103_missing_not_maximal`).
65. `ContinuousOptimalBinning` accepts NaN and infinities as `min_mean_diff`, `gamma`, and infinity as `time_limit` (`C104_nan_accepted`); NaN as
    `min_mean_diff` silently switches the limit off; `max_bin_size` is rounded up as for a binary target (`C104_max_size_exceeded`).
66. `ContinuousOptimalBinning` maximises the plain sum of the distances between bin means and overall mean, but its table reports the
    share-weighted sum as IV: a fit with status OPTIMAL can report a smaller IV than another binning allowed by the same arguments
    (`C105_iv_not_maximal`).
67. `solver="ls"` is documented and accepted, but `BinningLS.build_model` unpacks six values from `model_data`, which returns five when
    `return_nonevent_event` is true (model_data.py:171-172): every `fit` with two or more pre-bins raises `ValueError`, whether or not
    LocalSolver is installed (`C106_ls_raises`).
68. `MulticlassOptimalBinning(monotonic_trend="auto_heuristic")` constrains the classes by exact peak/valley trends (no heuristic is used), while
    "auto_heuristic" inside a list resolves to "peak_heuristic"/"valley_heuristic", which the solver ignores (`C107_ignored`, finding 24); a list
    of the wrong length is accepted when no pre-bin split survives (`C107_wrong_length_accepted`).
69. With the default `show_digits=2`, splits closer than 0.01 give two different bins the same label, or a label naming an empty interval
    ("[0.00, 0.00)"), so `transform(metric="bins")` merges bins that "indices" separates (`C108_collision`).
70. `jensen_shannon_multivariate` accepts negative weights, and the result may be negative (`C109_negative_weights`).
71. `split_digits` of `OptimalBinning2D` and `ContinuousOptimalBinning2D` is documented and checked but has no effect (`C110_split_digits_ignored`).
72. With `gamma > 0` and no rectangle within the limits the 2D solvers divide by zero: `ZeroDivisionError` where `gamma = 0` returns a table (`C110_gamma_raises`). `min_mean_diff_x/y` of the continuous class accept any number, also negative ones.
73. A record with a special code in one variable and a missing value in the other is counted in both rows "Special" and "Missing" of a 2D table, so "Totals" exceeds the number of records (`C111_totals`, example in `Props/Table2D.lean`).
74. With `solver="ls"` and a heuristic trend `min_event_rate_diff` is not enforced between the two bins next to the change point (`C112_change_point_gap`); "cp" and "mip" enforce it.
75. `OptimalBinningSketch(eps=0)` is accepted, but every call of `add` raises `ZeroDivisionError` (`C113_eps_zero`, `C113_eps_zero_accepted`).
76. `split_digits` of `OptimalBinningSketch` is documented and checked but has no effect (`C113_split_digits_ignored`).
77. `OptimalBinningSketch.information()` raises `AttributeError` after a completed `solve` if the optimizer never ran, i.e. all completed solves had one pre-bin (`C113_information`, `C113_information_example`).
78. A categorical streaming object without a category to bin and with records of one class only is marked as solved, and then `solve` raises `ValueError` from building the table (`C74_completes`).
79. `to_json` of a binning of integer values raises `TypeError` (`min_x` is a numpy integer), as for categorical variables (`categories` is an array); the file is opened before, so the previous file is lost (`C115_numerical`, `C115_categorical`).
80. An `OptimalBinning` restored with `read_json` cannot be saved again: the empty list `categories` has become an array (`C115_save_load_save`).
81. `read_json` sets `_is_fitted` before reading: after a missing or broken file the object counts as fitted and `binning_table` is `None` (`C115_failed_read`).
82. `BinningProcess(max_bin_size=...)` has no effect: a bin may contain any part of the records (`C116_max_bin_size_ignored`, `C116_max_bin_size_exceeded`).
83. A valid option in `binning_fit_params` may be refused because it is checked against the option of the process it was meant to replace (`C116_crossed`).
84. After one fit with `user_splits_fixed` the object can never be fitted again: the stored flags are a numpy array, whose elements fail
    `isinstance(s, bool)` (`C117_second_fit_refused`); for the same reason flags given as a numpy array, documented as allowed, are refused
    (`C117_numpy_flags_refused`).
85. `monotonic_trend="descending"` (and peak, valley, …) of a categorical variable is silently replaced by "ascending" (`C118_descending`).
86. `max_bin_size` of `BinningProcessSketch` is checked (also against `min_bin_size`) but not passed to the variables (`C119_max_bin_size_unused`).
87. The values in `binning_fit_params` of `BinningProcessSketch` are never checked: `min_bin_size=2` or `eps=5` are accepted (`set_params` checks names only, and
    bsketch.py:33 tests the range of `eps` only if it is not a number) (`C119_unchecked`).
88. `split_digits=0` rounds the cuts between the codes of a categorical variable, half to even: the categories of rank 2j and 2j+1 always share a bin
    (`C118_split_digits_pairs`), and a variable with two categories gets a single bin (`C118_split_digits_two`).
89. Both failures of 84 also hold for `ContinuousOptimalBinning` (`C120_second_fit_refused`, `C120_numpy_flags_refused`).
90. For a categorical variable with a continuous target every `monotonic_trend` except None acts as "ascending" (`C121_descending`).
91. `ContinuousOptimalBinning(dtype="categorical", user_splits=groups)`: if the training data hold categories of one group only, `fit` succeeds with status OPTIMAL, but the records of that group are in no row of the binning table, and with a non-empty "others" the row of "others" stands where the row of the group is expected (`C122_single_group_lost`, example `oneUserFitC`).
92. `ContinuousOptimalBinning(dtype="categorical", user_splits=[[4],[9],[7]], user_splits_fixed=[True,False,False])` on data without category 9: the refinement removes the last group of the sorted list, but 956 applies this mask to `user_splits` in the order of the user, so the attribute `user_splits` loses [7] and keeps [9], while `user_splits_fixed` is in sorted order (`flaggedGroupsC`).
