import Verif.Model.ModelData
import Verif.Model.Metrics

/-!
# Model of the multiclass formulations (`binning/multiclass_cp.py`, `binning/multiclass_mip.py`,
`multiclass_model_data` in `binning/model_data.py`)

The methods `add_constraint_unique_assignment`, `…_continuity`, `…_min_max_bins`, `…_monotonic_ascending/descending`,
`…_violation`, `…_fixed_splits` are inherited from `BinningCP`/`BinningMIP` and their models are those of
`Model/Solver.lean`.

Not modelled: `min_bin_size` and `max_bin_size`.  The inherited `add_constraint_min_max_bin_size` is called with the
two-dimensional array `n_records` (multiclass_cp.py:50, 76-77; multiclass_mip.py:48, 79-80), so the products
`n_records[j] * x[i, j]` are arrays and not linear expressions; the model below describes a fit in which neither limit is
set.
-/
namespace OptBinning
open Finset Spec

/-- Input of `multiclass_model_data` (model_data.py:177-180): column `c` of `n_nonevent` and of `n_event` for every class
`c`, the proportion test, its policy and `min_event_rate_diff`. -/
structure MultiInput where
  n : ℕ
  nonevent : List (List ℕ)
  event : List (List ℕ)
  test : Option (ℕ → ℕ → ℕ → ℕ → Bool) := none
  policy : Policy := .consecutive
  minDiff : ℚ := 0

/-- model_data.py:180 `n_classes`. -/
def MultiInput.classes (inp : MultiInput) : ℕ := inp.event.length

/-- The body of the loop over the classes (model_data.py:187-240) computes for class `c` the same as `model_data` does for
a binary target with divergence "iv" (model_data.py:204 `jeffrey`). -/
noncomputable def MultiInput.cls (inp : MultiInput) (c : ℕ) : BinaryInput where
  nonevent := inp.nonevent.getD c []
  event := inp.event.getD c []
  div := jeffrey
  test := inp.test
  policy := inp.policy
  minDiff := inp.minDiff

/-- Constructor arguments of `MulticlassBinningCP`/`MulticlassBinningMIP` which enter the constraints
(multiclass_cp.py:16-31, multiclass_mip.py:16-33): one trend per class.  The heuristic trends carry the position
`trend_changes[c]`. -/
structure MultiOpts where
  trends : List Trend
  minBins : Option ℤ := none
  maxBins : Option ℤ := none
  fixed : Option (ℕ → Bool) := none

/-- The options shared by all classes, in the form expected by the inherited methods; `zero` is
`self.min_event_rate_diff == 0`. -/
def MultiOpts.base (o : MultiOpts) (zero : Bool) : Opts :=
  { minBins := o.minBins, maxBins := o.maxBins, fixed := o.fixed, minRateDiffZero := zero }

/-- `self.monotonic_trend[c]`. -/
def MultiOpts.trend (o : MultiOpts) (c : ℕ) : Trend := o.trends.getD c .unconstrained

section
variable {R : Type*} [CommRing R] [LinearOrder R]

/-- Domains of `y[c, i]` and `t[c]` (multiclass_cp.py:136-146, multiclass_mip.py:139-149) and the link between them
(multiclass_cp.py:87-90, multiclass_mip.py:90-93). -/
def multiChangePoint (n : ℕ) (y : ℕ → ℤ) (t : ℤ) : Prop :=
  ((∀ i < n, y i = 0 ∨ y i = 1) ∧ 0 ≤ t ∧ t ≤ n) ∧ changePoint n y t

/-- multiclass_mip.py:167-184 `add_constraint_monotonic_peak`, where the side indicators have the coefficient `n`;
multiclass_cp.py:164-181 is the case `K = M`. -/
def multiPeak (K M : R) (n : ℕ) (D : ℕ → ℕ → R) (x : ℕ → ℕ → ℤ) (y : ℕ → ℤ) : Prop :=
  ∀ i, 1 ≤ i → i < n → ∀ z < i,
    K * ((y i : R) + (y z : R)) + M + (D z z - M) * (x z z : R) + rowS D x z - rowS D x i - D i i * (x i i : R) ≥ 0 ∧
    K * (2 - (y i : R) - (y z : R)) + M + (D i i - M) * (x i i : R) + rowS D x i - rowS D x z
      - D z z * (x z z : R) ≥ 0

/-- multiclass_mip.py:186-203 `add_constraint_monotonic_valley`; multiclass_cp.py:183-200 is the case `K = M`. -/
def multiValley (K M : R) (n : ℕ) (D : ℕ → ℕ → R) (x : ℕ → ℕ → ℤ) (y : ℕ → ℤ) : Prop :=
  ∀ i, 1 ≤ i → i < n → ∀ z < i,
    K * ((y i : R) + (y z : R)) + M + (D i i - M) * (x i i : R) + rowS D x i - rowS D x z - D z z * (x z z : R) ≥ 0 ∧
    K * (2 - (y i : R) - (y z : R)) + M + (D z z - M) * (x z z : R) + rowS D x z - rowS D x i
      - D i i * (x i i : R) ≥ 0

/-- The `if/elif` chain for one class (multiclass_cp.py:80-105, multiclass_mip.py:83-108).  The two branches for the
heuristic trends compare the *list* `self.monotonic_trend` with a string and are never taken; "concave", "convex" and
`None` have no branch.  The variables `y[c, i]`, `t[c]` occur only here and are projected out. -/
def multiTrend (zero : Bool) (K M : R) (n : ℕ) (D : ℕ → ℕ → R) (x : ℕ → ℕ → ℤ) : Trend → Prop
  | .ascending => monoAscending { minRateDiffZero := zero } M n D x
  | .descending => monoDescending { minRateDiffZero := zero } M n D x
  | .peak => ∃ y t, multiChangePoint n y t ∧ multiPeak K M n D x y
  | .valley => ∃ y t, multiChangePoint n y t ∧ multiValley K M n D x y
  | .peakHeuristic _ => True
  | .valleyHeuristic _ => True
  | .concave => True
  | .convex => True
  | .unconstrained => True

/-- The constraints that do not depend on the class (multiclass_cp.py:66-73, 117-118; multiclass_mip.py:69-76, 120-121);
domains of `x` and `d`: multiclass_cp.py:125-128, 148-152. -/
def multiBase (o : MultiOpts) (zero : Bool) (n : ℕ) (a : Assign) : Prop :=
  domains (o.base zero) n a ∧ uniqueAssignment n a.x ∧ continuity n a.x ∧ minMaxBins (o.base zero) n a.x a.d ∧
    fixedSplits (o.base zero) n a.x

end

/-- `MulticlassBinningCP.build_model` (multiclass_cp.py:41-122): which assignments are accepted. -/
def acceptsMultiCP (o : MultiOpts) (inp : MultiInput) (a : Assign) : Prop :=
  multiBase o (decide (inp.minDiff = 0)) inp.n a ∧
  (∀ c < o.trends.length, multiTrend (decide (inp.minDiff = 0)) (1000000 : ℤ) 1000000 inp.n (inp.cls c).rateCP a.x (o.trend c)) ∧
  (∀ c < o.trends.length, violationCP a.x (inp.cls c).dataCP.pvalueViol) ∧
  (∀ c < o.trends.length, violationCP a.x (inp.cls c).dataCP.minDiffViol)

/-- `MulticlassBinningMIP.build_model` (multiclass_mip.py:40-125). -/
def acceptsMultiMIP (o : MultiOpts) (inp : MultiInput) (a : Assign) : Prop :=
  multiBase o (decide (inp.minDiff = 0)) inp.n a ∧
  (∀ c < o.trends.length, multiTrend (decide (inp.minDiff = 0)) ((inp.n : ℕ) : ℝ) 1 inp.n (inp.cls c).dataMIP.D a.x (o.trend c)) ∧
  (∀ c < o.trends.length, violationMIP a.x (inp.cls c).dataMIP.pvalueViol) ∧
  (∀ c < o.trends.length, violationMIP a.x (inp.cls c).dataMIP.minDiffViol)

/-- multiclass_cp.py:60-64: the objective, a sum over the classes. -/
noncomputable def objectiveMultiCP (o : MultiOpts) (inp : MultiInput) (a : Assign) : ℤ :=
  ∑ c ∈ range o.trends.length, objective (inp.cls c).dataCP a.x

/-- multiclass_mip.py:63-67. -/
noncomputable def objectiveMultiMIP (o : MultiOpts) (inp : MultiInput) (a : Assign) : ℝ :=
  ∑ c ∈ range o.trends.length, objective (inp.cls c).dataMIP a.x

end OptBinning
