import Verif.Model.Continuous
import Verif.Model.Params

/-!
# Model of the constructor arguments of `ContinuousOptimalBinning`: `_check_parameters`, the automatic trend and the options
handed to the solver (continuous_binning.py:33-182, 555, 741-829; auto_monotonic.py:158-228)

As in `Model/Params.lean`: floats are rationals with NaN and infinities, `min_bin_size * n_samples` is exact, checks of Python
types and of the arguments not listed in `ParamsC` are not modelled.  The solver is called for finite `min_mean_diff` and
`gamma` only (`XQ.value`): NaN as `min_mean_diff` has no effect (`min_mean_diff > 0` is false), an infinite `min_mean_diff` is
not modelled.
-/
namespace OptBinning

/-- Constructor arguments of `ContinuousOptimalBinning` (continuous_binning.py:324-333) with their defaults. -/
structure ParamsC where
  maxPrebins : ℤ := 20
  minPrebinSize : XQ := .num (1 / 20)
  minBins : Option ℤ := none
  maxBins : Option ℤ := none
  minBinSize : Option XQ := none
  maxBinSize : Option XQ := none
  trend : TrendArg := .auto
  minMeanDiff : XQ := .num 0
  maxPvalue : Option XQ := none
  policy : Spec.Policy := .consecutive
  gamma : XQ := .num 0
  splitDigits : Option ℤ := none
  timeLimit : XQ := .num 100

/-- `_check_parameters` (continuous_binning.py:52-119, 171-179). -/
def checkParametersC (p : ParamsC) : Except String Unit :=
  if p.maxPrebins ≤ 1 then .error "ValueError"
  else if !(p.minPrebinSize.above 0 && p.minPrebinSize.atMost (1 / 2)) then .error "ValueError"
  else if badCount p.minBins then .error "ValueError"
  else if badCount p.maxBins then .error "ValueError"
  else if badOrder p.minBins p.maxBins then .error "ValueError"
  else if p.minBinSize.any fun v => !(v.above 0 && v.atMost (1 / 2)) then .error "ValueError"
  else if p.maxBinSize.any fun v => !(v.above 0 && v.atMost 1) then .error "ValueError"
  else if p.minBinSize.any fun v => p.maxBinSize.any fun w => v.greater w then .error "ValueError"
  else if p.minMeanDiff.below 0 then .error "ValueError"
  else if p.maxPvalue.any fun v => !(v.above 0 && v.atMost 1) then .error "ValueError"
  else if p.gamma.below 0 then .error "ValueError"
  else if p.splitDigits.any fun d => !(decide (0 ≤ d) && decide (d ≤ 8)) then .error "ValueError"
  else if p.timeLimit.below 0 then .error "ValueError"
  else .ok ()

/-- auto_monotonic.py:162, continuous_binning.py:785, 796 `mean = sums / n_records` (no pre-bin is empty). -/
def cellMeans (cells : List CellC) : List ℚ := cells.map fun c => c.s / ((c.cnt : ℕ) : ℚ)

/-- `auto_monotonic_data_continuous`, auto_monotonic.py:158-228.  `hull` is the external convex-hull ratio (193-207). -/
def autoDataC (hull : List ℚ → Option ℚ) (cells : List CellC) : Except String AutoData :=
  let n := cells.length
  let records := cells.map CellC.cnt
  let mean := cellMeans cells
  let pmin := argminIdx mean
  let pmax := argmaxIdx mean
  let total : ℚ := (records.sum : ℕ)
  if n = 0 then .error "ValueError"
  else if n = 1 then .error "ZeroDivisionError"
  else .ok
    { pTrendChanges := npDiv (nPeaksValleys mean : ℕ) (n : ℕ)
      lrSense := if 0 < slopeNum mean then 1 else 0
      pRecordsMinLeft := npDiv ((records.take pmin).sum : ℕ) total
      pRecordsMinRight := npDiv ((records.drop (pmin + 1)).sum : ℕ) total
      pRecordsMaxLeft := npDiv ((records.take pmax).sum : ℕ) total
      pRecordsMaxRight := npDiv ((records.drop (pmax + 1)).sum : ℕ) total
      pArea := extremePointsArea mean
      pConvexHull := hull mean }

/-- `ContinuousOptimalBinning._fit_optimizer`, continuous_binning.py:769-798, numerical variable: the trend handed to the
solver. -/
def resolveTrendC (hull : List ℚ → Option ℚ) (cells : List CellC) (arg : TrendArg) : Except String Trend :=
  match arg with
  | .none => .ok .unconstrained
  | .ascending => .ok .ascending
  | .descending => .ok .descending
  | .concave => .ok .concave
  | .convex => .ok .convex
  | .peak => .ok .peak
  | .valley => .ok .valley
  | .peakHeuristic => .ok (.peakHeuristic (argmaxIdx (cellMeans cells)))
  | .valleyHeuristic => .ok (.valleyHeuristic (argminIdx (cellMeans cells)))
  | .auto => do let d ← autoDataC hull cells; pure (trendOfName 0 (decide' d .auto))
  | .autoAscDesc => do let d ← autoDataC hull cells; pure (trendOfName 0 (decide' d .autoAscDesc))
  | .autoHeuristic => do
      let d ← autoDataC hull cells
      match decide' d .autoHeuristic with
      | some "peak" => pure (trendOfName (argmaxIdx (cellMeans cells)) (some "peak_heuristic"))
      | some "valley" => pure (trendOfName (argminIdx (cellMeans cells)) (some "valley_heuristic"))
      | o => pure (trendOfName 0 o)

/-- continuous_binning.py:759-824: the options handed to the solver for `n` records (`self._n_samples`) and the pre-bins. -/
def ParamsC.options (p : ParamsC) (hull : List ℚ → Option ℚ) (n : ℕ) (cells : List CellC) : Except String Opts := do
  let t ← resolveTrendC hull cells p.trend
  pure { trend := t, minBins := p.minBins, maxBins := p.maxBins,
         minSize := p.minBinSize.map (ceilSize n), maxSize := p.maxBinSize.map (ceilSize n),
         gamma := decide (p.gamma ≠ .num 0) }

/-- The solver object and the arguments of `build_model` (continuous_binning.py:813-824); `pv` is the p-value of Welch's t-test
of two bins (mean, standard deviation and size of each).  `ParamsC.options` succeeds whenever the solver runs. -/
noncomputable def ParamsC.cfg (p : ParamsC) (hull : List ℚ → Option ℚ) (pv : ℚ → ℝ → ℕ → ℚ → ℝ → ℕ → ℝ) (n : ℕ) : SolverCfgC where
  opts := fun cells => match p.options hull n cells with
    | .ok o => o
    | .error _ => {}
  gamma := p.gamma.value
  test := p.maxPvalue.map fun v u s r u2 s2 r2 => decide ((v.value : ℝ) < pv u s r u2 s2 r2)
  policy := p.policy
  minDiff := p.minMeanDiff.value

/-- `ContinuousOptimalBinning(...).fit(x, y)` of a numerical variable (continuous_binning.py:548-739): the checks of 555, then
the fit. -/
def fitParamsC {α : Type*} [LinearOrder α] (p : ParamsC) (sc : SpecialCodes α) (outlier : Option (List (RecC α) → List Bool))
    (prebin : List (RecC α) → List α) (solver : SolverC) (old : MissingStats) (recs : List (RecC α)) :
    Except String (MissingStats × FittedC α) :=
  match checkParametersC p with
  | .error e => .error e
  | .ok _ => fitNumericalC sc outlier prebin solver old recs

end OptBinning
