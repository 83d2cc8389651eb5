import Mathlib.Data.Nat.Notation
import Mathlib.Data.Int.Notation

/-!
# User options of the optimal binning solvers

The vocabulary of the public API: the monotonic trends and the numeric limits accepted by `OptimalBinning`.
-/
namespace OptBinning

/-- `monotonic_trend` as it reaches the solver (cp.py:123-151, mip.py:127-155); the heuristic trends carry the
`trend_change` position `tc`. -/
inductive Trend
  | unconstrained | ascending | descending | concave | convex | peak | valley
  | peakHeuristic (tc : ℕ) | valleyHeuristic (tc : ℕ)
  deriving DecidableEq, Repr

/-- Constructor arguments of `BinningCP`/`BinningMIP` that enter the constraints (cp.py:18-41, mip.py:17-41).
`minRateDiffZero` is the test `self.min_event_rate_diff == 0`; `scenario` is `self._is_scenario_binning`
(always `False` in mip.py). `gamma` is `bool(self.gamma)`. -/
structure Opts where
  trend : Trend := .unconstrained
  minBins : Option ℤ := none
  maxBins : Option ℤ := none
  minSize : Option ℤ := none
  maxSize : Option ℤ := none
  minEvent : Option ℤ := none
  maxEvent : Option ℤ := none
  minNonevent : Option ℤ := none
  maxNonevent : Option ℤ := none
  minRateDiffZero : Bool := true
  scenario : Bool := false
  gamma : Bool := false
  fixed : Option (ℕ → Bool) := none

end OptBinning
