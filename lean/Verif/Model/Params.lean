import Verif.Model.Fit
import Verif.Model.AutoMonotonic
import Verif.Model.Regression
import Verif.Model.Metrics

/-!
# Model of the constructor arguments of `OptimalBinning`: `_check_parameters` and the options handed to the solver
(binning.py:40-249, 707, 883, 917-982)

Floats are rationals with NaN and infinities (`XQ`); the product `min_bin_size * n_samples` is exact.  Checks of Python
types, of `name`, `dtype`, `prebinning_method`, `solver`, the outlier, weight, category, user split and special code
arguments are not modelled (numerical variable without `user_splits`).
-/
namespace OptBinning

/-- `q < v` for a float `v` (false for NaN). -/
def XQ.above (q : ℚ) : XQ → Bool
  | .num x => decide (q < x)
  | .pinf => true
  | _ => false

/-- `q <= v`. -/
def XQ.atLeast (q : ℚ) : XQ → Bool
  | .num x => decide (q ≤ x)
  | .pinf => true
  | _ => false

/-- `v <= q`. -/
def XQ.atMost (q : ℚ) : XQ → Bool
  | .num x => decide (x ≤ q)
  | .ninf => true
  | _ => false

/-- `v < q`. -/
def XQ.below (q : ℚ) : XQ → Bool
  | .num x => decide (x < q)
  | .ninf => true
  | _ => false

/-- `a > b` for finite floats (used after the range checks). -/
def XQ.greater : XQ → XQ → Bool
  | .num a, .num b => decide (b < a)
  | _, _ => false

/-- The four divergences (binning.py:66). -/
inductive Divergence | iv | js | hellinger | triangular
  deriving DecidableEq

/-- model_data.py:131-138: the divergence of one bin. -/
noncomputable def Divergence.fn : Divergence → ℝ → ℝ → ℝ
  | .iv => jeffrey
  | .js => jensenShannon
  | .hellinger => OptBinning.hellinger
  | .triangular => OptBinning.triangular

/-- Constructor arguments of `OptimalBinning` (binning.py:444-456) with their defaults. -/
structure Params where
  divergence : Divergence := .iv
  maxPrebins : ℤ := 20
  minPrebinSize : XQ := .num (1 / 20)
  minBins : Option ℤ := none
  maxBins : Option ℤ := none
  minBinSize : Option XQ := none
  maxBinSize : Option XQ := none
  minNonevent : Option ℤ := none
  maxNonevent : Option ℤ := none
  minEvent : Option ℤ := none
  maxEvent : Option ℤ := none
  trend : TrendArg := .auto
  minRateDiff : XQ := .num 0
  maxPvalue : Option XQ := none
  policy : Spec.Policy := .consecutive
  gamma : XQ := .num 0
  splitDigits : Option ℤ := none
  timeLimit : XQ := .num 100

/-- `x is not None and x <= 0` (binning.py:78-86, 111-121, 129-139). -/
def badCount (x : Option ℤ) : Bool := x.any fun v => decide (v ≤ 0)

/-- `a is not None and b is not None and a > b` (binning.py:88-91, 123-127, 141-145). -/
def badOrder (a b : Option ℤ) : Bool := a.any fun x => b.any fun y => decide (y < x)

/-- `_check_parameters` (binning.py:70-175, 234-246): the order of the checks does not matter since all raise the same
exception. -/
def checkParameters (p : Params) : Except String Unit :=
  if p.maxPrebins ≤ 1 then .error "ValueError"
  else if !(p.minPrebinSize.above 0 && p.minPrebinSize.atMost (1 / 2)) then .error "ValueError"
  else if badCount p.minBins then .error "ValueError"
  else if badCount p.maxBins then .error "ValueError"
  else if badOrder p.minBins p.maxBins then .error "ValueError"
  else if p.minBinSize.any fun v => !(v.above 0 && v.atMost (1 / 2)) then .error "ValueError"
  else if p.maxBinSize.any fun v => !(v.above 0 && v.atMost 1) then .error "ValueError"
  else if p.minBinSize.any fun v => p.maxBinSize.any fun w => v.greater w then .error "ValueError"
  else if badCount p.minNonevent then .error "ValueError"
  else if badCount p.maxNonevent then .error "ValueError"
  else if badOrder p.minNonevent p.maxNonevent then .error "ValueError"
  else if badCount p.minEvent then .error "ValueError"
  else if badCount p.maxEvent then .error "ValueError"
  else if badOrder p.minEvent p.maxEvent then .error "ValueError"
  else if !(p.minRateDiff.atLeast 0 && p.minRateDiff.atMost 1) then .error "ValueError"
  else if p.maxPvalue.any fun v => !(v.above 0 && v.atMost 1) then .error "ValueError"
  else if p.gamma.below 0 then .error "ValueError"
  else if p.splitDigits.any fun d => !(decide (0 ≤ d) && decide (d ≤ 8)) then .error "ValueError"
  else if p.timeLimit.below 0 then .error "ValueError"
  else .ok ()

/-- `int(np.ceil(f * n_samples))` (binning.py:883, 919, 924). -/
def ceilSize (n : ℕ) : XQ → ℤ
  | .num q => ⌈q * (n : ℚ)⌉
  | _ => 0

/-- A finite float. -/
def XQ.value : XQ → ℚ
  | .num q => q
  | _ => 0

/-- `divergence in ("hellinger", "triangular")` (binning.py:929, 1099). -/
def Divergence.keepsPure : Divergence → Bool
  | .hellinger => true
  | .triangular => true
  | _ => false

/-- binning.py:929-942: minimum number of events (non-events) per bin; `flag` is `_flag_min_n_event_nonevent`. -/
def Params.minCount (p : Params) (flag : Bool) (m : Option ℤ) : Option ℤ :=
  if p.divergence.keepsPure && flag then
    match m with
    | none => some 1
    | some v => some (max v 1)
  else m

/-- binning.py:904-998: the options handed to the solver for `n` records (`self._n_samples`) and the pre-bin counts.
`_flag_min_n_event_nonevent` is set by the refinement if it keeps a pure pre-bin (1098-1100) or still set from an earlier fit
(`stale`). -/
def Params.options (p : Params) (hull : List ℚ → Option ℚ) (stale : Bool) (n : ℕ) (nev ev : List ℕ) : Except String Opts := do
  let t ← resolveTrend hull nev ev p.trend
  let flag := stale || (p.divergence.keepsPure && (pureMask nev ev).any id)
  pure { trend := t, minBins := p.minBins, maxBins := p.maxBins,
         minSize := p.minBinSize.map (ceilSize n), maxSize := p.maxBinSize.map (ceilSize n),
         minEvent := p.minCount flag p.minEvent, maxEvent := p.maxEvent,
         minNonevent := p.minCount flag p.minNonevent, maxNonevent := p.maxNonevent,
         minRateDiffZero := decide (p.minRateDiff = .num 0), gamma := decide (p.gamma ≠ .num 0) }

/-- The solver object and the arguments of `build_model` (binning.py:991-1021); `pv` is the p-value of the proportion test of
two bins (events and non-events of the first and of the second bin).  `Params.options` succeeds whenever the solver runs
(at least two pre-bins). -/
noncomputable def Params.cfg (p : Params) (hull : List ℚ → Option ℚ) (stale : Bool) (pv : ℕ → ℕ → ℕ → ℕ → ℝ) (n : ℕ) : SolverCfg where
  opts := fun nev ev => match p.options hull stale n nev ev with
    | .ok o => o
    | .error _ => {}
  div := p.divergence.fn
  test := p.maxPvalue.map fun v e₁ ne₁ e₂ ne₂ => decide ((v.value : ℝ) < pv e₁ ne₁ e₂ ne₂)
  policy := p.policy
  minDiff := p.minRateDiff.value

/-- `OptimalBinning(...).fit(x, y)` of a numerical variable (binning.py:700-877): the checks of 707, then the fit. -/
def fitParams {α : Type*} [LinearOrder α] (p : Params) (sc : SpecialCodes α) (so : SplitOpts α) (prebin : List (Rec α) → List α)
    (solver : Solver) (recs : List (Rec α)) : Except String (Fitted α) :=
  match checkParameters p with
  | .error e => .error e
  | .ok _ => fitNumerical { keepPure := p.divergence.keepsPure } sc so prebin solver recs

end OptBinning
