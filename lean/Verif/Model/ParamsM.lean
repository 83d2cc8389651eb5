import Verif.Model.Multiclass
import Verif.Model.Params

/-!
# Model of the constructor arguments of `MulticlassOptimalBinning`: `_check_parameters`, the trends of the classes and the options
handed to the solver (multiclass_binning.py:34-183, 500, 684-765)

As in `Model/Params.lean`: floats are rationals with NaN and infinities, checks of Python types and of the arguments not listed in
`ParamsM` are not modelled.  With `min_bin_size` or `max_bin_size` the inherited constraint is built from a two-dimensional array
(multiclass_cp.py:50, 76; what ortools makes of it is not modelled): the fit below is the fit for `min_bin_size=None`,
`max_bin_size=None`, their checks are modelled.
-/
namespace OptBinning

/-- `monotonic_trend` of `MulticlassOptimalBinning`: None, a string or a list with one entry per class. -/
inductive TrendsArg
  | none | str (a : TrendArg) | list (l : List TrendArg)
  deriving DecidableEq

/-- Constructor arguments of `MulticlassOptimalBinning` (multiclass_binning.py:325-333) with their defaults. -/
structure ParamsM where
  maxPrebins : ℤ := 20
  minPrebinSize : XQ := .num (1 / 20)
  minBins : Option ℤ := none
  maxBins : Option ℤ := none
  minBinSize : Option XQ := none
  maxBinSize : Option XQ := none
  trend : TrendsArg := .str .auto
  minRateDiff : XQ := .num 0
  maxPvalue : Option XQ := none
  policy : Spec.Policy := .consecutive
  splitDigits : Option ℤ := none
  timeLimit : XQ := .num 100

/-- multiclass_binning.py:94-113: a list may contain any of the trends, a string must be one of the automatic modes. -/
def badTrends : TrendsArg → Bool
  | .none => false
  | .list _ => false
  | .str a => !(a == .auto || a == .autoHeuristic || a == .autoAscDesc)

/-- `_check_parameters` (multiclass_binning.py:53-128, 168-180). -/
def checkParametersM (p : ParamsM) : Except String Unit :=
  if p.maxPrebins ≤ 1 then .error "ValueError"
  else if !(p.minPrebinSize.above 0 && p.minPrebinSize.atMost (1 / 2)) then .error "ValueError"
  else if badCount p.minBins then .error "ValueError"
  else if badCount p.maxBins then .error "ValueError"
  else if badOrder p.minBins p.maxBins then .error "ValueError"
  else if p.minBinSize.any fun v => !(v.above 0 && v.atMost (1 / 2)) then .error "ValueError"
  else if p.maxBinSize.any fun v => !(v.above 0 && v.atMost 1) then .error "ValueError"
  else if p.minBinSize.any fun v => p.maxBinSize.any fun w => v.greater w then .error "ValueError"
  else if badTrends p.trend then .error "ValueError"
  else if !(p.minRateDiff.atLeast 0 && p.minRateDiff.atMost 1) then .error "ValueError"
  else if p.maxPvalue.any fun v => !(v.above 0 && v.atMost 1) then .error "ValueError"
  else if p.splitDigits.any fun d => !(decide (0 ≤ d) && decide (d ≤ 8)) then .error "ValueError"
  else if p.timeLimit.below 0 then .error "ValueError"
  else .ok ()

/-- multiclass_binning.py:699-700: a string mode, class with columns `nev`, `ev`.  "auto_heuristic" is not turned into a heuristic
trend here, unlike in a list (717-728) and in `OptimalBinning`. -/
def resolveString (hull : List ℚ → Option ℚ) (a : TrendArg) (nev ev : List ℕ) : Except String Trend :=
  match autoData hull nev ev with
  | .error e => .error e
  | .ok d => .ok (trendOfName 0 (decide' d a))

/-- multiclass_binning.py:712-736: one entry of a list, class with columns `nev`, `ev`; as in `OptimalBinning`, except that the
explicit heuristic trends get no change point (`trend_changes[i]` stays None), which is read nowhere (multiclass_cp.py:99, 103). -/
def resolveEntry (hull : List ℚ → Option ℚ) (a : TrendArg) (nev ev : List ℕ) : Except String Trend := resolveTrend hull nev ev a

/-- The comprehension and the loop over the classes (multiclass_binning.py:699-701, 711-736). -/
def resolveEach : List (List ℕ → List ℕ → Except String Trend) → List (List ℕ) → List (List ℕ) → Except String (List Trend)
  | f :: fs, nev :: nevs, ev :: evs =>
    match f nev ev with
    | .error e => .error e
    | .ok t =>
      match resolveEach fs nevs evs with
      | .error e => .error e
      | .ok ts => .ok (t :: ts)
  | [], _, _ => .ok []
  | _, _, _ => .error "IndexError"

/-- multiclass_binning.py:694-738: the trends of the classes. -/
def resolveTrendsM (hull : List ℚ → Option ℚ) (a : TrendsArg) (nev ev : List (List ℕ)) : Except String (List Trend) :=
  match a with
  | .none => .ok (List.replicate ev.length .unconstrained)
  | .str a => resolveEach (List.replicate ev.length (resolveString hull a)) nev ev
  | .list l =>
    if l.length ≠ ev.length then .error "ValueError: List of monotonic trends must be of size n_classes"
    else resolveEach (l.map (resolveEntry hull)) nev ev

/-- multiclass_binning.py:684-761: the solver object. -/
def ParamsM.options (p : ParamsM) (hull : List ℚ → Option ℚ) (nev ev : List (List ℕ)) : Except String MultiOpts :=
  match resolveTrendsM hull p.trend nev ev with
  | .error e => .error e
  | .ok ts => .ok { trends := ts, minBins := p.minBins, maxBins := p.maxBins }

/-- The solver object and the arguments of `build_model` (multiclass_binning.py:743-765); `pv` is the p-value of the Z-test of two
bins.  `ParamsM.options` succeeds whenever the solver runs. -/
noncomputable def ParamsM.cfg (p : ParamsM) (hull : List ℚ → Option ℚ) (pv : ℕ → ℕ → ℕ → ℕ → ℝ) : SolverCfgM where
  opts := fun _ nev ev => match p.options hull nev ev with
    | .ok o => o
    | .error _ => { trends := List.replicate ev.length .unconstrained }
  test := p.maxPvalue.map fun v a b c d => decide ((v.value : ℝ) < pv a b c d)
  policy := p.policy
  minDiff := p.minRateDiff.value

/-- `MulticlassOptimalBinning(...).fit(x, y)` without `user_splits` (multiclass_binning.py:493-634): the checks of 500-508, the
number of classes (644), the refinement, the trends (694-738, only if there are pre-bins, 672) and the fit. -/
def fitParamsM {α κ : Type*} [LinearOrder α] [LinearOrder κ] (p : ParamsM) (hull : List ℚ → Option ℚ) (sc : SpecialCodes α)
    (outlier : Option (List (RecM α κ) → List Bool)) (prebin : List (RecM α κ) → List α) (solver : SolverM)
    (recs : List (RecM α κ)) : Except String (FittedM α κ) :=
  match checkParametersM p with
  | .error e => .error e
  | .ok _ =>
    let s := splitDataM sc outlier recs
    if 100 < (classesM s.clean).length then .error "ValueError: Maximum number of classes exceeded"
    else
      match computePrebinsM (classesM s.clean) s.clean {} (prebin s.clean) with
      | .error e => .error e
      | .ok pb =>
        if pb.nb = 0 then fitNumericalM sc outlier prebin solver recs
        else
          match p.options hull pb.nonevent pb.event with
          | .error e => .error e
          | .ok _ => fitNumericalM sc outlier prebin solver recs

end OptBinning
