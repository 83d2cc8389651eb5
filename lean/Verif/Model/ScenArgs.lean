import Verif.Model.Params
import Verif.Model.Scenarios

/-!
# Model of the arguments of `SBOptimalBinning` and of `binning_table_scenario`
(binning/uncertainty/binning_scenarios.py:31-172, 264-334, 469-545, 745-765, 791-811)

As in `Model/Params.lean` floats are rationals with NaN and infinities; the checks of Python types and of the arguments `name`,
`prebinning_method`, `class_weight`, `verbose` are not modelled.
-/
namespace OptBinning
open Spec

/-- The values of `monotonic_trend` accepted by binning_scenarios.py:86-91; `other` is any other string. -/
inductive TrendS
  | none | ascending | descending | concave | convex | peak | valley | other (name : String)
  deriving DecidableEq

/-- The trend seen by `BinningCP` (cp.py:217-246). -/
def TrendS.trend : TrendS → Trend
  | .ascending => .ascending
  | .descending => .descending
  | .concave => .concave
  | .convex => .convex
  | .peak => .peak
  | .valley => .valley
  | _ => .unconstrained

/-- Constructor arguments (binning_scenarios.py:264-270); `α` is the type of the values. -/
structure ParamsS (α : Type*) where
  maxPrebins : ℤ := 20
  minPrebinSize : XQ := .num (1 / 20)
  minBins : Option ℤ := none
  maxBins : Option ℤ := none
  minBinSize : Option XQ := none
  maxBinSize : Option XQ := none
  trend : TrendS := .none
  minRateDiff : XQ := .num 0
  maxPvalue : Option XQ := none
  policy : Policy := .consecutive
  userSplits : Option (List α) := none
  userSplitsFixed : Option (List Bool) := none
  specialCodes : SpecialCodes α := .none
  splitDigits : Option ℤ := none
  timeLimit : XQ := .num 100

/-- binning_scenarios.py:86-91: not one of the listed strings. -/
def TrendS.unknown : TrendS → Bool
  | .other _ => true
  | _ => false

/-- binning_scenarios.py:121-134: `user_splits_fixed` without `user_splits`, or of another length. -/
def badFixed {α : Type*} : Option (List α) → Option (List Bool) → Bool
  | _, none => false
  | none, some _ => true
  | some us, some fx => us.length != fx.length

/-- `_check_parameters` (binning_scenarios.py:31-151), in the order of the source. -/
def checkParametersS {α : Type*} (p : ParamsS α) : Except String Unit :=
  if p.maxPrebins ≤ 1 then .error "ValueError"
  else if !(p.minPrebinSize.above 0 && p.minPrebinSize.atMost (1 / 2)) then .error "ValueError"
  else if badCount p.minBins then .error "ValueError"
  else if badCount p.maxBins then .error "ValueError"
  else if badOrder p.minBins p.maxBins then .error "ValueError"
  else if p.minBinSize.any fun v => !(v.above 0 && v.atMost (1 / 2)) then .error "ValueError"
  else if p.maxBinSize.any fun v => !(v.above 0 && v.atMost 1) then .error "ValueError"
  else if p.minBinSize.any fun v => p.maxBinSize.any fun w => v.greater w then .error "ValueError"
  else if p.trend.unknown then .error "ValueError"
  else if !(p.minRateDiff.atLeast 0 && p.minRateDiff.atMost 1) then .error "ValueError"
  else if p.maxPvalue.any fun v => !(v.above 0 && v.atMost 1) then .error "ValueError"
  else if badFixed p.userSplits p.userSplitsFixed then .error "ValueError"
  else if p.specialCodes.isDict then .error "TypeError"
  else if p.splitDigits.any fun d => !(decide (0 ≤ d) && decide (d ≤ 8)) then .error "ValueError"
  else if p.timeLimit.below 0 then .error "ValueError"
  else .ok ()

/-- `_check_X_Y_weights` (binning_scenarios.py:154-172) for lists of lengths `nx`, `ny`, and `weights` of length `nw` if given. -/
def checkXYW (nx ny : ℕ) (nw : Option ℕ) : Except String Unit :=
  if nx ≠ ny then .error "ValueError"
  else if nw.any fun k => nx != k then .error "ValueError"
  else .ok ()

/-- The options reaching the optimiser (binning_scenarios.py:745-763); `pv` is the p-value of the proportion test (model_data.py:49-53). -/
noncomputable def ParamsS.cfg {α : Type*} (p : ParamsS α) (pv : ℕ → ℕ → ℕ → ℕ → ℝ) : ScenCfg where
  trend := p.trend.trend
  minBins := p.minBins
  maxBins := p.maxBins
  minSize := p.minBinSize.map XQ.value
  maxSize := p.maxBinSize.map XQ.value
  minDiff := p.minRateDiff.value
  test := p.maxPvalue.map fun v e₁ ne₁ e₂ ne₂ => decide ((v.value : ℝ) < pv e₁ ne₁ e₂ ne₂)
  policy := p.policy

/-- `SBOptimalBinning(...).fit(X, Y, weights)` (binning_scenarios.py:469-623) of a new object.  `prebin` includes the rounding by
`split_digits` (666-667); the rounding of user splits is not modelled.  `solver w` is the external solver for the weights `w` (764-770).
The scenarios are the pairs of entries of `X` and `Y`; `ny` is the length of `Y`. -/
noncomputable def fitArgsS {α : Type*} [LinearOrder α] (p : ParamsS α) (pv : ℕ → ℕ → ℕ → ℕ → ℝ) (prebin : List (RecM α Bool) → List α)
    (solver : List ℝ → SolverS) (scens : List (Scen α)) (ny : ℕ) (weights : Option (List ℝ)) : Except String (FittedS α) :=
  match checkParametersS p with
  | .error e => .error e
  | .ok _ =>
    match checkXYW scens.length ny (weights.map List.length) with
    | .error e => .error e
    | .ok _ =>
      match p.userSplits with
      | none => fitScen (p.cfg pv) p.specialCodes prebin (solver (defaultWeights weights scens.length)) scens
      | some us => fitUserS (p.cfg pv) p.specialCodes (solver (defaultWeights weights scens.length)) us p.userSplitsFixed scens

/-- `binning_table_scenario(scenario_id)` (binning_scenarios.py:791-811): the columns of the table, for an integer. -/
def FittedS.tableScenario {α : Type*} (f : FittedS α) (id : ℤ) : Except String (List ℕ × List ℕ) :=
  if 0 ≤ id ∧ id < (f.nonevent.length : ℤ) then .ok (f.nonevent.getD id.toNat [], f.event.getD id.toNat [])
  else .error "ValueError"

end OptBinning
