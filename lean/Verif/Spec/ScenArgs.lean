import Verif.Spec.Params
import Verif.Model.ScenArgs

/-!
# Specification: documented ranges of the arguments of `SBOptimalBinning` (C114)
-/
namespace OptBinning.Spec

/-- The ranges of the arguments (docstring of `SBOptimalBinning`, binning_scenarios.py:180-262, and messages of `_check_parameters`). -/
structure ValidScen {α : Type*} (p : ParamsS α) : Prop where
  maxPrebins : 1 < p.maxPrebins
  minPrebinSize : NumIn p.minPrebinSize fun q => 0 < q ∧ q ≤ 1 / 2
  minBins : PositiveIfGiven p.minBins
  maxBins : PositiveIfGiven p.maxBins
  bins : OrderedIfGiven p.minBins p.maxBins
  minBinSize : ∀ v, p.minBinSize = some v → NumIn v fun q => 0 < q ∧ q ≤ 1 / 2
  maxBinSize : ∀ v, p.maxBinSize = some v → NumIn v fun q => 0 < q ∧ q ≤ 1
  binSize : ∀ x y, p.minBinSize = some (.num x) → p.maxBinSize = some (.num y) → x ≤ y
  trend : p.trend ∈ [TrendS.none, .ascending, .descending, .concave, .convex, .peak, .valley]
  minRateDiff : NumIn p.minRateDiff fun q => 0 ≤ q ∧ q ≤ 1
  maxPvalue : ∀ v, p.maxPvalue = some v → NumIn v fun q => 0 < q ∧ q ≤ 1
  fixed : ∀ fx, p.userSplitsFixed = some fx → ∃ us, p.userSplits = some us ∧ us.length = fx.length
  specialCodes : p.specialCodes.isDict = false
  splitDigits : ∀ d, p.splitDigits = some d → 0 ≤ d ∧ d ≤ 8
  timeLimit : NumIn p.timeLimit fun q => 0 ≤ q

end OptBinning.Spec
