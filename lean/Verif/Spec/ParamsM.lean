import Verif.Spec.Params
import Verif.Spec.TrendRows
import Verif.Model.ParamsM

/-!
# Specification of the documented ranges of the constructor arguments of `MulticlassOptimalBinning` (C107)
-/
namespace OptBinning.Spec

/-- The documented ranges (docstring of `MulticlassOptimalBinning`). -/
structure ValidParamsM (p : ParamsM) : Prop where
  maxPrebins : 1 < p.maxPrebins
  minPrebinSize : NumIn p.minPrebinSize fun q => 0 < q ∧ q ≤ 1 / 2
  minBins : PositiveIfGiven p.minBins
  maxBins : PositiveIfGiven p.maxBins
  bins : OrderedIfGiven p.minBins p.maxBins
  minBinSize : ∀ v, p.minBinSize = some v → NumIn v fun q => 0 < q ∧ q ≤ 1 / 2
  maxBinSize : ∀ v, p.maxBinSize = some v → NumIn v fun q => 0 < q ∧ q ≤ 1
  binSize : ∀ a b, p.minBinSize = some (.num a) → p.maxBinSize = some (.num b) → a ≤ b
  trend : ∀ a, p.trend = .str a → a = .auto ∨ a = .autoHeuristic ∨ a = .autoAscDesc
  minRateDiff : NumIn p.minRateDiff fun q => 0 ≤ q ∧ q ≤ 1
  maxPvalue : ∀ v, p.maxPvalue = some v → NumIn v fun q => 0 < q ∧ q ≤ 1
  splitDigits : ∀ d, p.splitDigits = some d → 0 ≤ d ∧ d ≤ 8
  timeLimit : NumIn p.timeLimit fun q => 0 ≤ q

/-- The trend the user asked for class number `i`. -/
def asked : TrendsArg → ℕ → TrendArg
  | .none, _ => .none
  | .str a, _ => a
  | .list l, i => l.getD i .none

/-- The requests that `MulticlassOptimalBinning` enforces: every string; in a list None, "auto", "auto_asc_desc", "ascending", "descending",
"peak" and "valley". -/
def EnforcedM : TrendsArg → TrendArg → Prop
  | .list _, a => a = .none ∨ a = .auto ∨ a = .autoAscDesc ∨ a = .ascending ∨ a = .descending ∨ a = .peak ∨ a = .valley
  | _, _ => True

end OptBinning.Spec
