import Verif.Spec.Params
import Verif.Model.ParamsC

/-!
# Specification of the documented ranges of the constructor arguments of `ContinuousOptimalBinning` (C104)
-/
namespace OptBinning.Spec

/-- The documented ranges (docstring of `ContinuousOptimalBinning`). -/
structure ValidParamsC (p : ParamsC) : Prop where
  maxPrebins : 1 < p.maxPrebins
  minPrebinSize : NumIn p.minPrebinSize fun q => 0 < q ∧ q ≤ 1 / 2
  minBins : PositiveIfGiven p.minBins
  maxBins : PositiveIfGiven p.maxBins
  bins : OrderedIfGiven p.minBins p.maxBins
  minBinSize : ∀ v, p.minBinSize = some v → NumIn v fun q => 0 < q ∧ q ≤ 1 / 2
  maxBinSize : ∀ v, p.maxBinSize = some v → NumIn v fun q => 0 < q ∧ q ≤ 1
  binSize : ∀ a b, p.minBinSize = some (.num a) → p.maxBinSize = some (.num b) → a ≤ b
  minMeanDiff : NumIn p.minMeanDiff fun q => 0 ≤ q
  maxPvalue : ∀ v, p.maxPvalue = some v → NumIn v fun q => 0 < q ∧ q ≤ 1
  gamma : NumIn p.gamma fun q => 0 ≤ q
  splitDigits : ∀ d, p.splitDigits = some d → 0 ≤ d ∧ d ≤ 8
  timeLimit : NumIn p.timeLimit fun q => 0 ≤ q

/-- Row `k` of a table contains `cnt` records with mean target `m` and (population) standard deviation `sd`. -/
def RowShows (rows : List RowC) (k cnt : ℕ) (m : ℚ) (sd : ℝ) : Prop :=
  ∃ row, rows[k]? = some row ∧ row.cnt = cnt ∧ row.mean = some m ∧ ∃ v, row.var = some v ∧ sd = Real.sqrt (v : ℝ)

end OptBinning.Spec
