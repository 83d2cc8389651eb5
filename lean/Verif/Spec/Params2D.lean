import Verif.Spec.Params
import Verif.Model.Params2D

/-!
# Specification of the documented ranges of the arguments of the two-dimensional classes (C110)
-/
namespace OptBinning.Spec

/-- The documented ranges common to both classes (docstrings of `OptimalBinning2D` and `ContinuousOptimalBinning2D`). -/
structure ValidParams2D (p : Params2D) : Prop where
  prebinning : p.prebinning = "cart" ∨ p.prebinning = "mdlp" ∨ p.prebinning = "quantile" ∨ p.prebinning = "uniform"
  strategy : p.strategy = "grid" ∨ p.strategy = "cart"
  solver : p.solver = "cp" ∨ p.solver = "mip"
  maxPrebinsX : 1 < p.maxPrebinsX
  maxPrebinsY : 1 < p.maxPrebinsY
  minPrebinSizeX : NumIn p.minPrebinSizeX fun q => 0 < q ∧ q ≤ 1 / 2
  minPrebinSizeY : NumIn p.minPrebinSizeY fun q => 0 < q ∧ q ≤ 1 / 2
  minBins : PositiveIfGiven p.minBins
  maxBins : PositiveIfGiven p.maxBins
  bins : OrderedIfGiven p.minBins p.maxBins
  minBinSize : ∀ v, p.minBinSize = some v → NumIn v fun q => 0 < q ∧ q ≤ 1 / 2
  maxBinSize : ∀ v, p.maxBinSize = some v → NumIn v fun q => 0 < q ∧ q ≤ 1
  binSize : ∀ a b, p.minBinSize = some (.num a) → p.maxBinSize = some (.num b) → a ≤ b
  trendX : p.trendX = none ∨ p.trendX = some "ascending" ∨ p.trendX = some "descending"
  trendY : p.trendY = none ∨ p.trendY = some "ascending" ∨ p.trendY = some "descending"
  gamma : NumIn p.gamma fun q => 0 ≤ q
  splitDigits : ∀ d, p.splitDigits = some d → 0 ≤ d ∧ d ≤ 8
  timeLimit : NumIn p.timeLimit fun q => 0 ≤ q

/-- Those of `OptimalBinning2D`. -/
structure ValidParams2DB (p : Params2DB) : Prop where
  common : ValidParams2D p.toParams2D
  divergence : p.divergence = "iv" ∨ p.divergence = "js" ∨ p.divergence = "hellinger" ∨ p.divergence = "triangular"
  minNonevent : PositiveIfGiven p.minNonevent
  maxNonevent : PositiveIfGiven p.maxNonevent
  nonevent : OrderedIfGiven p.minNonevent p.maxNonevent
  minEvent : PositiveIfGiven p.minEvent
  maxEvent : PositiveIfGiven p.maxEvent
  event : OrderedIfGiven p.minEvent p.maxEvent
  minRateDiffX : NumIn p.minRateDiffX fun q => 0 ≤ q ∧ q ≤ 1
  minRateDiffY : NumIn p.minRateDiffY fun q => 0 ≤ q ∧ q ≤ 1

/-- From `a` to `b` the value moves in the direction of the trend by more than `diff`. -/
def Moves (trend : Option String) (diff a b : ℚ) : Prop :=
  (trend = some "ascending" → a + diff < b) ∧ (trend = some "descending" → b + diff < a)

/-- The external parts of a call behave as documented: increasing pre-binning splits, a proper tree, solvers whose answers are
those of the problem posed. -/
structure Good2D {α β τ : Type} [DecidableEq α] [DecidableEq β] (e : Ext2D α β τ) : Prop where
  prepared : (prepare2D e.dx e.dy e.scx e.scy e.prebinX e.prebinY e.recs).WellFormed
  tree : ∀ l, (e.tree l).WellFormed
  cp : ∀ o p, (e.solverCP o p).Valid o p
  mip : ∀ o p, (e.solverMIP o p).Valid o p

end OptBinning.Spec
