import Verif.Model.Params

/-!
# Specification of the documented ranges of the constructor arguments (C102)
-/
namespace OptBinning.Spec

/-- A float which is a number of the interval described by `r`. -/
def NumIn (v : XQ) (r : ℚ → Prop) : Prop := ∃ q, v = .num q ∧ r q

/-- An optional positive integer. -/
def PositiveIfGiven (x : Option ℤ) : Prop := ∀ v, x = some v → 0 < v

/-- Two optional limits in order. -/
def OrderedIfGiven (a b : Option ℤ) : Prop := ∀ v w, a = some v → b = some w → v ≤ w

/-- The documented ranges (docstring of `OptimalBinning`). -/
structure ValidParams (p : Params) : Prop where
  maxPrebins : 1 < p.maxPrebins
  minPrebinSize : NumIn p.minPrebinSize fun q => 0 < q ∧ q ≤ 1 / 2
  minBins : PositiveIfGiven p.minBins
  maxBins : PositiveIfGiven p.maxBins
  bins : OrderedIfGiven p.minBins p.maxBins
  minBinSize : ∀ v, p.minBinSize = some v → NumIn v fun q => 0 < q ∧ q ≤ 1 / 2
  maxBinSize : ∀ v, p.maxBinSize = some v → NumIn v fun q => 0 < q ∧ q ≤ 1
  binSize : ∀ a b, p.minBinSize = some (.num a) → p.maxBinSize = some (.num b) → a ≤ b
  minNonevent : PositiveIfGiven p.minNonevent
  maxNonevent : PositiveIfGiven p.maxNonevent
  nonevent : OrderedIfGiven p.minNonevent p.maxNonevent
  minEvent : PositiveIfGiven p.minEvent
  maxEvent : PositiveIfGiven p.maxEvent
  event : OrderedIfGiven p.minEvent p.maxEvent
  minRateDiff : NumIn p.minRateDiff fun q => 0 ≤ q ∧ q ≤ 1
  maxPvalue : ∀ v, p.maxPvalue = some v → NumIn v fun q => 0 < q ∧ q ≤ 1
  gamma : NumIn p.gamma fun q => 0 ≤ q
  splitDigits : ∀ d, p.splitDigits = some d → 0 ≤ d ∧ d ≤ 8
  timeLimit : NumIn p.timeLimit fun q => 0 ≤ q

/-- Ratio of events of row `k` of a table. -/
def rateOfRow (nonevent event : List ℕ) (k : ℕ) : ℚ :=
  ((event.getD k 0 : ℕ) : ℚ) / (((nonevent.getD k 0 : ℕ) : ℚ) + ((event.getD k 0 : ℕ) : ℚ))

end OptBinning.Spec
