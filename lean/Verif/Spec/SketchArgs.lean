import Verif.Spec.Params
import Verif.Spec.Stream
import Verif.Model.SketchArgs

/-!
# Specification: documented ranges of the arguments of `OptimalBinningSketch`, records received by an object (C113)
-/
namespace OptBinning.Spec

/-- The ranges of the arguments (docstring of `OptimalBinningSketch` and messages of `_check_parameters`). -/
structure ValidSketch (a : SketchArgs) : Prop where
  eps : NumIn a.eps fun q => 0 ≤ q ∧ q ≤ 1
  K : 0 < a.K
  maxPrebins : 1 < a.base.maxPrebins
  minBins : PositiveIfGiven a.base.minBins
  maxBins : PositiveIfGiven a.base.maxBins
  bins : OrderedIfGiven a.base.minBins a.base.maxBins
  minBinSize : ∀ v, a.base.minBinSize = some v → NumIn v fun q => 0 < q ∧ q ≤ 1 / 2
  maxBinSize : ∀ v, a.base.maxBinSize = some v → NumIn v fun q => 0 < q ∧ q ≤ 1
  binSize : ∀ x y, a.base.minBinSize = some (.num x) → a.base.maxBinSize = some (.num y) → x ≤ y
  minNonevent : PositiveIfGiven a.base.minNonevent
  maxNonevent : PositiveIfGiven a.base.maxNonevent
  nonevent : OrderedIfGiven a.base.minNonevent a.base.maxNonevent
  minEvent : PositiveIfGiven a.base.minEvent
  maxEvent : PositiveIfGiven a.base.maxEvent
  event : OrderedIfGiven a.base.minEvent a.base.maxEvent
  minRateDiff : NumIn a.base.minRateDiff fun q => 0 ≤ q ∧ q ≤ 1
  maxPvalue : ∀ v, a.base.maxPvalue = some v → NumIn v fun q => 0 < q ∧ q ≤ 1
  gamma : NumIn a.base.gamma fun q => 0 ≤ q
  catCutoff : ∀ v, a.catCutoff = some v → NumIn v fun q => 0 < q ∧ q ≤ 1
  splitDigits : ∀ d, a.base.splitDigits = some d → 0 ≤ d ∧ d ≤ 8
  timeLimit : NumIn a.base.timeLimit fun q => 0 ≤ q

/-- The records given to `add` in a history of calls. -/
def received {α : Type*} : List (SketchOp α) → List (Rec α)
  | [] => []
  | .add recs :: ops => recs ++ received ops
  | .solve _ :: ops => received ops

/-- Number of calls of `add`. -/
def addCalls {α : Type*} : List (SketchOp α) → ℕ
  | [] => 0
  | .add _ :: ops => addCalls ops + 1
  | .solve _ :: ops => addCalls ops

/-- Number of records with a target. -/
def labelled {α : Type*} [DecidableEq α] (recs : List (Rec α)) : ℕ := classCount false recs + classCount true recs

/-- The records of both classes contain a value which is neither missing nor special. -/
def BothClasses {α : Type*} [DecidableEq α] (sc : SpecialCodes α) (recs : List (Rec α)) : Prop :=
  ∀ ev : Bool, usedValues sc ev recs ≠ []

end OptBinning.Spec
