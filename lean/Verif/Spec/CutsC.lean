import Verif.Spec.Continuous
import Verif.Spec.ParamsC
import Verif.Spec.Cuts

/-!
# Specification: the table of a continuous target obtained by cutting the records at given points (C105)

Nothing here refers to pre-bins or solver variables.
-/
namespace OptBinning.Spec
open Finset

variable {α : Type*} [LT α] [LE α]

open Classical in
/-- Targets of the records whose value lies in interval `k` of the cut points `cs`. -/
noncomputable def cutTargets (recs : List (RecC α)) (cs : List α) (k : ℕ) : List ℚ :=
  targetsOf recs fun r => ∃ v, r.x = some v ∧ InInterval cs k v

/-- All targets. -/
def allTargets (recs : List (RecC α)) : List ℚ := recs.filterMap RecC.y

/-- Mean target of interval `k`. -/
noncomputable def cutMean (recs : List (RecC α)) (cs : List α) (k : ℕ) : ℚ := mean (cutTargets recs cs k)

/-- Standard deviation of the targets of interval `k`. -/
noncomputable def cutStd (recs : List (RecC α)) (cs : List α) (k : ℕ) : ℝ := Real.sqrt ((variance (cutTargets recs cs k) : ℚ) : ℝ)

/-- The sum over the intervals of the distance between the mean target of the interval and the mean of all targets. -/
noncomputable def cutDistance (recs : List (RecC α)) (cs : List α) : ℚ :=
  ∑ k ∈ range (cs.length + 1), |cutMean recs cs k - mean (allTargets recs)|

/-- Every interval holds records. -/
def CutsFilled (recs : List (RecC α)) (cs : List α) : Prop := ∀ k ≤ cs.length, cutTargets recs cs k ≠ []

/-- The means rise. -/
def MeansRise (recs : List (RecC α)) (cs : List α) (lo hi : ℕ) : Prop :=
  ∀ k k', lo ≤ k → k < k' → k' < hi → k' ≤ cs.length → cutMean recs cs k ≤ cutMean recs cs k'
/-- The means fall. -/
def MeansFall (recs : List (RecC α)) (cs : List α) (lo hi : ℕ) : Prop :=
  ∀ k k', lo ≤ k → k < k' → k' < hi → k' ≤ cs.length → cutMean recs cs k' ≤ cutMean recs cs k

/-- The intervals meet everything asked for by the arguments `p` (`monotonic_trend` None, ascending, descending, peak or valley); `n` is the
number of records, `pv` the p-value of the t-test of two rows (mean, standard deviation and size of each). -/
structure CutsMeetC (p : ParamsC) (pv : ℚ → ℝ → ℕ → ℚ → ℝ → ℕ → ℝ) (n : ℕ) (recs : List (RecC α)) (cs : List α) : Prop where
  minBins : AtLeast p.minBins (cs.length + 1)
  maxBins : AtMost p.maxBins (cs.length + 1)
  minSize : ∀ q, p.minBinSize = some (.num q) → ∀ k ≤ cs.length, q * (n : ℚ) ≤ ((cutTargets recs cs k).length : ℚ)
  maxSize : ∀ q, p.maxBinSize = some (.num q) → ∀ k ≤ cs.length, ((cutTargets recs cs k).length : ℚ) ≤ q * (n : ℚ)
  ascending : p.trend = .ascending → MeansRise recs cs 0 (cs.length + 1)
  descending : p.trend = .descending → MeansFall recs cs 0 (cs.length + 1)
  peak : p.trend = .peak → ∃ c, MeansRise recs cs 0 c ∧ MeansFall recs cs c (cs.length + 1)
  valley : p.trend = .valley → ∃ c, MeansFall recs cs 0 c ∧ MeansRise recs cs c (cs.length + 1)
  minDiff : ∀ q, p.minMeanDiff = .num q → ∀ k, k + 1 ≤ cs.length → q ≤ |cutMean recs cs k - cutMean recs cs (k + 1)|
  pvalue : ∀ v, p.maxPvalue = some (.num v) → ∀ k k', k < k' → k' ≤ cs.length → (p.policy = .consecutive → k' = k + 1) →
    pv (cutMean recs cs k) (cutStd recs cs k) (cutTargets recs cs k).length (cutMean recs cs k') (cutStd recs cs k') (cutTargets recs cs k').length ≤
      ((v : ℚ) : ℝ)

/-- No trend, ascending or descending; peak or valley if the targets do not take both signs. -/
def PlainTrendC (p : ParamsC) (recs : List (RecC α)) : Prop :=
  (p.trend = .none ∨ p.trend = .ascending ∨ p.trend = .descending) ∨
    (p.trend = .peak ∨ p.trend = .valley) ∧ ((∀ y ∈ allTargets recs, 0 ≤ y) ∨ ∀ y ∈ allTargets recs, y ≤ 0)

end OptBinning.Spec
