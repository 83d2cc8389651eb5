import Verif.Spec.Admissible
import Verif.Spec.Objective
import Verif.Spec.Table

/-!
# Specification vocabulary for a continuous target (`ContinuousOptimalBinning`)
-/
namespace OptBinning

/-- One training record of `ContinuousOptimalBinning.fit`: value (`none` = NaN/None), numerical target (`none` = NaN) and
sample weight (1 if not given). -/
structure RecC (α : Type*) where
  x : Option α
  y : Option ℚ
  w : ℚ := 1
deriving DecidableEq

end OptBinning

namespace OptBinning.Spec

/-- Mean target of the bin `s..e` from the pre-bin records and target sums. -/
def binMean (records : ℕ → ℤ) (sums : ℕ → ℚ) (s e : ℕ) : ℚ := binTotal sums s e / ((binTotal records s e : ℤ) : ℚ)

/-- `sol` satisfies the limits, the trend and the fixed splits of `o`; `r s e` is the mean target of the bin `s..e` at
whatever precision the caller chooses. -/
structure AdmissibleMean {R : Type*} [CommRing R] [LinearOrder R] (o : Opts) (n : ℕ) (sol : ℕ → Bool)
    (records : ℕ → ℤ) (r : ℕ → ℕ → R) : Prop where
  binning : IsBinning n sol
  minBins : AtLeast o.minBins (numBins n sol)
  maxBins : AtMost o.maxBins (numBins n sol)
  minSize : ∀ s e, IsBin n sol s e → AtLeast o.minSize (binTotal records s e)
  maxSize : ∀ s e, IsBin n sol s e → AtMost o.maxSize (binTotal records s e)
  trend : TrendHolds n sol r o.trend
  fixed : ∀ f, o.fixed = some f → ∀ i, i + 1 < n → f i = true → sol i = true

/-- The objective of the continuous binning: the sum over the bins of the distance between the mean of the bin and the
overall mean. -/
noncomputable def l1Distance (n : ℕ) (sol : ℕ → Bool) (records : ℕ → ℤ) (sums : ℕ → ℚ) : ℚ :=
  totalOverBins n sol fun s e => |binMean records sums s e - binMean records sums 0 (n - 1)|

/-- Mean of a list of numbers. -/
def mean (ys : List ℚ) : ℚ := ys.sum / ys.length

/-- Population variance of a list of numbers. -/
def variance (ys : List ℚ) : ℚ := (ys.map fun y => (y - mean ys) ^ 2).sum / ys.length

/-- `m` is the least element of `ys`. -/
def IsMin (ys : List ℚ) (m : ℚ) : Prop := m ∈ ys ∧ ∀ y ∈ ys, m ≤ y
/-- `m` is the greatest element of `ys`. -/
def IsMax (ys : List ℚ) (m : ℚ) : Prop := m ∈ ys ∧ ∀ y ∈ ys, y ≤ m

/-- The numbers `cnt`, `sum`, `var`, `mn`, `mx`, `zeros` describe the list `ys`: its length, its sum, the number of zeros
and, if it is not empty, its population variance, least and greatest element. -/
structure Summarises (ys : List ℚ) (cnt : ℕ) (sum var mn mx : Option ℚ) (zeros : ℕ) : Prop where
  count : cnt = ys.length
  sum : sum = some ys.sum
  zeros : zeros = ys.count 0
  spread : ys ≠ [] → var = some (variance ys)
  least : ys ≠ [] → ∃ m, mn = some m ∧ IsMin ys m
  greatest : ys ≠ [] → ∃ m, mx = some m ∧ IsMax ys m

variable {α : Type*}

/-- Mean absolute deviation from the mean. -/
def meanAbsDev (ys : List ℚ) : ℚ := mean (ys.map fun y => |y - mean ys|)

/-- Information value of a grouping of numbers: the average distance between the mean of the group of a number and the mean
of all numbers. -/
def groupIv (groups : List (List ℚ)) : ℚ :=
  (groups.map fun g => (g.length : ℚ) / groups.flatten.length * |mean g - mean groups.flatten|).sum

/-- The known targets of the records with property `p`, in the order of the records. -/
def targetsOf (recs : List (RecC α)) (p : RecC α → Prop) [DecidablePred p] : List ℚ :=
  (recs.filter fun r => decide (p r)).filterMap RecC.y

/-- All targets are known. -/
def KnownTargetsC (recs : List (RecC α)) : Prop := ∀ r ∈ recs, r.y ≠ none
/-- No sample weights given. -/
def UnitWeights (recs : List (RecC α)) : Prop := ∀ r ∈ recs, r.w = 1

end OptBinning.Spec
