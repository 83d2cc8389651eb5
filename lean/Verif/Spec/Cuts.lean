import Verif.Spec.Table
import Verif.Spec.Admissible
import Verif.Spec.Params
import Verif.Model.Params
import Mathlib.Algebra.BigOperators.Group.Finset.Basic

/-!
# Specification: the table obtained by cutting the records at given points (C103)

Nothing here refers to pre-bins or solver variables.
-/
namespace OptBinning.Spec
open Finset

variable {α : Type*} [LT α] [LE α]

open Classical in
/-- Weight of the records of a class whose value lies in interval `k` of the cut points `cs`. -/
noncomputable def cutWeight (recs : List (Rec α)) (cs : List α) (event : Bool) (k : ℕ) : ℚ :=
  weight recs fun r => r.y = some event ∧ ∃ v, r.x = some v ∧ InInterval cs k v

/-- Event rate of interval `k`. -/
noncomputable def cutRate (recs : List (Rec α)) (cs : List α) (k : ℕ) : ℚ :=
  cutWeight recs cs true k / (cutWeight recs cs false k + cutWeight recs cs true k)

/-- Weight of a class. -/
def classWeight (recs : List (Rec α)) (event : Bool) : ℚ := weight recs fun r => r.y = some event

/-- Divergence between the distributions of the events and of the non-events over the intervals. -/
noncomputable def cutDivergence (D : ℝ → ℝ → ℝ) (recs : List (Rec α)) (cs : List α) : ℝ :=
  ∑ k ∈ range (cs.length + 1), D (((cutWeight recs cs true k : ℚ) : ℝ) / ((classWeight recs true : ℚ) : ℝ))
    (((cutWeight recs cs false k : ℚ) : ℝ) / ((classWeight recs false : ℚ) : ℝ))

/-- The event rates of the intervals are non-decreasing. -/
def CutsAscending (recs : List (Rec α)) (cs : List α) : Prop :=
  ∀ k k', k < k' → k' ≤ cs.length → cutRate recs cs k ≤ cutRate recs cs k'

/-- The event rates of the intervals are non-increasing. -/
def CutsDescending (recs : List (Rec α)) (cs : List α) : Prop :=
  ∀ k k', k < k' → k' ≤ cs.length → cutRate recs cs k' ≤ cutRate recs cs k

/-- The event rates rise up to some interval and then fall. -/
def CutsPeak (recs : List (Rec α)) (cs : List α) : Prop :=
  ∃ c, (∀ k k', k < k' → k' ≤ cs.length → k' < c → cutRate recs cs k ≤ cutRate recs cs k') ∧
    ∀ k k', k < k' → k' ≤ cs.length → c ≤ k → cutRate recs cs k' ≤ cutRate recs cs k

/-- The event rates fall up to some interval and then rise. -/
def CutsValley (recs : List (Rec α)) (cs : List α) : Prop :=
  ∃ c, (∀ k k', k < k' → k' ≤ cs.length → k' < c → cutRate recs cs k' ≤ cutRate recs cs k) ∧
    ∀ k k', k < k' → k' ≤ cs.length → c ≤ k → cutRate recs cs k ≤ cutRate recs cs k'

/-- Every interval holds events and non-events. -/
def CutsMixed (recs : List (Rec α)) (cs : List α) : Prop :=
  ∀ k ≤ cs.length, ∀ event, 0 < cutWeight recs cs event k

/-- The intervals meet everything asked for by the arguments `p` (`monotonic_trend` None, ascending, descending, peak or valley);
`n` is the number of records, `pv` the p-value of the proportion test of two rows (events and non-events of the first, then of the
second), `slack` an additional distance of neighbouring event rates if a minimum difference is asked for. -/
structure CutsMeet (p : Params) (pv : ℕ → ℕ → ℕ → ℕ → ℝ) (n : ℕ) (slack : ℚ) (recs : List (Rec α)) (cs : List α) : Prop where
  minBins : AtLeast p.minBins (cs.length + 1)
  maxBins : AtMost p.maxBins (cs.length + 1)
  minSize : ∀ q, p.minBinSize = some (.num q) → ∀ k ≤ cs.length, q * (n : ℚ) ≤ cutWeight recs cs false k + cutWeight recs cs true k
  maxSize : ∀ q, p.maxBinSize = some (.num q) → ∀ k ≤ cs.length, cutWeight recs cs false k + cutWeight recs cs true k ≤ q * (n : ℚ)
  minNonevent : ∀ b, p.minNonevent = some b → ∀ k ≤ cs.length, ((b : ℤ) : ℚ) ≤ cutWeight recs cs false k
  maxNonevent : ∀ b, p.maxNonevent = some b → ∀ k ≤ cs.length, cutWeight recs cs false k ≤ ((b : ℤ) : ℚ)
  minEvent : ∀ b, p.minEvent = some b → ∀ k ≤ cs.length, ((b : ℤ) : ℚ) ≤ cutWeight recs cs true k
  maxEvent : ∀ b, p.maxEvent = some b → ∀ k ≤ cs.length, cutWeight recs cs true k ≤ ((b : ℤ) : ℚ)
  ascending : p.trend = .ascending → CutsAscending recs cs
  descending : p.trend = .descending → CutsDescending recs cs
  peak : p.trend = .peak → CutsPeak recs cs
  valley : p.trend = .valley → CutsValley recs cs
  minDiff : ∀ q, p.minRateDiff = .num q → 0 < q → ∀ k, k + 1 ≤ cs.length → q + slack ≤ |cutRate recs cs k - cutRate recs cs (k + 1)|
  pvalue : ∀ v, p.maxPvalue = some (.num v) → ∀ k k', k < k' → k' ≤ cs.length → (p.policy = .consecutive → k' = k + 1) →
    ∀ e ne e' ne' : ℕ, (e : ℚ) = cutWeight recs cs true k → (ne : ℚ) = cutWeight recs cs false k → (e' : ℚ) = cutWeight recs cs true k' →
      (ne' : ℚ) = cutWeight recs cs false k' → pv e ne e' ne' ≤ ((v : ℚ) : ℝ)

/-- Arguments for which the optimum is not cut off by the solver's preprocessing: no trend, peak or valley with any limits; ascending
or descending with any limits if a minimum difference of event rates is asked for. -/
def AnyLimits (p : Params) : Prop :=
  (p.trend = .none ∨ p.trend = .peak ∨ p.trend = .valley) ∨ ((p.trend = .ascending ∨ p.trend = .descending) ∧ p.minRateDiff ≠ .num 0)

/-- Arguments which ask for an ascending or descending trend and possibly a maximum number of bins. -/
structure OnlyTrend (p : Params) : Prop where
  trend : p.trend = .ascending ∨ p.trend = .descending
  minBins : p.minBins = none
  minBinSize : p.minBinSize = none
  maxBinSize : p.maxBinSize = none
  minNonevent : p.minNonevent = none
  maxNonevent : p.maxNonevent = none
  minEvent : p.minEvent = none
  maxEvent : p.maxEvent = none
  minRateDiff : p.minRateDiff = .num 0
  maxPvalue : p.maxPvalue = none

end OptBinning.Spec
