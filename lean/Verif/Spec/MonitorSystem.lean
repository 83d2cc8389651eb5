import Verif.Spec.Psi
import Mathlib.Data.Rat.Defs
import Mathlib.Tactic.Linarith

/-! # Specification: comparison of two samples of scored records bin by bin -/
namespace OptBinning.Spec
variable {α : Type} [LinearOrder α] {β : Type}

open Classical in
/-- The records whose score lies in the `i`-th score interval. -/
noncomputable def inScoreBin (splits : List α) (i : ℕ) (recs : List (α × β)) : List (α × β) :=
  recs.filter fun r => decide (InLeftOpen splits i r.1)

/-- Number of events and of non-events; a record is (score, label is 0). -/
def eventCount (recs : List (α × Bool)) : ℕ := (recs.filter fun r => !r.2).length
def noneventCount (recs : List (α × Bool)) : ℕ := (recs.filter fun r => r.2).length

/-- The share of events. -/
def eventRateOf (recs : List (α × Bool)) : ℚ := (eventCount recs : ℚ) / (recs.length : ℚ)

/-- The squared two-sample statistic for equal proportions, with the pooled event rate `p`:
`(pA - pE)² / (p (1 - p) (1 / nA + 1 / nE))`. -/
def proportionStatistic (act exp : List (α × Bool)) : ℚ :=
  let p := eventRateOf (act ++ exp)
  (eventRateOf act - eventRateOf exp) ^ 2 / (p * (1 - p) * (1 / (act.length : ℚ) + 1 / (exp.length : ℚ)))

/-- Average and mean squared deviation. -/
def avg (y : List ℚ) : ℚ := y.sum / (y.length : ℚ)
def msd (y : List ℚ) : ℚ := avg (y.map fun v => (v - avg y) ^ 2)

/-- The intervals the labels of a report name: `(-∞, s₀), [s₀, s₁), …, [s_{m-1}, ∞)`. -/
def InLabel (s : List α) (i : ℕ) (v : α) : Prop :=
  i ≤ s.length ∧ (∀ b, s[i]? = some b → v < b) ∧ ∀ j a, j < i → s[j]? = some a → a ≤ v

end OptBinning.Spec
