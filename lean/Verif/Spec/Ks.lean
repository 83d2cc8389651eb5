import Mathlib.Data.Rat.Defs
import Mathlib.Algebra.Order.Ring.Rat
import Mathlib.Algebra.Order.Field.Rat
import Mathlib.Algebra.Order.Group.Abs
import Mathlib.Data.List.Basic

/-! # Specification: the Kolmogorov-Smirnov distance of two classes ordered by score

`y` lists the labels (`true` = event) in the order of increasing score. -/
namespace OptBinning.Spec

/-- Share of the non-events minus share of the events among the `k` records with the smallest scores. -/
def cdfGap (y : List Bool) (k : ℕ) : ℚ :=
  (((y.take k).count false : ℕ) : ℚ) / ((y.count false : ℕ) : ℚ) - (((y.take k).count true : ℕ) : ℚ) / ((y.count true : ℕ) : ℚ)

/-- `s` is the largest distance of the two cumulative distributions. -/
def IsKS (y : List Bool) (s : ℚ) : Prop :=
  (∃ k ≤ y.length, |cdfGap y k| = s) ∧ ∀ k ≤ y.length, |cdfGap y k| ≤ s

/-- `s` is the largest signed lead of the non-events over non-empty groups of smallest scores. -/
def IsMaxLead (y : List Bool) (s : ℚ) : Prop :=
  (∃ k, 1 ≤ k ∧ k ≤ y.length ∧ cdfGap y k = s) ∧ ∀ k, 1 ≤ k → k ≤ y.length → cdfGap y k ≤ s

/-- Both labels occur. -/
def BothLabels (y : List Bool) : Prop := true ∈ y ∧ false ∈ y

end OptBinning.Spec
