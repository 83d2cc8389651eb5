import Mathlib.Analysis.SpecialFunctions.Log.Basic
import Mathlib.Algebra.BigOperators.Group.Finset.Basic

/-! # Specification vocabulary for the divergence of several distributions

A table with `m` rows and `n` classes is given by its counts `count r i`. -/
namespace OptBinning.Spec

open Finset

/-- Share of the records of class `i` which are in row `r`. -/
noncomputable def classShare (m : ℕ) (count : ℕ → ℕ → ℕ) (r i : ℕ) : ℝ := (count r i : ℝ) / ((∑ q ∈ range m, count q i : ℕ) : ℝ)

/-- Kullback-Leibler divergence of two distributions over the rows. -/
noncomputable def klRows (m : ℕ) (p q : ℕ → ℝ) : ℝ := ∑ r ∈ range m, p r * Real.log (p r / q r)

/-- Generalised Jensen-Shannon divergence: the mean divergence of the classes from the mean distribution. -/
noncomputable def jsClasses (m n : ℕ) (count : ℕ → ℕ → ℕ) : ℝ :=
  (∑ i ∈ range n, klRows m (fun r => classShare m count r i) fun r => (∑ j ∈ range n, classShare m count r j) / n) / n

/-- The table `coarse` arises from `fine` by joining rows: row `r` goes to row `g r`. -/
def RowsJoined (n m m' : ℕ) (g : ℕ → ℕ) (fine coarse : ℕ → ℕ → ℕ) : Prop :=
  (∀ r < m, g r < m') ∧ ∀ i < n, ∀ k < m', coarse k i = ∑ r ∈ (range m).filter (g · = k), fine r i

end OptBinning.Spec
