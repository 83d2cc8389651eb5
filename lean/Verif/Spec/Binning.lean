import Mathlib.Data.Finset.Interval
import Mathlib.Order.Interval.Finset.Nat
import Mathlib.Algebra.BigOperators.Group.Finset.Basic

/-!
# Specification: contiguous binnings of `n` pre-bins

A binning of the pre-bins `0, …, n-1` into consecutive groups is described by the set of *last* pre-bins of the
groups: `sol k = true` means "a bin ends with pre-bin `k`" (for `k < n-1`: the split point after pre-bin `k` is kept).
This file does not mention any solver or model definition.
-/
namespace OptBinning.Spec

/-- `IsBin n sol s e`: the pre-bins `s, s+1, …, e` form one bin of the binning `sol`. -/
def IsBin (n : ℕ) (sol : ℕ → Bool) (s e : ℕ) : Prop :=
  s ≤ e ∧ e < n ∧ sol e = true ∧ (s = 0 ∨ sol (s - 1) = true) ∧ ∀ k, s ≤ k → k < e → sol k = false

/-- The last pre-bin closes the last bin: `sol` describes a binning of *all* pre-bins. -/
def IsBinning (n : ℕ) (sol : ℕ → Bool) : Prop := 0 < n ∧ sol (n - 1) = true

/-- Number of bins of the binning. -/
def numBins (n : ℕ) (sol : ℕ → Bool) : ℕ := ((Finset.range n).filter (fun k => sol k = true)).card

/-- Total of a pre-bin statistic over the bin `s..e`. -/
def binTotal {R : Type*} [AddCommMonoid R] (c : ℕ → R) (s e : ℕ) : R := ∑ k ∈ Finset.Icc s e, c k

end OptBinning.Spec
