import Verif.Spec.Binning
import Mathlib.Data.Finset.Prod
import Mathlib.Data.Real.Basic

/-! # Specification: the bins of a binning as a finite set, and totals over bins -/
namespace OptBinning.Spec

open Classical in
/-- The bins `(s, e)` of the binning. -/
noncomputable def binsOf (n : ℕ) (sol : ℕ → Bool) : Finset (ℕ × ℕ) :=
  (Finset.range n ×ˢ Finset.range n).filter fun p => IsBin n sol p.1 p.2

/-- Total over all bins of a quantity `v s e` attached to a bin. -/
noncomputable def totalOverBins {R : Type*} [AddCommMonoid R] (n : ℕ) (sol : ℕ → Bool) (v : ℕ → ℕ → R) : R :=
  ∑ p ∈ binsOf n sol, v p.1 p.2

/-- Divergence contribution of the bin `s..e` of `n` pre-bins: the divergence applied to the shares of the events and of the
non-events that fall into the bin. -/
noncomputable def binDivergence (div : ℝ → ℝ → ℝ) (n : ℕ) (nonevent event : ℕ → ℤ) (s e : ℕ) : ℝ :=
  div (((binTotal event s e : ℤ) : ℝ) / ((binTotal event 0 (n - 1) : ℤ) : ℝ))
    (((binTotal nonevent s e : ℤ) : ℝ) / ((binTotal nonevent 0 (n - 1) : ℤ) : ℝ))

end OptBinning.Spec
