import Verif.Spec.Binning
import Verif.Spec.Options
import Mathlib.Algebra.Order.Ring.Defs
import Mathlib.Data.Rat.Floor

/-!
# Specification: what the user asked for

`Admissible` lists, one field per documented option, what a binning `sol` of `n` pre-bins must satisfy.  `r s e` is the
event rate of the bin `s..e` (whatever precision the caller chooses); nothing here refers to solver variables.
-/
namespace OptBinning.Spec

section
variable {R : Type*} [CommRing R] [LinearOrder R]

/-- Rates are non-decreasing along the bins whose last pre-bin satisfies `P`. -/
def AscendingOn (n : ℕ) (sol : ℕ → Bool) (r : ℕ → ℕ → R) (P : ℕ → Prop) : Prop :=
  ∀ s e s' e', IsBin n sol s e → IsBin n sol s' e' → e < e' → P e → P e' → r s e ≤ r s' e'

/-- Rates are non-increasing along the bins whose last pre-bin satisfies `P`. -/
def DescendingOn (n : ℕ) (sol : ℕ → Bool) (r : ℕ → ℕ → R) (P : ℕ → Prop) : Prop :=
  ∀ s e s' e', IsBin n sol s e → IsBin n sol s' e' → e < e' → P e → P e' → r s' e' ≤ r s e

/-- The requested trend holds for the rates of the bins. -/
def TrendHolds (n : ℕ) (sol : ℕ → Bool) (r : ℕ → ℕ → R) : Trend → Prop
  | .unconstrained => True
  | .ascending => AscendingOn n sol r (fun _ => True)
  | .descending => DescendingOn n sol r (fun _ => True)
  | .concave => ∀ s₁ e₁ s₂ e₂ s₃ e₃, IsBin n sol s₁ e₁ → IsBin n sol s₂ e₂ → IsBin n sol s₃ e₃ → e₁ < e₂ → e₂ < e₃ →
      r s₁ e₁ + r s₃ e₃ ≤ 2 * r s₂ e₂
  | .convex => ∀ s₁ e₁ s₂ e₂ s₃ e₃, IsBin n sol s₁ e₁ → IsBin n sol s₂ e₂ → IsBin n sol s₃ e₃ → e₁ < e₂ → e₂ < e₃ →
      2 * r s₂ e₂ ≤ r s₁ e₁ + r s₃ e₃
  | .peak => ∃ c, AscendingOn n sol r (fun e => e < c) ∧ DescendingOn n sol r (fun e => c ≤ e)
  | .valley => ∃ c, DescendingOn n sol r (fun e => e < c) ∧ AscendingOn n sol r (fun e => c ≤ e)
  | .peakHeuristic c => AscendingOn n sol r (fun e => e < c) ∧ DescendingOn n sol r (fun e => c ≤ e)
  | .valleyHeuristic c => DescendingOn n sol r (fun e => e < c) ∧ AscendingOn n sol r (fun e => c ≤ e)

/-- A numeric option `lo ≤ v`, vacuous if the option is not set. -/
def AtLeast (lo : Option ℤ) (v : ℤ) : Prop := ∀ b, lo = some b → b ≤ v

/-- A numeric option `v ≤ hi`, vacuous if the option is not set. -/
def AtMost (hi : Option ℤ) (v : ℤ) : Prop := ∀ b, hi = some b → v ≤ b

/-- `sol` satisfies all limits, the trend and the fixed splits of `o`. -/
structure Admissible (o : Opts) (n : ℕ) (sol : ℕ → Bool) (nonevent event : ℕ → ℤ) (r : ℕ → ℕ → R) : Prop where
  binning : IsBinning n sol
  minBins : AtLeast o.minBins (numBins n sol)
  maxBins : AtMost o.maxBins (numBins n sol)
  minSize : ∀ s e, IsBin n sol s e → AtLeast o.minSize (binTotal nonevent s e + binTotal event s e)
  maxSize : ∀ s e, IsBin n sol s e → AtMost o.maxSize (binTotal nonevent s e + binTotal event s e)
  minNonevent : ∀ s e, IsBin n sol s e → AtLeast o.minNonevent (binTotal nonevent s e)
  maxNonevent : ∀ s e, IsBin n sol s e → AtMost o.maxNonevent (binTotal nonevent s e)
  minEvent : ∀ s e, IsBin n sol s e → AtLeast o.minEvent (binTotal event s e)
  maxEvent : ∀ s e, IsBin n sol s e → AtMost o.maxEvent (binTotal event s e)
  trend : TrendHolds n sol r o.trend
  fixed : ∀ f, o.fixed = some f → ∀ i, i + 1 < n → f i = true → sol i = true

end

/-- The two policies of `max_pvalue_policy`. -/
inductive Policy | all | consecutive
  deriving DecidableEq, Repr

/-- No two bins (policy `all`) / no two consecutive bins (policy `consecutive`) are in the relation `bad`. -/
def Separated (pol : Policy) (n : ℕ) (sol : ℕ → Bool) (bad : ℕ → ℕ → ℕ → ℕ → Prop) : Prop :=
  ∀ s e s' e', IsBin n sol s e → IsBin n sol s' e' → e < s' → (pol = .consecutive → s' = e + 1) → ¬ bad s e s' e'

/-- Event rate of the bin `s..e`. -/
def eventRate (nonevent event : ℕ → ℤ) (s e : ℕ) : ℚ :=
  ((binTotal event s e : ℤ) : ℚ) / (((binTotal nonevent s e : ℤ) : ℚ) + ((binTotal event s e : ℤ) : ℚ))

end OptBinning.Spec
