import Mathlib.Data.Real.Basic
import Mathlib.Data.List.Basic

/-! # Specification: populations over bins

A pair `(a, e)` holds the number of actual and of expected records of one bin. -/
namespace OptBinning.Spec

/-- Number of actual / expected records. -/
def actual (t : List (ℕ × ℕ)) : ℕ := (t.map Prod.fst).sum
def expected (t : List (ℕ × ℕ)) : ℕ := (t.map Prod.snd).sum

/-- Both populations have the same distribution over the bins. -/
def SamePopulation (t : List (ℕ × ℕ)) : Prop :=
  ∀ p ∈ t, (p.1 : ℝ) / (actual t : ℝ) = (p.2 : ℝ) / (expected t : ℝ)

/-- Value `v` lies in the `i`-th of the intervals `(-∞, s₀], (s₀, s₁], …, (s_{m-1}, ∞)`. -/
def InLeftOpen {α : Type*} [LinearOrder α] (s : List α) (i : ℕ) (v : α) : Prop :=
  i ≤ s.length ∧ (∀ b, s[i]? = some b → v ≤ b) ∧ ∀ j a, j < i → s[j]? = some a → a < v

end OptBinning.Spec
