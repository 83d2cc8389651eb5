import Mathlib.Data.Rat.Defs
import Mathlib.Algebra.Order.Field.Rat
import Mathlib.Algebra.Order.Group.Abs
import Mathlib.Algebra.BigOperators.Group.List.Basic

/-! # Errors of a regression, for pairs (truth, prediction) -/
namespace OptBinning.Spec

/-- Absolute error in units of the truth. -/
def relErr (p : ℚ × ℚ) : ℚ := |p.1 - p.2| / |p.1|

/-- Signed error in units of the truth. -/
def signedErr (p : ℚ × ℚ) : ℚ := (p.1 - p.2) / p.1

/-- Absolute error in units of the sum of the magnitudes. -/
def symErr (p : ℚ × ℚ) : ℚ := |p.1 - p.2| / (|p.1| + |p.2|)

def average (l : List ℚ) : ℚ := l.sum / (l.length : ℕ)

/-- `m` is the median of the values in `l` together with `k` values larger than all of them: the middle one in increasing
order, or the average of the two middle ones. -/
def IsMedian (k : ℕ) (m : ℚ) (l : List ℚ) : Prop :=
  ∃ s : List ℚ, s.Perm l ∧ s.Pairwise (· ≤ ·) ∧
    ((∃ j, s.length + k = 2 * j + 1 ∧ s[j]? = some m) ∨
     ∃ j a b, s.length + k = 2 * j + 2 ∧ s[j]? = some a ∧ s[j + 1]? = some b ∧ m = (a + b) / 2)

end OptBinning.Spec
