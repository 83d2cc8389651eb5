import Mathlib.Data.Rat.Defs
import Mathlib.Algebra.Order.Ring.Rat
import Mathlib.Data.List.Basic

/-! # Specification: shapes of a sequence of numbers -/
namespace OptBinning.Spec

def NonDecreasing (x : List ℚ) : Prop := x.Pairwise (· ≤ ·)
def NonIncreasing (x : List ℚ) : Prop := x.Pairwise (· ≥ ·)
def StrictlyIncreasing (x : List ℚ) : Prop := x.Pairwise (· < ·)
def StrictlyDecreasing (x : List ℚ) : Prop := x.Pairwise (· > ·)

/-- First up, then down: non-decreasing up to some position, non-increasing from it. -/
def PeakShaped (x : List ℚ) : Prop := ∃ t, NonDecreasing (x.take (t + 1)) ∧ NonIncreasing (x.drop t)
/-- First down, then up. -/
def ValleyShaped (x : List ℚ) : Prop := ∃ t, NonIncreasing (x.take (t + 1)) ∧ NonDecreasing (x.drop t)

/-- Every inner entry lies on or above the chord of its neighbours. -/
def Concave (x : List ℚ) : Prop := ∀ i a b c, x[i]? = some a → x[i + 1]? = some b → x[i + 2]? = some c → a + c ≤ 2 * b
def Convex (x : List ℚ) : Prop := ∀ i a b c, x[i]? = some a → x[i + 1]? = some b → x[i + 2]? = some c → 2 * b ≤ a + c

end OptBinning.Spec
