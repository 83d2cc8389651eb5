import Verif.Model.AutoMonotonic
import Mathlib.Algebra.Order.Ring.Defs

/-!
# What each value of `monotonic_trend` promises for the rows of a binning table
-/
namespace OptBinning.Spec

section
variable {R : Type*} [CommRing R] [LinearOrder R]

/-- The values `r j` with `lo ≤ j < hi` do not decrease. -/
def Rising (r : ℕ → R) (lo hi : ℕ) : Prop := ∀ j k, lo ≤ j → j < k → k < hi → r j ≤ r k

/-- The values `r j` with `lo ≤ j < hi` do not increase. -/
def Falling (r : ℕ → R) (lo hi : ℕ) : Prop := ∀ j k, lo ≤ j → j < k → k < hi → r k ≤ r j

/-- Up to some row the values rise, from this row on they fall. -/
def RisesThenFalls (m : ℕ) (r : ℕ → R) : Prop := ∃ c ≤ m, Rising r 0 c ∧ Falling r c m

/-- Up to some row the values fall, from this row on they rise. -/
def FallsThenRises (m : ℕ) (r : ℕ → R) : Prop := ∃ c ≤ m, Falling r 0 c ∧ Rising r c m

/-- The values `r 0, …, r (m - 1)` of the rows follow the requested `monotonic_trend`. -/
def RowsFollow (m : ℕ) (r : ℕ → R) : TrendArg → Prop
  | .none => True
  | .ascending => Rising r 0 m
  | .descending => Falling r 0 m
  | .concave => ∀ i j k, i < j → j < k → k < m → r i + r k ≤ 2 * r j
  | .convex => ∀ i j k, i < j → j < k → k < m → 2 * r j ≤ r i + r k
  | .peak => RisesThenFalls m r
  | .valley => FallsThenRises m r
  | .peakHeuristic => RisesThenFalls m r
  | .valleyHeuristic => FallsThenRises m r
  | .autoAscDesc => Rising r 0 m ∨ Falling r 0 m
  | .auto => RisesThenFalls m r ∨ FallsThenRises m r
  | .autoHeuristic => RisesThenFalls m r ∨ FallsThenRises m r

end

end OptBinning.Spec
