import Mathlib.Algebra.Order.Field.Rat
import Mathlib.Data.List.Basic

/-! # Specification: outlier flags -/
namespace OptBinning.Spec

/-- The flags of `x` are those of values outside the closed interval `[lo, hi]`. -/
def FlagsOutside (x : List ℚ) (flags : List Bool) (lo hi : ℚ) : Prop :=
  flags = x.map fun v => decide (v < lo ∨ hi < v)

/-- Number of records that are not flagged. -/
def kept (flags : List Bool) : ℕ := flags.count false

end OptBinning.Spec
