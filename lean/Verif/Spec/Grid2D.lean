import Mathlib.Algebra.BigOperators.Intervals
import Mathlib.Algebra.BigOperators.Ring.Finset
import Mathlib.Algebra.Order.Ring.Rat
import Mathlib.Order.WithBot
import Mathlib.Data.Finset.Max

/-!
# Specification vocabulary for two-dimensional binning

The grid of pre-bins has `m` rows (variable `y`) and `n` columns (variable `x`).  A bin of the result is a rectangular
block of cells.
-/
namespace OptBinning.Spec

/-- The cells with row in `[top, bottom)` and column in `[left, right)`. -/
structure Block where
  top : ℕ
  bottom : ℕ
  left : ℕ
  right : ℕ
deriving DecidableEq

/-- The cell (row `r`, column `c`) belongs to the block. -/
def Block.Mem (b : Block) (r c : ℕ) : Prop := b.top ≤ r ∧ r < b.bottom ∧ b.left ≤ c ∧ c < b.right

/-- Total of a quantity given per cell. -/
def Block.total {R : Type*} [AddCommMonoid R] (b : Block) (f : ℕ → ℕ → R) : R :=
  ∑ r ∈ Finset.Ico b.top b.bottom, ∑ c ∈ Finset.Ico b.left b.right, f r c

/-- A non-empty block inside the grid. -/
def Block.Inside (b : Block) (m n : ℕ) : Prop := b.top < b.bottom ∧ b.bottom ≤ m ∧ b.left < b.right ∧ b.right ≤ n

/-- `b` begins in direction `x` where `a` ends, and they share a row. -/
def NextInX (a b : Block) : Prop := a.right = b.left ∧ ∃ r, a.top ≤ r ∧ r < a.bottom ∧ b.top ≤ r ∧ r < b.bottom

/-- `b` begins in direction `y` where `a` ends, and they share a column. -/
def NextInY (a b : Block) : Prop := a.bottom = b.top ∧ ∃ c, a.left ≤ c ∧ c < a.right ∧ b.left ≤ c ∧ c < b.right

/-- The blocks are inside the grid, and every cell of the grid lies in exactly one of them. -/
def IsTiling (m n : ℕ) (T : Finset Block) : Prop :=
  (∀ b ∈ T, b.Inside m n) ∧ ∀ r < m, ∀ c < n, ∃! b, b ∈ T ∧ b.Mem r c

end OptBinning.Spec

namespace OptBinning

/-- `monotonic_trend_x`, `monotonic_trend_y`. -/
inductive Trend2D | ascending | descending
deriving DecidableEq

/-- The options of `OptimalBinning2D` which restrict the result. Sizes are absolute numbers of records here. -/
structure Opts2D where
  minBins : Option ℤ := none
  maxBins : Option ℤ := none
  minSize : Option ℤ := none
  maxSize : Option ℤ := none
  minEvent : Option ℤ := none
  maxEvent : Option ℤ := none
  minNonevent : Option ℤ := none
  maxNonevent : Option ℤ := none
  trendX : Option Trend2D := none
  trendY : Option Trend2D := none
  minDiffX : ℚ := 0
  minDiffY : ℚ := 0

end OptBinning

namespace OptBinning.Spec

/-- The requested trend with the requested minimum difference between a block and the next one. -/
def StepOK (t : Option Trend2D) (diff a b : ℚ) : Prop :=
  match t with
  | none => True
  | some .ascending => a + diff < b
  | some .descending => b + diff < a

/-- A number respects an optional lower and an optional upper limit. -/
def Within (lo hi : Option ℤ) (v : ℤ) : Prop := (∀ b, lo = some b → b ≤ v) ∧ (∀ b, hi = some b → v ≤ b)

/-- Neighbouring blocks follow the requested trends of the quantity `rate`. -/
def TrendsHold (o : Opts2D) (T : Finset Block) (rate : Block → ℚ) : Prop :=
  (∀ a ∈ T, ∀ b ∈ T, NextInX a b → StepOK o.trendX o.minDiffX (rate a) (rate b)) ∧
  (∀ a ∈ T, ∀ b ∈ T, NextInY a b → StepOK o.trendY o.minDiffY (rate a) (rate b))

/-- Event rate of a block. -/
def blockRate (nonevent event : ℕ → ℕ → ℕ) (b : Block) : ℚ :=
  ((b.total event : ℕ) : ℚ) / ((b.total event + b.total nonevent : ℕ) : ℚ)

/-- What the options ask of a two-dimensional binning for a binary target; `nonevent`, `event` are the numbers of records
per cell.  A bin has both target classes. -/
structure Admissible2D (o : Opts2D) (m n : ℕ) (nonevent event : ℕ → ℕ → ℕ) (T : Finset Block) : Prop where
  tiling : IsTiling m n T
  mixed : ∀ b ∈ T, 0 < b.total event ∧ 0 < b.total nonevent
  size : ∀ b ∈ T, Within o.minSize o.maxSize ((b.total event + b.total nonevent : ℕ) : ℤ)
  events : ∀ b ∈ T, Within o.minEvent o.maxEvent ((b.total event : ℕ) : ℤ)
  nonevents : ∀ b ∈ T, Within o.minNonevent o.maxNonevent ((b.total nonevent : ℕ) : ℤ)
  number : Within o.minBins o.maxBins (T.card : ℤ)
  trends : TrendsHold o T (blockRate nonevent event)

/-- The same for a continuous target: `records` and `sums` of the target per cell; the trend is that of the mean. -/
def blockMean (records : ℕ → ℕ → ℕ) (sums : ℕ → ℕ → ℚ) (b : Block) : ℚ := b.total sums / ((b.total records : ℕ) : ℚ)

structure AdmissibleMean2D (o : Opts2D) (m n : ℕ) (records : ℕ → ℕ → ℕ) (sums : ℕ → ℕ → ℚ) (T : Finset Block) : Prop where
  tiling : IsTiling m n T
  nonempty : ∀ b ∈ T, 0 < b.total records
  size : ∀ b ∈ T, Within o.minSize o.maxSize ((b.total records : ℕ) : ℤ)
  number : Within o.minBins o.maxBins (T.card : ℤ)
  trends : TrendsHold o T (blockMean records sums)

/-- Fraction of the records (events, non-events) of the whole grid which lies in the block. -/
def share (m n : ℕ) (f : ℕ → ℕ → ℕ) (b : Block) : ℚ :=
  ((b.total f : ℕ) : ℚ) / ((∑ r ∈ Finset.range m, ∑ c ∈ Finset.range n, f r c : ℕ) : ℚ)

/-- `s` is the difference between the sizes of the largest and of the smallest bin. -/
def IsSpread (size : Block → ℕ) (T : Finset Block) (s : ℕ) : Prop :=
  ∃ a ∈ T, ∃ b ∈ T, (∀ t ∈ T, size b ≤ size t ∧ size t ≤ size a) ∧ size b + s = size a

end OptBinning.Spec
