import Mathlib.Data.List.Basic
import Mathlib.Order.Basic
import Mathlib.Algebra.Order.Group.Unbundled.Int

/-! # Specification: ranks in a stream of values -/
namespace OptBinning.Spec
variable {α : Type*} [LinearOrder α]

/-- Number of values of the stream below `v`. -/
def numLt (S : List α) (v : α) : ℕ := S.countP fun s => decide (s < v)

/-- Number of values of the stream at most `v`. -/
def numLe (S : List α) (v : α) : ℕ := S.countP fun s => decide (s ≤ v)

/-- `v` is a value of the stream `S`, and one of the positions (1-based) it occupies in the sorted stream differs from `rank` by
at most `err`. -/
def HasRankWithin (S : List α) (v : α) (rank err : ℤ) : Prop :=
  v ∈ S ∧ ∃ r : ℤ, (numLt S v : ℤ) < r ∧ r ≤ (numLe S v : ℤ) ∧ r - rank ≤ err ∧ rank - r ≤ err

/-- `m` is the least value of the stream. -/
def IsMinOf (S : List α) (m : α) : Prop := m ∈ S ∧ ∀ s ∈ S, m ≤ s

/-- `m` is the greatest value of the stream. -/
def IsMaxOf (S : List α) (m : α) : Prop := m ∈ S ∧ ∀ s ∈ S, s ≤ m

end OptBinning.Spec
