import Verif.Spec.Table
import Verif.Spec.Admissible
import Mathlib.Algebra.BigOperators.Group.List.Basic
import Mathlib.Analysis.SpecialFunctions.Log.Basic

/-!
# Specification vocabulary for a multiclass target (`MulticlassOptimalBinning`)
-/
namespace OptBinning

/-- One training record of `MulticlassOptimalBinning.fit`: value (`none` = NaN/None) and class label (`none` = NaN/None). -/
structure RecM (α κ : Type*) where
  x : Option α
  y : Option κ
deriving DecidableEq

end OptBinning

namespace OptBinning.Spec

variable {α κ : Type*}

/-- Number of records with property `p`. -/
def countRecs (recs : List (RecM α κ)) (p : RecM α κ → Prop) [DecidablePred p] : ℕ := recs.countP fun r => decide (p r)

/-- `cs` lists each label of a record with property `p` exactly once, in increasing order. -/
def LabelsOf [LT κ] (recs : List (RecM α κ)) (p : RecM α κ → Prop) (cs : List κ) : Prop :=
  cs.Pairwise (· < ·) ∧ ∀ k, k ∈ cs ↔ ∃ r ∈ recs, p r ∧ r.y = some k

/-- Weight of evidence of a group with `a` records of a class and `b` others, out of `A` and `B` in total: the logarithm of
the share of the others in the group over the share of the class in the group. -/
noncomputable def oneVsRest (a b A B : ℕ) : ℝ := Real.log (((b : ℝ) / B) / ((a : ℝ) / A))

/-- One-versus-rest WoE of class `cl` in a bin, over the records whose label is one of `cs`; 0 if the bin contains no record
of the class or only records of the class. -/
noncomputable def classWoe [DecidableEq κ] (recs : List (RecM α κ)) (cs : List κ) (inBin : Option α → Prop)
    [DecidablePred inBin] (cl : κ) : ℝ :=
  let a := countRecs recs fun r => r.y = some cl ∧ inBin r.x
  let b := countRecs recs fun r => (∃ k ∈ cs, r.y = some k ∧ k ≠ cl) ∧ inBin r.x
  let A := countRecs recs fun r => r.y = some cl
  let B := countRecs recs fun r => ∃ k ∈ cs, r.y = some k ∧ k ≠ cl
  if a = 0 ∨ b = 0 then 0 else oneVsRest a b A B

/-- The values `rate 0, …, rate m` follow a trend "ascending", "descending", "peak" (first non-decreasing, then
non-increasing) or "valley" (nothing is demanded for other trends). -/
def RowsTrend {R : Type*} [LE R] (rate : ℕ → R) (m : ℕ) : Trend → Prop
  | .ascending => ∀ k k', k < k' → k' ≤ m → rate k ≤ rate k'
  | .descending => ∀ k k', k < k' → k' ≤ m → rate k' ≤ rate k
  | .peak => ∃ t, (∀ k k', k < k' → k' ≤ m → k' < t → rate k ≤ rate k') ∧
      ∀ k k', k < k' → k' ≤ m → t ≤ k → rate k' ≤ rate k
  | .valley => ∃ t, (∀ k k', k < k' → k' ≤ m → k' < t → rate k' ≤ rate k) ∧
      ∀ k k', k < k' → k' ≤ m → t ≤ k → rate k ≤ rate k'
  | _ => True

end OptBinning.Spec
