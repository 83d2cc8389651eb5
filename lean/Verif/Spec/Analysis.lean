import Mathlib.Algebra.BigOperators.Group.Finset.Basic
import Mathlib.Algebra.Order.Field.Rat

/-!
# Specification of significance tests
-/
namespace OptBinning.Spec
open Finset

/-- Total of row `i` of a contingency table with `k` columns. -/
def tableRow (k : ℕ) (o : ℕ → ℕ → ℕ) (i : ℕ) : ℕ := ∑ j ∈ range k, o i j
/-- Total of column `j` of a contingency table with `m` rows. -/
def tableCol (m : ℕ) (o : ℕ → ℕ → ℕ) (j : ℕ) : ℕ := ∑ i ∈ range m, o i j
/-- Number of records of a contingency table. -/
def tableAll (m k : ℕ) (o : ℕ → ℕ → ℕ) : ℕ := ∑ i ∈ range m, ∑ j ∈ range k, o i j

/-- Independence: every cell is the product of the margins. -/
def Independent (m k : ℕ) (o : ℕ → ℕ → ℕ) : Prop :=
  ∀ i < m, ∀ j < k, o i j * tableAll m k o = tableRow k o i * tableCol m o j

/-- Rate of events among `e` events and `ne` non-events. -/
def rateOf (e ne : ℕ) : ℚ := (e : ℚ) / ((e : ℚ) + (ne : ℚ))

/-- The square of the z statistic of the two-sample test of equal proportions. -/
def zSquared (e₁ ne₁ e₂ ne₂ : ℕ) : ℚ :=
  let p := rateOf (e₁ + e₂) (ne₁ + ne₂)
  (rateOf e₁ ne₁ - rateOf e₂ ne₂) ^ 2 / (p * (1 - p) * (1 / ((e₁ : ℚ) + (ne₁ : ℚ)) + 1 / ((e₂ : ℚ) + (ne₂ : ℚ))))

/-- A binary table: the regular rows `ne i`, `e i` for `i < m`, followed by the rows of the other categories (if any), the
special codes and the missing values. -/
structure TableB (nonevent event : List ℕ) (nSpecials : ℕ) (others : Bool) (ne e : List ℕ) : Prop where
  nonempty : ne ≠ []
  same : e.length = ne.length
  nonevent : ∃ t : List ℕ, nonevent = ne ++ t ∧ t.length = (if others then 1 else 0) + nSpecials + 1
  event : ∃ t : List ℕ, event = e ++ t

/-- A multiclass table: one column per class, each with `m` regular rows followed by the special rows and the missing row. -/
structure TableM (cols : List (List ℕ)) (nSpecials m : ℕ) : Prop where
  nonempty : cols ≠ []
  pos : 0 < m
  column : ∀ c ∈ cols, c.length = m + nSpecials + 1

/-- Records of class `j` in row `i`. -/
def binClass (cols : List (List ℕ)) (i j : ℕ) : ℕ := (cols.getD j []).getD i 0

/-- Records of the regular row `i`. -/
def binSizeM (cols : List (List ℕ)) (i : ℕ) : ℕ := ∑ j ∈ range cols.length, binClass cols i j

/-- Two-sample homogeneity statistic of rows `i` and `i'`: the sum over the classes of the squared differences of the class
shares, weighted by `n n' / (records of the class in the two rows)`. -/
def homogeneity (cols : List (List ℕ)) (i i' : ℕ) : ℚ :=
  ∑ j ∈ range cols.length, (binSizeM cols i : ℚ) * (binSizeM cols i' : ℚ) / ((binClass cols i j : ℚ) + (binClass cols i' j : ℚ)) *
    ((binClass cols i j : ℚ) / (binSizeM cols i : ℚ) - (binClass cols i' j : ℚ) / (binSizeM cols i' : ℚ)) ^ 2

end OptBinning.Spec
