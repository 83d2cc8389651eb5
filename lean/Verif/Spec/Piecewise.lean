import Verif.Spec.Table
import Verif.Spec.Continuous
import Mathlib.Algebra.Order.Field.Basic
import Mathlib.Algebra.BigOperators.Group.Finset.Basic
import Mathlib.Analysis.SpecialFunctions.Log.Basic

/-! # Specification vocabulary for piecewise polynomial binning -/
namespace OptBinning.Spec

variable {F : Type*} [Field F] [LinearOrder F]

/-- `c[0] + c[1] v + c[2] v^2 + …`. -/
def polyAt (c : List F) (v : F) : F := ∑ j ∈ Finset.range c.length, c.getD j 0 * v ^ j

/-- Piece number `k`: the polynomial with the coefficients in row `k`. -/
def pieces (coef : List (List F)) (k : ℕ) (v : F) : F := polyAt (coef.getD k []) v

/-- The number respects the given bounds. -/
def WithinBounds (lb ub : Option F) (r : F) : Prop := (∀ l, lb = some l → l ≤ r) ∧ (∀ u, ub = some u → r ≤ u)

/-- `r` is the number within the bounds which is nearest to `v`. -/
def IsClamp (lb ub : Option F) (v r : F) : Prop := WithinBounds lb ub r ∧ ∀ q, WithinBounds lb ub q → |v - r| ≤ |v - q|

/-- The bounds leave room. -/
def BoundsOk (lb ub : Option F) : Prop := ∀ l u, lb = some l → ub = some u → l ≤ u

/-- The value lies in interval `k` of the split points `s` or is one of its ends. -/
def InClosed (s : List F) (k : ℕ) (v : F) : Prop :=
  (∀ a, 0 < k → s[k - 1]? = some a → a ≤ v) ∧ (∀ a, s[k]? = some a → v ≤ a)

/-- The pieces `P 0`, `P 1`, … increase on their intervals and do not jump down at a split point. -/
def AscendingPieces (s : List F) (P : ℕ → F → F) : Prop :=
  (∀ k ≤ s.length, ∀ v w, InClosed s k v → InClosed s k w → v ≤ w → P k v ≤ P k w) ∧
  ∀ (k : ℕ) a, s[k]? = some a → P k a ≤ P (k + 1) a

/-- The pieces decrease on their intervals and do not jump up at a split point. -/
def DescendingPieces (s : List F) (P : ℕ → F → F) : Prop :=
  (∀ k ≤ s.length, ∀ v w, InClosed s k v → InClosed s k w → v ≤ w → P k w ≤ P k v) ∧
  ∀ (k : ℕ) a, s[k]? = some a → P (k + 1) a ≤ P k a

/-- Neighbouring pieces agree at their common split point. -/
def PiecesAgree (s : List F) (P : ℕ → F → F) : Prop := ∀ (k : ℕ) a, s[k]? = some a → P k a = P (k + 1) a

/-- The value belongs to group number `j` of the special codes (a list of codes is one group). -/
def InGroup {α : Type*} (sc : SpecialCodes α) (j : ℕ) (x : Option α) : Prop :=
  match sc with
  | .none => False
  | .list l => j = 0 ∧ x ∈ l
  | .dict gs => ∃ g, gs[j]? = some g ∧ x ∈ g.2

/-- Number of groups of special codes, one if there are none or a list. -/
def nGroups {α : Type*} : SpecialCodes α → ℕ
  | .dict gs => gs.length
  | _ => 1

/-- The value belongs to row `k` of a table: the intervals of the split points, then the groups of special codes, then the
missing values. -/
def InRow {α : Type*} [LT α] [LE α] (s : List α) (sc : SpecialCodes α) (k : ℕ) (x : Option α) : Prop :=
  (∃ v, x = some v ∧ ¬ IsSpecialValue sc x ∧ InInterval s k v) ∨
  (∃ j, k = s.length + 1 + j ∧ InGroup sc j x) ∨
  (k = s.length + 1 + nGroups sc ∧ x = none)

open Classical in
/-- Number of records of class `y` with property `p` of the value. -/
noncomputable def countClass {α : Type*} (recs : List (Rec α)) (y : Bool) (p : Option α → Prop) : ℕ :=
  recs.countP fun r => decide (r.y = some y ∧ p r.x)

/-- Share of the events among `e` events and `n` non-events. -/
def classRate (e n : ℕ) : F := ((e : ℕ) : F) / (((e : ℕ) : F) + ((n : ℕ) : F))

/-- Weight of evidence of a bin with event rate `r`: the logarithm of the odds of a non-event in the bin relative to the odds in
the sample (`E` events, `N` non-events). -/
noncomputable def woeOfRate (N E : ℕ) (r : ℝ) : ℝ := Real.log (((1 - r) / r) / ((N : ℝ) / (E : ℝ)))

open Classical in
/-- The known targets of the records whose value has property `p`, in the order of the records. -/
noncomputable def targetsIn {α : Type*} (recs : List (RecC α)) (p : Option α → Prop) : List ℚ :=
  targetsOf recs fun r => p r.x

end OptBinning.Spec
