import Mathlib.Order.WithBot
import Mathlib.Algebra.Order.Ring.Rat

/-!
# Specification vocabulary for the data and the bins of two-dimensional binning
-/
namespace OptBinning

/-- The non-NaN floating point numbers: rationals, `-inf = ⊥`, `inf = ⊤`. -/
abbrev EQ := WithBot (WithTop ℚ)

/-- A finite number. -/
def fin (q : ℚ) : EQ := ((q : WithTop ℚ) : WithBot (WithTop ℚ))

/-- One record: the two variables and the target (`none` = NaN/None). -/
structure Rec2 (α β τ : Type*) where
  x : Option α
  y : Option β
  z : Option τ
deriving DecidableEq

/-- How the values of a variable are placed on a line: numbers by their value, categories by their rank in the list of
training categories. -/
inductive Axis (α : Type*)
  | numerical (val : α → EQ)
  | categorical (cats : List α)

/-- A bin: the product of two half-open intervals. -/
structure Box2 where
  xlo : EQ
  xhi : EQ
  ylo : EQ
  yhi : EQ
deriving DecidableEq

end OptBinning

namespace OptBinning.Spec

/-- The value lies in the half-open interval; for a category, its rank does. -/
def OnRange {α : Type*} (ax : Axis α) (lo hi : EQ) (v : α) : Prop :=
  match ax with
  | .numerical val => lo ≤ val v ∧ val v < hi
  | .categorical cats => ∃ k : ℕ, cats[k]? = some v ∧ lo ≤ fin k ∧ fin k < hi

/-- The pair of values lies in the bin. -/
def InBox {α β : Type*} (ax : Axis α) (ay : Axis β) (b : Box2) (u : α) (v : β) : Prop :=
  OnRange ax b.xlo b.xhi u ∧ OnRange ay b.ylo b.yhi v

/-- The value can be placed: a number other than `inf`, a category of the training data. -/
def Known {α : Type*} (ax : Axis α) (v : α) : Prop :=
  match ax with
  | .numerical val => val v ≠ ⊤
  | .categorical cats => v ∈ cats

/-- Split points: increasing finite numbers. -/
def IsSplits (s : List EQ) : Prop := s.Pairwise (· < ·) ∧ ∀ v ∈ s, v ≠ ⊥ ∧ v ≠ ⊤

/-- The list of categories has no repetitions. -/
def IsAxis {α : Type*} (ax : Axis α) : Prop :=
  match ax with
  | .numerical _ => True
  | .categorical cats => cats.Nodup

/-- The value is one of the special codes (if any are given). -/
def IsCode {α : Type*} (sc : Option (List (Option α))) (x : Option α) : Prop := ∃ l, sc = some l ∧ x ∈ l

end OptBinning.Spec
