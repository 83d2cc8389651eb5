import Mathlib.Data.Rat.Floor
import Mathlib.Order.Defs.LinearOrder

/-!
# Specification vocabulary for training data, tables and numerical bins
-/
namespace OptBinning

/-- One training record: value (`none` = NaN/None), binary target (`some false` = 0, `some true` = any other number,
`none` = NaN) and sample weight (`_check_sample_weight`, preprocessing.py:179: all ones if not given). -/
structure Rec (α : Type*) where
  x : Option α
  y : Option Bool
  w : ℚ := 1
deriving DecidableEq

/-- The argument `special_codes`: `None`, a list, or a dict of named groups (a scalar dict value is a one-element group,
preprocessing.py:195-199).  A code may itself be NaN (`none`). -/
inductive SpecialCodes (α : Type*)
  | none
  | list (codes : List (Option α))
  | dict (groups : List (String × List (Option α)))


end OptBinning

namespace OptBinning.Spec

variable {α : Type*}

/-- The value `x` is one of the special codes. -/
def IsSpecialValue (sc : SpecialCodes α) (x : Option α) : Prop :=
  match sc with
  | .none => False
  | .list l => x ∈ l
  | .dict gs => ∃ g ∈ gs, x ∈ g.2

/-- Sensible special codes: NaN is not a code, and no code belongs to two groups. -/
def ProperCodes (sc : SpecialCodes α) : Prop :=
  ¬ IsSpecialValue sc none ∧
  match sc with
  | .dict gs => gs.Pairwise fun a b => ∀ c, ¬ (c ∈ a.2 ∧ c ∈ b.2)
  | _ => True

/-- Total weight of the records with property `p`. -/
def weight (recs : List (Rec α)) (p : Rec α → Prop) [DecidablePred p] : ℚ :=
  ((recs.filter fun r => decide (p r)).map fun r => r.w).sum

/-- The half-open interval number `k` of the increasing split points `s`: `s[k-1] ≤ v < s[k]`, where a missing end means
no restriction. -/
def InInterval [LT α] [LE α] (s : List α) (k : ℕ) (v : α) : Prop :=
  k ≤ s.length ∧ (∀ a, 0 < k → s[k - 1]? = some a → a ≤ v) ∧ (∀ a, s[k]? = some a → v < a)

/-- Weights that are whole numbers (in particular the default weights 1). -/
def WholeWeights (recs : List (Rec α)) : Prop := ∀ r ∈ recs, ∃ n : ℕ, r.w = n

/-- All targets are known. -/
def KnownTargets (recs : List (Rec α)) : Prop := ∀ r ∈ recs, r.y ≠ none

end OptBinning.Spec
