import Verif.Spec.Table

/-!
# Specification vocabulary for categorical variables
-/
namespace OptBinning.Spec

variable {κ : Type*} [DecidableEq κ]

/-- Number of records of category `c`. -/
def catCount (recs : List (Rec κ)) (c : κ) : ℕ := recs.countP fun r => decide (r.x = some c)

/-- Number of event records of category `c`. -/
def catEvents (recs : List (Rec κ)) (c : κ) : ℕ := recs.countP fun r => decide (r.x = some c ∧ r.y = some true)

/-- Event rate of category `c`. -/
def catRate (recs : List (Rec κ)) (c : κ) : ℚ := (catEvents recs c : ℚ) / catCount recs c

/-- `cats` lists every category of the records once, by increasing event rate (ties in any order). -/
structure IsRanking (recs : List (Rec κ)) (cats : List κ) : Prop where
  nodup : cats.Nodup
  mem : ∀ c, c ∈ cats ↔ ∃ r ∈ recs, r.x = some c
  sorted : cats.Pairwise fun a b => catRate recs a ≤ catRate recs b

/-- `v` is a category of the training data with known target, and not a special code. -/
def IsTrainCategory (sc : SpecialCodes κ) (recs : List (Rec κ)) (v : κ) : Prop :=
  ¬ IsSpecialValue sc (some v) ∧ ∃ r ∈ recs, r.x = some v ∧ r.y ≠ none

/-- The groups `bins` partition the values with property `p`: such a value is in exactly one group, others in none. -/
def Partitions (bins : List (List κ)) (p : κ → Prop) : Prop :=
  (∀ v, p v → ∃! k, k < bins.length ∧ v ∈ bins.getD k []) ∧ (∀ v, ¬ p v → ∀ b ∈ bins, v ∉ b)

end OptBinning.Spec

namespace OptBinning.Spec

variable {κ : Type*}

/-- The group `g` has (non-special, weighted) training records of both classes. -/
def MixedGroup (sc : SpecialCodes κ) (recs : List (Rec κ)) (g : List κ) : Prop :=
  ∀ event : Bool, ∃ r ∈ recs, ∃ v ∈ g, r.x = some v ∧ ¬ IsSpecialValue sc (some v) ∧ r.y = some event ∧ r.w ≠ 0

end OptBinning.Spec
