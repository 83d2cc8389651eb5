import Verif.Model.Continuous
import Verif.Spec.Continuous
import Verif.Spec.CutsC

/-!
# Specification: categories with a continuous target (C121)
-/
namespace OptBinning.Spec

variable {κ : Type} [DecidableEq κ]

/-- The targets of the records of category `c`. -/
def catTargets (recs : List (RecC κ)) (c : κ) : List ℚ := (recs.filter fun r => decide (r.x = some c)).filterMap RecC.y

/-- `cats` lists every category of the records once, by increasing mean of the target (ties in any order). -/
structure IsRankingC (recs : List (RecC κ)) (cats : List κ) : Prop where
  nodup : cats.Nodup
  mem : ∀ c, c ∈ cats ↔ ∃ r ∈ recs, r.x = some c
  sorted : cats.Pairwise fun a b => mean (catTargets recs a) ≤ mean (catTargets recs b)

/-- The record is binned: it has a category, which is not special, and a target. -/
def IsBinnedC (sc : SpecialCodes κ) (r : RecC κ) : Prop := r.y ≠ none ∧ r.x ≠ none ∧ ¬ IsSpecialValue sc r.x

/-- `v` is a category of the training data with known target, and not a special code. -/
def IsTrainCategoryC (sc : SpecialCodes κ) (recs : List (RecC κ)) (v : κ) : Prop := ∃ r ∈ recs, IsBinnedC sc r ∧ r.x = some v

open Classical in
/-- Number of binned records. -/
noncomputable def binnedCount (sc : SpecialCodes κ) (recs : List (RecC κ)) : ℕ := recs.countP fun r => decide (IsBinnedC sc r)

open Classical in
/-- The records which are binned and whose category is not in the group "others", each with the position of its category in `cats` (the
categories by increasing mean). -/
noncomputable def rankedRecsC (sc : SpecialCodes κ) (cats others : List κ) (recs : List (RecC κ)) : List (RecC ℚ) :=
  (recs.filter fun r => decide (IsBinnedC sc r ∧ ∀ v ∈ others, r.x ≠ some v)).map fun r => ⟨r.x.map fun v => ((cats.idxOf v : ℕ) : ℚ), r.y, r.w⟩

open Classical in
/-- The targets of the records whose category is in the group `g`. -/
noncomputable def groupTargets (sc : SpecialCodes κ) (recs : List (RecC κ)) (g : List κ) : List ℚ :=
  (recs.filter fun r => decide (IsBinnedC sc r ∧ ∃ v ∈ g, r.x = some v)).filterMap RecC.y

end OptBinning.Spec
