import Verif.Spec.Stream
import Verif.Spec.Categorical

/-! # Vocabulary for categorical streaming objects -/
namespace OptBinning.Spec
variable {κ : Type*} [DecidableEq κ]

/-- Number of records of class `ev` whose category is in the group `g`. -/
def groupCount (g : List κ) (ev : Bool) (recs : List (Rec κ)) : ℕ :=
  recs.countP fun r => decide (r.y = some ev ∧ ∃ c ∈ g, r.x = some c)

/-- Event rate of the records whose category is in the group `g`. -/
def groupRate (g : List κ) (recs : List (Rec κ)) : ℚ :=
  (groupCount g true recs : ℚ) / ((groupCount g false recs + groupCount g true recs : ℕ) : ℚ)

end OptBinning.Spec
