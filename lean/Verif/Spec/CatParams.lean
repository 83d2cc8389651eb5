import Verif.Model.Categorical
import Verif.Spec.UserParams
import Verif.Spec.Cuts

/-!
# Specification: a categorical variable as its ranking (C118)
-/
namespace OptBinning.Spec

variable {κ : Type} [DecidableEq κ]

open Classical in
/-- The records which are binned (neither missing nor special, known target, category not in the group "others"), each with the position of its
category in `cats` (the categories by increasing event rate). -/
noncomputable def rankedRecs (sc : SpecialCodes κ) (cats others : List κ) (recs : List (Rec κ)) : List (Rec ℚ) :=
  (recs.filter fun r => decide (r.y ≠ none ∧ (∃ v, r.x = some v ∧ v ∉ others) ∧ ¬ IsSpecialValue sc r.x)).map fun r =>
    ⟨r.x.map fun v => ((cats.idxOf v : ℕ) : ℚ), r.y, r.w⟩

end OptBinning.Spec
