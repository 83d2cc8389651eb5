import Verif.Spec.CatParamsC

/-!
# Specification: groups of categories and a continuous target (C122)
-/
namespace OptBinning.Spec

/-- A category of the group `g` occurs in the training data (with a target, and not as a special code). -/
def Occurs {κ : Type} [DecidableEq κ] (sc : SpecialCodes κ) (recs : List (RecC κ)) (g : List κ) : Prop := ∃ v ∈ g, IsTrainCategoryC sc recs v

open Classical in
/-- The binned records whose category is in one of the groups `gs` (the groups by increasing mean), each with the position of its group. -/
noncomputable def groupedRecsC {κ : Type} [LinearOrder κ] (sc : SpecialCodes κ) (gs : List (List κ)) (recs : List (RecC κ)) : List (RecC ℕ) :=
  (recs.filter fun r => decide (IsBinnedC sc r ∧ ∃ v, r.x = some v ∧ ∃ g ∈ gs, v ∈ g)).map fun r =>
    ⟨r.x.map fun v => gs.findIdx fun g => decide (v ∈ g), r.y, r.w⟩

end OptBinning.Spec
