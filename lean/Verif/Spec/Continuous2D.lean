import Verif.Spec.Grid2D
import Verif.Spec.Bins2D
import Verif.Spec.Continuous

/-!
# Specification vocabulary for the table of a two-dimensional binning of a continuous target
-/
namespace OptBinning.Spec

open Classical in
/-- The known targets of the records which satisfy `q`, in order. -/
noncomputable def knownTargets {α β : Type} (recs : List (Rec2 α β ℚ)) (q : Rec2 α β ℚ → Prop) : List ℚ :=
  (recs.filter fun r => decide (q r)).filterMap fun r => r.z

/-- One of the values or the target is missing. -/
def RecMissing {α β τ : Type} (r : Rec2 α β τ) : Prop := r.x = none ∨ r.y = none ∨ r.z = none

/-- One of the values is a special code. -/
def RecSpecial {α β τ : Type} (scx : Option (List (Option α))) (scy : Option (List (Option β))) (r : Rec2 α β τ) : Prop :=
  IsCode scx r.x ∨ IsCode scy r.y

/-- The record is neither missing nor special and its pair of values lies in the box. -/
def RecInBox {α β τ : Type} (scx : Option (List (Option α))) (scy : Option (List (Option β))) (ax : Axis α) (ay : Axis β)
    (b : Box2) (r : Rec2 α β τ) : Prop :=
  ¬ RecMissing r ∧ ¬ RecSpecial scx scy r ∧ ∃ u v, r.x = some u ∧ r.y = some v ∧ InBox ax ay b u v

/-- `cnt`, `sum`, `var` are the number, the sum and the population variance of the numbers `ys`. -/
def Describes (ys : List ℚ) (cnt : ℕ) (sum var : Option ℚ) : Prop :=
  cnt = ys.length ∧ sum = some ys.sum ∧ (ys ≠ [] → var = some (variance ys))

end OptBinning.Spec
