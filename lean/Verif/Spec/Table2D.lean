import Verif.Spec.Labels
import Verif.Model.Params2D
import Verif.Model.Table2D

/-!
# Vocabulary for the two-dimensional binning table (C111)
-/
namespace OptBinning.Spec

variable {α β τ : Type} [DecidableEq α] [DecidableEq β]

/-- The record is clean (nothing missing, no special code) and its pair of values lies in bin `i`. -/
def InBinOf (e : Ext2D α β τ) (ax : Axis α) (ay : Axis β) (boxes : List Box2) (i : ℕ) (r : Rec2 α β τ) : Prop :=
  ∃ u v, ∃ hi : i < boxes.length, r.x = some u ∧ r.y = some v ∧ r.z ≠ none ∧ ¬ IsCode e.scx r.x ∧ ¬ IsCode e.scy r.y ∧
    InBox ax ay boxes[i] u v

open Classical in
/-- Number of records of bin `i` with the given target. -/
noncomputable def binCount (e : Ext2D α β Bool) (f : Fitted2D α β) (i : ℕ) (event : Bool) : ℕ :=
  e.recs.countP fun r => decide (InBinOf e f.axisX f.axisY f.boxes i r ∧ r.z = some event)

open Classical in
/-- Number of special records with a target 0 (`event = false`), with another target. -/
noncomputable def specialCount2D (e : Ext2D α β Bool) (event : Bool) : ℕ :=
  e.recs.countP fun r => decide ((IsCode e.scx r.x ∨ IsCode e.scy r.y) ∧ (r.z ≠ some false ↔ event = true))

open Classical in
/-- The same for the records with a missing value or target. -/
noncomputable def missingCount2D (e : Ext2D α β Bool) (event : Bool) : ℕ :=
  e.recs.countP fun r => decide ((r.x = none ∨ r.y = none ∨ r.z = none) ∧ (r.z ≠ some false ↔ event = true))

/-- The label tells the range of a bin on one axis: of a numerical variable the bounds, "inf" for an infinite one, "[" before a finite
lower bound, up to half a unit of the last decimal shown; of a categorical variable the categories of the bin. -/
def Tells (ax : Axis α) (d : ℕ) (L : Label2 α) (lo hi : EQ) : Prop :=
  match ax, L with
  | .numerical _, .text t => ∃ a b : Option ℚ, Says t a b ∧ (a = none ↔ lo = ⊥) ∧ (b = none ↔ hi = ⊤) ∧
      (∀ q, a = some q → ∃ s, lo = fin s ∧ Shown d q s) ∧ ∀ q, b = some q → ∃ s, hi = fin s ∧ Shown d q s
  | .categorical cats, .categories l => ∀ c, c ∈ l ↔ OnRange (.categorical cats) lo hi c
  | _, _ => False

end OptBinning.Spec
