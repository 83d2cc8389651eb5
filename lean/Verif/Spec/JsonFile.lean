import Verif.Model.JsonFile

/-!
# Specification: what JSON can store, values up to their Python or numpy type (C115)
-/
namespace OptBinning.Spec

/-- Values which the standard JSON encoder can write: Python values, and `numpy.float64`, but no numpy integers and no arrays. -/
inductive JsonReady : PyVal → Prop
  | none : JsonReady .none
  | bool (b) : JsonReady (.bool b)
  | int (n) : JsonReady (.int n)
  | float (v) : JsonReady (.float v)
  | str (s) : JsonReady (.str s)
  | npFloat (v) : JsonReady (.npFloat v)
  | list (l) (h : ∀ v ∈ l, JsonReady v) : JsonReady (.list l)
  | dict (l) (h : ∀ a ∈ l, JsonReady a.2) : JsonReady (.dict l)

mutual
/-- The value without the distinction of Python and numpy numbers, and of lists and arrays. -/
def erase : PyVal → PyVal
  | .npInt n => .int n
  | .npFloat v => .float v
  | .ndarray l => .list (eraseList l)
  | .list l => .list (eraseList l)
  | .dict l => .dict (eraseDict l)
  | v => v
/-- Entry by entry. -/
def eraseList : List PyVal → List PyVal
  | [] => []
  | v :: l => erase v :: eraseList l
/-- Entry by entry. -/
def eraseDict : List (String × PyVal) → List (String × PyVal)
  | [] => []
  | (k, v) :: l => (k, erase v) :: eraseDict l
end

/-- The same attributes with the same values, in the same order. -/
def SameAttrs (s t : Attrs) : Prop := s.map (fun a => (a.1, erase a.2)) = t.map (fun a => (a.1, erase a.2))

/-- Lists of lists have equal lengths (matrices). -/
def Rectangular (t : Attrs) : Prop := ∀ a ∈ t, ∀ l, erase a.2 = .list l → ragged l = false

end OptBinning.Spec
