import Verif.Spec.Table

/-! # Vocabulary for the records a streaming object has received -/
namespace OptBinning.Spec
variable {α : Type*} [DecidableEq α]

instance (sc : SpecialCodes α) (x : Option α) : Decidable (IsSpecialValue sc x) := by
  unfold IsSpecialValue; cases sc <;> infer_instance

/-- The values of the records of class `ev` that are neither missing nor special, in the order in which they arrived. -/
def usedValues (sc : SpecialCodes α) (ev : Bool) (recs : List (Rec α)) : List α :=
  recs.filterMap fun r => if r.y = some ev ∧ ¬ IsSpecialValue sc r.x then r.x else none

/-- Number of records of class `ev` whose value is a special code. -/
def specialCount (sc : SpecialCodes α) (ev : Bool) (recs : List (Rec α)) : ℕ :=
  recs.countP fun r => decide (r.y = some ev ∧ IsSpecialValue sc r.x)

/-- Number of records of class `ev` without a value. -/
def missingCount (ev : Bool) (recs : List (Rec α)) : ℕ := recs.countP fun r => decide (r.y = some ev ∧ r.x = none)

/-- Number of records of class `ev`. -/
def classCount (ev : Bool) (recs : List (Rec α)) : ℕ := recs.countP fun r => decide (r.y = some ev)

/-- Number of values of `vs` that lie between the splits number `k-1` and `k`, the left one excluded and the right one included; a missing split means
no restriction. -/
def numBetween [LinearOrder α] (splits : List α) (k : ℕ) (vs : List α) : ℕ :=
  vs.countP fun v => (k == 0 || splits[k - 1]?.all fun a => decide (a < v)) && splits[k]?.all fun a => decide (v ≤ a)

end OptBinning.Spec
