import Mathlib.Data.List.Sort
import Mathlib.Algebra.Order.Field.Rat
import Mathlib.Data.Rat.Defs
import Mathlib.Data.List.Basic

/-!
# Model of `gini` of `metrics/classification.py`, with scikit-learn's `roc_curve` and `auc`
-/
namespace OptBinning

variable {α : Type*} [LinearOrder α]

/-- `roc_curve`: the records in the order of decreasing score (order of equal scores immaterial). -/
def byScore (r : List (α × Bool)) : List (α × Bool) := r.insertionSort fun a b => b.1 ≤ a.1

/-- `roc_curve`: cumulative numbers of non-events and events (`fps`, `tps`) at the last record of every distinct score;
`f`, `t` are the numbers before the given records. -/
def rocCounts (f t : ℕ) : List (α × Bool) → List (ℕ × ℕ)
  | [] => []
  | x :: xs =>
    let f' := if x.2 then f else f + 1
    let t' := if x.2 then t + 1 else t
    if xs.head?.map Prod.fst = some x.1 then rocCounts f' t' xs else (f', t') :: rocCounts f' t' xs

/-- `roc_curve(drop_intermediate=True)`: `b` (between `a` and the next point) is dropped if both second differences vanish. -/
def keepCorners (a b : ℚ × ℚ) : List (ℚ × ℚ) → List (ℚ × ℚ)
  | [] => [b]
  | c :: t => if c.1 - 2 * b.1 + a.1 = 0 ∧ c.2 - 2 * b.2 + a.2 = 0 then keepCorners b c t else b :: keepCorners b c t

def dropIntermediate : List (ℚ × ℚ) → List (ℚ × ℚ)
  | a :: b :: t => a :: keepCorners a b t
  | l => l

/-- `auc`: the trapezoidal rule. -/
def trapezoids : List (ℚ × ℚ) → ℚ
  | a :: b :: t => (b.1 - a.1) * (a.2 + b.2) / 2 + trapezoids (b :: t)
  | _ => 0

/-- `roc_curve`: the points (`fpr`, `tpr`). -/
def rocCurve (r : List (α × Bool)) : List (ℚ × ℚ) :=
  let pts := dropIntermediate ((rocCounts 0 0 (byScore r)).map fun q => ((q.1 : ℚ), (q.2 : ℚ)))
  let nf : ℚ := ((r.countP fun x => !x.2 : ℕ) : ℚ)
  let nt : ℚ := ((r.countP fun x => x.2 : ℕ) : ℚ)
  ((0, 0) :: pts).map fun q => (q.1 / nf, q.2 / nt)

/-- `gini` (classification.py:15-31) for records (score, is event); `none` (NaN) if a class is missing. -/
def giniScore (r : List (α × Bool)) : Option ℚ :=
  if r.countP (fun x => x.2) = 0 ∨ r.countP (fun x => !x.2) = 0 then none else some (2 * trapezoids (rocCurve r) - 1)

end OptBinning
