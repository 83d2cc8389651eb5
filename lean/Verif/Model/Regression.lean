import Verif.Model.Outlier
import Mathlib.Order.WithBot
import Mathlib.Order.Lattice

/-!
# Model of `metrics/regression.py` (exact arithmetic; division by zero as in IEEE 754, without signed zeros)
-/
namespace OptBinning

/-- A float. -/
inductive XQ
  | nan
  | ninf
  | num (q : ℚ)
  | pinf
deriving DecidableEq

/-- `np.sort` puts NaN last. -/
def XQ.key : XQ → WithBot (WithTop (WithTop ℚ))
  | .ninf => ⊥
  | .num q => (((q : WithTop ℚ) : WithTop (WithTop ℚ)) : WithBot (WithTop (WithTop ℚ)))
  | .pinf => (((⊤ : WithTop ℚ) : WithTop (WithTop ℚ)) : WithBot (WithTop (WithTop ℚ)))
  | .nan => ((⊤ : WithTop (WithTop ℚ)) : WithBot (WithTop (WithTop ℚ)))

theorem XQ.key_injective : Function.Injective XQ.key := by
  intro a b h
  cases a <;> cases b <;> simp_all [XQ.key]

instance : LinearOrder XQ := LinearOrder.lift' XQ.key XQ.key_injective

/-- `a / b`. -/
def XQ.div (a b : ℚ) : XQ := if b = 0 then (if a = 0 then .nan else if 0 < a then .pinf else .ninf) else .num (a / b)

/-- `np.abs`. -/
def XQ.abs : XQ → XQ
  | .nan => .nan
  | .ninf => .pinf
  | .num q => .num |q|
  | .pinf => .pinf

def XQ.add : XQ → XQ → XQ
  | .num a, .num b => .num (a + b)
  | .nan, _ => .nan
  | _, .nan => .nan
  | .pinf, .ninf => .nan
  | .ninf, .pinf => .nan
  | .pinf, _ => .pinf
  | _, .pinf => .pinf
  | .ninf, _ => .ninf
  | _, .ninf => .ninf

/-- Division by a positive number of elements. -/
def XQ.divNat (a : XQ) (n : ℕ) : XQ :=
  match a with
  | .num q => .num (q / (n : ℚ))
  | a => a

/-- `a.mean()`; the mean of an empty array is NaN. -/
def XQ.mean (l : List XQ) : XQ := if l = [] then .nan else (l.foldr XQ.add (.num 0)).divNat l.length

/-- `np.median`: NaN if there is one, otherwise the middle value or the average of the two middle ones. -/
def XQ.median (l : List XQ) : XQ :=
  if l = [] ∨ XQ.nan ∈ l then .nan
  else
    let s := l.insertionSort (· ≤ ·)
    if s.length % 2 = 1 then s.getD (s.length / 2) .nan
    else ((s.getD (s.length / 2 - 1) .nan).add (s.getD (s.length / 2) .nan)).divNat 2

/-- `mean_absolute_percentage_error` (regression.py:17-32) for pairs (`y_true`, `y_pred`). -/
def mape (r : List (ℚ × ℚ)) : XQ := XQ.mean (r.map fun p => (XQ.div (p.1 - p.2) p.1).abs)

/-- `median_absolute_percentage_error` (regression.py:35-50). -/
def mdape (r : List (ℚ × ℚ)) : XQ := XQ.median (r.map fun p => (XQ.div (p.1 - p.2) p.1).abs)

/-- `mean_percentage_error` (regression.py:53-68). -/
def mpe (r : List (ℚ × ℚ)) : XQ := XQ.mean (r.map fun p => XQ.div (p.1 - p.2) p.1)

/-- `symmetric_mean_absolute_percentage_error` (regression.py:71-87). -/
def smape (r : List (ℚ × ℚ)) : XQ := XQ.mean (r.map fun p => XQ.div |p.1 - p.2| (|p.1| + |p.2|))

/-- `symmetric_median_absolute_percentage_error` (regression.py:90-106). -/
def smdape (r : List (ℚ × ℚ)) : XQ := XQ.median (r.map fun p => XQ.div |p.1 - p.2| (|p.1| + |p.2|))

/-- `regression_metrics` (regression.py:109-169): the entries computed by this module (the others are scikit-learn's). -/
def regressionMetrics (r : List (ℚ × ℚ)) : List (String × XQ) :=
  [("MPE", mpe r), ("MAPE", mape r), ("SMAPE", smape r), ("MdAPE", mdape r), ("SMdAPE", smdape r)]

end OptBinning
