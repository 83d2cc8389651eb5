import Verif.Model.Solver
import Verif.Spec.Admissible
import Mathlib.Analysis.SpecialFunctions.Log.Basic
import Mathlib.Analysis.SpecialFunctions.Pow.Real

/-!
# Model of `binning/model_data.py` (binary target)
-/
namespace OptBinning
open Spec

/-- `numpy.cumsum`. -/
def cumsumFrom {R : Type*} [Add R] (acc : R) : List R → List R
  | [] => []
  | a :: l => (acc + a) :: cumsumFrom (acc + a) l

/-- model_data.py:124-125 `v[:i][::-1].cumsum()[::-1]`. -/
def suffixSums {R : Type*} [AddZeroClass R] (v : List R) (i : ℕ) : List R :=
  (cumsumFrom 0 (v.take i).reverse).reverse

/-- Entry `E[i][j]` of the table built in model_data.py:123-125, 150-152 (row `i` comes from the loop value `i + 1`). -/
def cumAt {R : Type*} [AddZeroClass R] (v : List R) (i j : ℕ) : R := (suffixSums v (i + 1)).getD j 0

/-- Input of `build_model` that determines `model_data`: counts per pre-bin, the divergence (contribution of one bin, a
function of the shares `p`, `q`; metrics.py), the proportion test (`none` if `max_pvalue is None`), its policy and
`min_event_rate_diff` (model_data.py:110-111). -/
structure BinaryInput where
  nonevent : List ℕ
  event : List ℕ
  div : ℝ → ℝ → ℝ
  test : Option (ℕ → ℕ → ℕ → ℕ → Bool) := none
  policy : Policy := .consecutive
  minDiff : ℚ := 0

/-- model_data.py:112 `n = len(n_nonevent)`. -/
def BinaryInput.n (inp : BinaryInput) : ℕ := inp.nonevent.length

/-- model_data.py:126 `rate = s_event / (s_nonevent + s_event)`. -/
def BinaryInput.rate (inp : BinaryInput) (i j : ℕ) : ℚ :=
  ((cumAt inp.event i j : ℕ) : ℚ) / (((cumAt inp.nonevent i j : ℕ) : ℚ) + ((cumAt inp.event i j : ℕ) : ℚ))

/-- model_data.py:114-115, 128-138: divergence contribution of the bin `j..i`. -/
noncomputable def BinaryInput.iv (inp : BinaryInput) (i j : ℕ) : ℝ :=
  inp.div (((cumAt inp.event i j : ℕ) : ℝ) / ((inp.event.sum : ℕ) : ℝ)) (((cumAt inp.nonevent i j : ℕ) : ℝ) / ((inp.nonevent.sum : ℕ) : ℝ))

/-- `int(1e6)` (cp.py:53). -/
def scale : ℤ := 1000000

/-- `.astype(np.int64)` of a float: truncation towards zero. -/
noncomputable def truncReal (r : ℝ) : ℤ := if 0 ≤ r then ⌊r⌋ else ⌈r⌉

/-- Truncation towards zero of a rational (computable twin of `truncReal`). -/
def truncRat (r : ℚ) : ℤ := if 0 ≤ r then ⌊r⌋ else ⌈r⌉

/-- model_data.py:141, 144: scaled and truncated rates. -/
def BinaryInput.rateCP (inp : BinaryInput) (i j : ℕ) : ℤ := truncRat (inp.rate i j * scale)

/-- model_data.py:142, 145: scaled and truncated divergences. -/
noncomputable def BinaryInput.ivCP (inp : BinaryInput) (i j : ℕ) : ℤ := truncReal (inp.iv i j * scale)

/-- model_data.py:30-57 `find_pvalue_violation_indices`; `test e1 ne1 e2 ne2` is `test_proportions` (19-27) with the
`zscore` of `max_pvalue`. -/
def pvalueViolations (n : ℕ) (E NE : ℕ → ℕ → ℕ) (test : ℕ → ℕ → ℕ → ℕ → Bool) : Policy → List Violation
  | .all =>
    (List.range (n - 1)).flatMap fun i => (List.range (i + 1)).flatMap fun r =>
      (List.range' (i + 1) (n - (i + 1))).flatMap fun j => (List.range' (i + 1) (j - i)).filterMap fun k =>
        if test (E i r) (NE i r) (E j k) (NE j k) then some ((i, r), (j, k)) else none
  | .consecutive =>
    (List.range (n - 1)).flatMap fun i => (List.range (i + 1)).flatMap fun r =>
      (List.range' (i + 1) (n - (i + 1))).filterMap fun j =>
        if test (E i r) (NE i r) (E j (i + 1)) (NE j (i + 1)) then some ((i, r), (j, i + 1)) else none

/-- model_data.py:96-107 `find_min_diff_violation_indices`. -/
def minDiffViolations {R : Type*} [Lattice R] [AddGroup R] [DecidableLT R] (n : ℕ) (X : ℕ → ℕ → R) (minDiff : R) :
    List Violation :=
  (List.range (n - 1)).flatMap fun i => (List.range (i + 1)).flatMap fun k =>
    (List.range' (i + 1) (n - (i + 1))).filterMap fun j =>
      if |X i k - X j (i + 1)| < minDiff then some ((i, k), (j, i + 1)) else none

/-- model_data.py:154-158. -/
def BinaryInput.pviol (inp : BinaryInput) : List Violation :=
  match inp.test with
  | none => []
  | some t => pvalueViolations inp.n (cumAt inp.event) (cumAt inp.nonevent) t inp.policy

/-- `model_data(…, scale=M)` as used by cp.py:54-57; model_data.py:160-169 for the minimum difference. -/
noncomputable def BinaryInput.dataCP (inp : BinaryInput) : Data ℤ where
  n := inp.n
  nonevent := fun k => ((inp.nonevent.getD k 0 : ℕ) : ℤ)
  event := fun k => ((inp.event.getD k 0 : ℕ) : ℤ)
  D := inp.rateCP
  V := inp.ivCP
  pvalueViol := inp.pviol
  minDiffViol := if inp.minDiff > 0 then minDiffViolations inp.n inp.rateCP (truncRat (inp.minDiff * scale)) else []

/-- `model_data(…, scale=None)` as used by mip.py:51-55. -/
noncomputable def BinaryInput.dataMIP (inp : BinaryInput) : Data ℝ where
  n := inp.n
  nonevent := fun k => ((inp.nonevent.getD k 0 : ℕ) : ℤ)
  event := fun k => ((inp.event.getD k 0 : ℕ) : ℤ)
  D := fun i j => (inp.rate i j : ℝ)
  V := inp.iv
  pvalueViol := inp.pviol
  minDiffViol := if inp.minDiff > 0 then minDiffViolations inp.n inp.rate inp.minDiff else []

/-- `BinningCP.build_model` on given counts (cp.py:51-173): which assignments the CP model accepts.  The test
`self.min_event_rate_diff == 0` (cp.py:406) uses the same `min_event_rate_diff` that is passed to `model_data`, and
`_is_scenario_binning` is `False` (cp.py:46). -/
def acceptsCP (o : Opts) (inp : BinaryInput) (a : Assign) : Prop :=
  feasibleCP { o with minRateDiffZero := decide (inp.minDiff = 0), scenario := false } inp.dataCP a

/-- `BinningMIP.build_model` on given counts (mip.py:48-178). -/
def acceptsMIP (o : Opts) (inp : BinaryInput) (a : Assign) : Prop :=
  feasibleMIP { o with minRateDiffZero := decide (inp.minDiff = 0), scenario := false } inp.dataMIP a

/-- What the constraint solver guarantees about its answer, given the accepted assignments and the objective: an OPTIMAL
answer is accepted and has maximal objective, a FEASIBLE answer is accepted, any other status carries no assignment. -/
def SolverAnswer.Valid {R : Type*} [LE R] (ok : Assign → Prop) (obj : Assign → R) : SolverAnswer → Prop
  | .optimal a => ok a ∧ ∀ a', ok a' → obj a' ≤ obj a
  | .feasible a => ok a
  | .other s => s ≠ "OPTIMAL" ∧ s ≠ "FEASIBLE"

/-- Objective of the CP model, cp.py:69-82 (`reg` is `regularization`, present only if `gamma`). -/
noncomputable def objectiveCP (o : Opts) (inp : BinaryInput) (reg : ℤ) (a : Assign) : ℤ :=
  objective inp.dataCP a.x - if o.gamma then reg * (a.pmax - a.pmin) else 0

/-- Objective of the MIP model, mip.py:70-85. -/
noncomputable def objectiveMIP (o : Opts) (inp : BinaryInput) (reg : ℝ) (a : Assign) : ℝ :=
  objective inp.dataMIP a.x - if o.gamma then reg * ((a.pmax : ℝ) - (a.pmin : ℝ)) else 0

/-- The Boolean list `solution` read as a set of bin ends. -/
def solOf (l : List Bool) (k : ℕ) : Bool := l.getD k false

end OptBinning
