import Mathlib.Algebra.BigOperators.Group.Finset.Basic
import Mathlib.Algebra.BigOperators.Intervals
import Mathlib.Algebra.Order.Ring.Defs
import Mathlib.Algebra.Order.Ring.Int
import Mathlib.Data.Rat.Floor
import Mathlib.Order.Interval.Finset.Nat
import Verif.Spec.Options

/-!
# Model of the CP and MIP formulations (`binning/cp.py`, `binning/mip.py`, `binning/model_data.py`)

Variables are integer valued (`x[i, j]`, `y[i]` Boolean, `t`, `d`, `u[i]`, `pmin`, `pmax` integers).  The coefficients
live in an ordered ring `R`: `ℤ` for `cp.py` (rates scaled by `M = 10^6` and truncated), `ℚ`/`ℝ` for `mip.py`
(`M = 1`, unscaled).  A call `model.Add(c)` is modelled by the proposition `c`; a formulation is the conjunction of all
added constraints.
-/
namespace OptBinning

/-- One assignment to all decision variables (cp.py:281-316 `decision_variables`, cp.py:72-73). -/
structure Assign where
  x : ℕ → ℕ → ℤ
  y : ℕ → ℤ := fun _ => 0
  t : ℤ := 0
  d : ℤ := 0
  u : ℕ → ℤ := fun _ => 0
  pmax : ℤ := 0
  pmin : ℤ := 0

open Finset

section
variable {R : Type*} [CommRing R] [LinearOrder R]

/-- cp.py:281-316, mip.py:207-242 `decision_variables`: domains of the variables. -/
def domains (o : Opts) (n : ℕ) (a : Assign) : Prop :=
  (∀ i < n, ∀ j ≤ i, a.x i j = 0 ∨ a.x i j = 1) ∧
  ((o.trend = .peak ∨ o.trend = .valley) →
    (∀ i < n, a.y i = 0 ∨ a.y i = 1) ∧ 0 ≤ a.t ∧ a.t ≤ n) ∧
  (∀ mn mx, o.minBins = some mn → o.maxBins = some mx → 0 ≤ a.d ∧ a.d ≤ mx - mn) ∧
  (∀ mn mx, o.minSize = some mn → o.maxSize = some mx → ∀ i < n, 0 ≤ a.u i ∧ a.u i ≤ mx - mn)

/-- cp.py:345-347, mip.py:244-246 `add_constraint_unique_assignment`. -/
def uniqueAssignment (n : ℕ) (x : ℕ → ℕ → ℤ) : Prop :=
  ∀ j < n, ∑ i ∈ Ico j n, x i j = 1

/-- cp.py:349-352, mip.py:248-251 `add_constraint_continuity`. -/
def continuity (n : ℕ) (x : ℕ → ℕ → ℤ) : Prop :=
  ∀ i < n, ∀ j < i, x i j - x i (j + 1) ≤ 0

/-- cp.py:354-363, mip.py:253-262 `add_constraint_min_max_bins`. -/
def minMaxBins (o : Opts) (n : ℕ) (x : ℕ → ℕ → ℤ) (d : ℤ) : Prop :=
  let trace := ∑ i ∈ range n, x i i
  match o.minBins, o.maxBins with
  | some _, some mx => d + trace - mx = 0
  | some mn, none => trace ≥ mn
  | none, some mx => trace ≤ mx
  | none, none => True

/-- cp.py:101-102, 114, 156, 369: `sum([c[j] * x[i, j] for j in range(i + 1)])`. -/
def rowTotal (c : ℕ → ℤ) (x : ℕ → ℕ → ℤ) (i : ℕ) : ℤ := ∑ j ∈ range (i + 1), c j * x i j

/-- cp.py:365-379, mip.py:264-279 `add_constraint_min_max_bin_size`. -/
def minMaxBinSize (o : Opts) (n : ℕ) (x : ℕ → ℕ → ℤ) (u : ℕ → ℤ) (records : ℕ → ℤ) : Prop :=
  match o.minSize, o.maxSize with
  | some mn, some mx => ∀ i < n, u i + rowTotal records x i - mx * x i i = 0 ∧ u i ≤ (mx - mn) * x i i
  | some mn, none => ∀ i < n, rowTotal records x i ≥ mn * x i i
  | none, some mx => ∀ i < n, rowTotal records x i ≤ mx * x i i
  | none, none => True

/-- cp.py:97-120, mip.py:100-124: bounds on non-events / events per bin. -/
def minMaxCount (mn mx : Option ℤ) (n : ℕ) (x : ℕ → ℕ → ℤ) (c : ℕ → ℤ) : Prop :=
  ∀ i < n, (∀ b, mn = some b → rowTotal c x i ≥ b * x i i) ∧ (∀ b, mx = some b → rowTotal c x i ≤ b * x i i)

/-- `sum([(D[i][j] - D[i][j+1]) * x[i, j] for j in range(i)])`, the sub-diagonal part of the row expression used in
the objective (cp.py:75-82) and in all trend constraints (cp.py:395-569). -/
def rowS (D : ℕ → ℕ → R) (x : ℕ → ℕ → ℤ) (i : ℕ) : R :=
  ∑ j ∈ range i, (D i j - D i (j + 1)) * (x i j : R)

/-- One linear inequality of `add_constraint_monotonic_ascending` (cp.py:396-403 with `M = 10^6`;
mip.py:282-289 with `M = 1`) for the pair `z < i`. -/
def ascIneq (M : R) (D : ℕ → ℕ → R) (x : ℕ → ℕ → ℤ) (z i : ℕ) : Prop :=
  rowS D x z + D z z * (x z z : R) - M - (D i i - M) * (x i i : R) - rowS D x i ≤ 0

/-- One linear inequality of `add_constraint_monotonic_descending` (cp.py:415-422; mip.py:301-308). -/
def descIneq (M : R) (D : ℕ → ℕ → R) (x : ℕ → ℕ → ℤ) (z i : ℕ) : Prop :=
  rowS D x i + D i i * (x i i : R) - M - (D z z - M) * (x z z : R) - rowS D x z ≤ 0

/-- "Preprocessing" cuts of the ascending trend restricted to `lo ≤ i`, `i + 1 < hi`, inner loop `j ∈ [jlo, hi-i-1)`
(cp.py:405-412 with lo = jlo = 0, hi = n; cp.py:507-514 with hi = tc; cp.py:562-569 with lo = jlo = tc, hi = n). -/
def ascCuts (D : ℕ → ℕ → R) (x : ℕ → ℕ → ℤ) (lo hi jlo : ℕ) : Prop :=
  ∀ i, lo ≤ i → i + 1 < hi → D (i + 1) i - D (i + 1) (i + 1) > 0 →
    x i i = 0 ∧
    ∀ j, jlo ≤ j → j < hi - i - 1 → D (i + 1 + j) i - D (i + 1 + j) (i + 1 + j) > 0 → x (i + j) (i + j) = 0

/-- Same for the descending trend (cp.py:424-431, 525-532, 544-551). -/
def descCuts (D : ℕ → ℕ → R) (x : ℕ → ℕ → ℤ) (lo hi jlo : ℕ) : Prop :=
  ∀ i, lo ≤ i → i + 1 < hi → D (i + 1) i - D (i + 1) (i + 1) < 0 →
    x i i = 0 ∧
    ∀ j, jlo ≤ j → j < hi - i - 1 → D (i + 1 + j) i - D (i + 1 + j) (i + 1 + j) < 0 → x (i + j) (i + j) = 0

/-- The guard of all preprocessing cuts (cp.py:406 etc.): `min_event_rate_diff == 0 and not _is_scenario_binning`. -/
def cutsOn (o : Opts) : Prop := o.minRateDiffZero = true ∧ o.scenario = false

/-- cp.py:395-412, mip.py:281-298. -/
def monoAscending (o : Opts) (M : R) (n : ℕ) (D : ℕ → ℕ → R) (x : ℕ → ℕ → ℤ) : Prop :=
  (∀ i, 1 ≤ i → i < n → ∀ z < i, ascIneq M D x z i) ∧ (cutsOn o → ascCuts D x 0 n 0)

/-- cp.py:414-431, mip.py:300-317. -/
def monoDescending (o : Opts) (M : R) (n : ℕ) (D : ℕ → ℕ → R) (x : ℕ → ℕ → ℤ) : Prop :=
  (∀ i, 1 ≤ i → i < n → ∀ z < i, descIneq M D x z i) ∧ (cutsOn o → descCuts D x 0 n 0)

/-- `(sum(...) + D[i][i] * x[i, i])`: the rate of the bin ending in `i` (0 if none ends there). -/
def rowRate (D : ℕ → ℕ → R) (x : ℕ → ℕ → ℤ) (i : ℕ) : R := rowS D x i + D i i * (x i i : R)

/-- cp.py:433-444, mip.py:319-332 `add_constraint_monotonic_concave` (loops i ∈ [2,n), j ∈ [1,i), k ∈ [0,j)). -/
def monoConcave (M : R) (n : ℕ) (D : ℕ → ℕ → R) (x : ℕ → ℕ → ℤ) : Prop :=
  ∀ i, 2 ≤ i → i < n → ∀ j, 1 ≤ j → j < i → ∀ k < j,
    -(rowRate D x i) + 2 * rowRate D x j - rowRate D x k ≥ M * ((x i i : R) + (x j j : R) + (x k k : R) - 3)

/-- cp.py:446-457, mip.py:334-347 `add_constraint_monotonic_convex`. -/
def monoConvex (M : R) (n : ℕ) (D : ℕ → ℕ → R) (x : ℕ → ℕ → ℤ) : Prop :=
  ∀ i, 2 ≤ i → i < n → ∀ j, 1 ≤ j → j < i → ∀ k < j,
    rowRate D x i - 2 * rowRate D x j + rowRate D x k ≥ M * ((x i i : R) + (x j j : R) + (x k k : R) - 3)

/-- cp.py:135-138: link between the change point `t` and the side indicators `y`. -/
def changePoint (n : ℕ) (y : ℕ → ℤ) (t : ℤ) : Prop :=
  ∀ i < n, t ≥ (i : ℤ) - n * (1 - y i) ∧ t ≤ (i : ℤ) + n * y i

/-- cp.py:459-476, mip.py:349-366 `add_constraint_monotonic_peak`. -/
def monoPeak (M : R) (n : ℕ) (D : ℕ → ℕ → R) (x : ℕ → ℕ → ℤ) (y : ℕ → ℤ) : Prop :=
  ∀ i, 1 ≤ i → i < n → ∀ z < i,
    M * ((y i : R) + (y z : R)) + M + (D z z - M) * (x z z : R) + rowS D x z - rowS D x i - D i i * (x i i : R) ≥ 0 ∧
    M * (2 - (y i : R) - (y z : R)) + M + (D i i - M) * (x i i : R) + rowS D x i - rowS D x z
      - D z z * (x z z : R) ≥ 0

/-- cp.py:478-495, mip.py:368-385 `add_constraint_monotonic_valley`. -/
def monoValley (M : R) (n : ℕ) (D : ℕ → ℕ → R) (x : ℕ → ℕ → ℤ) (y : ℕ → ℤ) : Prop :=
  ∀ i, 1 ≤ i → i < n → ∀ z < i,
    M * ((y i : R) + (y z : R)) + M + (D i i - M) * (x i i : R) + rowS D x i - rowS D x z - D z z * (x z z : R) ≥ 0 ∧
    M * (2 - (y i : R) - (y z : R)) + M + (D z z - M) * (x z z : R) + rowS D x z - rowS D x i
      - D i i * (x i i : R) ≥ 0

/-- cp.py:497-532, mip.py:387-422 `add_constraint_monotonic_peak_heuristic`. -/
def monoPeakHeuristic (o : Opts) (M : R) (n : ℕ) (D : ℕ → ℕ → R) (x : ℕ → ℕ → ℤ) (tc : ℕ) : Prop :=
  (∀ i, 1 ≤ i → i < tc → ∀ z < i, ascIneq M D x z i) ∧ (cutsOn o → ascCuts D x 0 tc 0) ∧
  (∀ i, tc ≤ i → i < n → ∀ z, tc ≤ z → z < i → descIneq M D x z i) ∧ (cutsOn o → descCuts D x tc n tc)

/-- cp.py:534-569, mip.py:424-459 `add_constraint_monotonic_valley_heuristic`. -/
def monoValleyHeuristic (o : Opts) (M : R) (n : ℕ) (D : ℕ → ℕ → R) (x : ℕ → ℕ → ℤ) (tc : ℕ) : Prop :=
  (∀ i, 1 ≤ i → i < tc → ∀ z < i, descIneq M D x z i) ∧ (cutsOn o → descCuts D x 0 tc 0) ∧
  (∀ i, tc ≤ i → i < n → ∀ z, tc ≤ z → z < i → ascIneq M D x z i) ∧ (cutsOn o → ascCuts D x tc n tc)

/-- The `if/elif` chain on `self.monotonic_trend` (cp.py:122-151, mip.py:126-155). -/
def monotonicity (o : Opts) (M : R) (n : ℕ) (D : ℕ → ℕ → R) (a : Assign) : Prop :=
  match o.trend with
  | .unconstrained => True
  | .ascending => monoAscending o M n D a.x
  | .descending => monoDescending o M n D a.x
  | .concave => monoConcave M n D a.x
  | .convex => monoConvex M n D a.x
  | .peak => changePoint n a.y a.t ∧ monoPeak M n D a.x a.y
  | .valley => changePoint n a.y a.t ∧ monoValley M n D a.x a.y
  | .peakHeuristic tc => monoPeakHeuristic o M n D a.x tc
  | .valleyHeuristic tc => monoValleyHeuristic o M n D a.x tc

/-- One pair of bins that may not be selected together: `((i, j), (z, l))` = bins `j..i` and `l..z`
(model_data.py:52 etc.). -/
abbrev Violation := (ℕ × ℕ) × (ℕ × ℕ)

/-- cp.py:571-578 `add_constraint_violation`: `AddImplication(x[i,j], x[z,l].Not()).OnlyEnforceIf([...])`.
An implication with enforcement literals holds iff one of the literals is false or the implication holds. -/
def violationCP (x : ℕ → ℕ → ℤ) (vs : List Violation) : Prop :=
  ∀ v ∈ vs,
    let i := v.1.1; let j := v.1.2; let z := v.2.1; let l := v.2.2
    if j ≥ 1 then
      (x i (j - 1) = 0 ∧ x z (l - 1) = 0) → (x i j = 1 → x z l = 0)
    else
      x z (l - 1) = 0 → (x i j = 1 → x z l = 0)

/-- mip.py:461-466 `add_constraint_violation`. -/
def violationMIP (x : ℕ → ℕ → ℤ) (vs : List Violation) : Prop :=
  ∀ v ∈ vs,
    let i := v.1.1; let j := v.1.2; let z := v.2.1; let l := v.2.2
    if j ≥ 1 then
      x i j + x z l ≤ 1 + x i (j - 1) + x z (l - 1)
    else
      x i j + x z l ≤ 1 + x z (l - 1)

/-- cp.py:580-584, mip.py:468-472 `add_constraint_fixed_splits`. -/
def fixedSplits (o : Opts) (n : ℕ) (x : ℕ → ℕ → ℤ) : Prop :=
  ∀ f, o.fixed = some f → ∀ i, i + 1 < n → f i = true → x i i = 1

/-- cp.py:72-73, 153-160, mip.py:157-165: reduction of dominating bins (only if `gamma`). -/
def dominating (o : Opts) (n : ℕ) (a : Assign) (records : ℕ → ℤ) : Prop :=
  o.gamma = true →
    let total := ∑ k ∈ range n, records k
    (0 ≤ a.pmax ∧ a.pmax ≤ total ∧ 0 ≤ a.pmin ∧ a.pmin ≤ total) ∧
    (∀ i < n, a.pmin ≤ total * (1 - a.x i i) + rowTotal records a.x i ∧ a.pmax ≥ rowTotal records a.x i) ∧
    a.pmin ≤ a.pmax

/-- Input data of `build_model` after `model_data` (cp.py:51-60). -/
structure Data (R : Type*) where
  n : ℕ
  nonevent : ℕ → ℤ
  event : ℕ → ℤ
  D : ℕ → ℕ → R
  V : ℕ → ℕ → R
  pvalueViol : List Violation := []
  minDiffViol : List Violation := []

/-- cp.py:60 `n_records = n_nonevent + n_event`. -/
def Data.records (dat : Data R) : ℕ → ℤ := fun k => dat.nonevent k + dat.event k

/-- All constraints that do not depend on the solver back-end. -/
def feasibleCore (o : Opts) (M : R) (dat : Data R) (a : Assign) : Prop :=
  domains o dat.n a ∧
  uniqueAssignment dat.n a.x ∧
  continuity dat.n a.x ∧
  minMaxBins o dat.n a.x a.d ∧
  minMaxBinSize o dat.n a.x a.u dat.records ∧
  minMaxCount o.minNonevent o.maxNonevent dat.n a.x dat.nonevent ∧
  minMaxCount o.minEvent o.maxEvent dat.n a.x dat.event ∧
  monotonicity o M dat.n dat.D a ∧
  dominating o dat.n a dat.records ∧
  fixedSplits o dat.n a.x

/-- `BinningCP.build_model` (cp.py:51-173): the set of accepted assignments. -/
def feasibleCP (o : Opts) (dat : Data ℤ) (a : Assign) : Prop :=
  feasibleCore o (1000000 : ℤ) dat a ∧ violationCP a.x dat.pvalueViol ∧ violationCP a.x dat.minDiffViol

/-- `BinningMIP.build_model` (mip.py:48-178): the set of accepted assignments. -/
def feasibleMIP (o : Opts) (dat : Data R) (a : Assign) : Prop :=
  feasibleCore o (1 : R) dat a ∧ violationMIP a.x dat.pvalueViol ∧ violationMIP a.x dat.minDiffViol

/-- cp.py:80-82, mip.py:82-85: the objective without regularisation. -/
def objective (dat : Data R) (x : ℕ → ℕ → ℤ) : R :=
  ∑ i ∈ range dat.n, (dat.V i i * (x i i : R) + ∑ j ∈ range i, (dat.V i j - dat.V i (j + 1)) * (x i j : R))

end

/-- Answer of an external solver: an assignment together with the claim OPTIMAL or FEASIBLE, or another status. -/
inductive SolverAnswer
  | optimal (a : Assign)
  | feasible (a : Assign)
  | other (status : String)

/-- `solve` (cp.py:265-279, mip.py:180-205): the diagonal of the assignment, or the single-bin fallback
`zeros; solution[-1] = True`. -/
def solve (n : ℕ) : SolverAnswer → String × List Bool
  | .optimal a => ("OPTIMAL", (List.range n).map fun i => a.x i i != 0)
  | .feasible a => ("FEASIBLE", (List.range n).map fun i => a.x i i != 0)
  | .other s => (s, (List.range n).map fun i => i == n - 1)

end OptBinning
