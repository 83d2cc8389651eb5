import Verif.Model.ModelData
import Verif.Spec.Continuous

/-!
# Model of the CP formulation for a continuous target (`binning/continuous_cp.py`, `binning/model_data.py:245-299`)

`ContinuousBinningCP` inherits from `BinningCP` the variables, the unique assignment, continuity, bin number, bin size,
violation and fixed split constraints (`domains`, `uniqueAssignment`, `continuity`, `minMaxBins`, `minMaxBinSize`,
`violationCP`, `fixedSplits` of `Model/Solver.lean`), and replaces the trend constraints.
-/
namespace OptBinning
open Finset Spec

/-- Input of `ContinuousBinningCP.build_model` and of `continuous_model_data` (continuous_cp.py:42-48,
model_data.py:245-246): records, target sums and sums of squares per pre-bin, the t-test
(`stats.ttest_ind_from_stats(u, s, r, u2, s2, r2, False)[1] > max_pvalue`, an arbitrary function of the means, standard
deviations and sizes of two bins; `none` if `max_pvalue is None`), its policy and `min_mean_diff`. -/
structure ContInput where
  records : List ℕ
  sums : List ℚ
  ssums : List ℚ
  test : Option (ℚ → ℝ → ℕ → ℚ → ℝ → ℕ → Bool) := none
  policy : Policy := .consecutive
  minDiff : ℚ := 0

/-- model_data.py:248, continuous_cp.py:50. -/
def ContInput.n (inp : ContInput) : ℕ := inp.records.length

/-- model_data.py:256 `t_mean = sums.sum() / n_records.sum()`. -/
def ContInput.tMean (inp : ContInput) : ℚ := inp.sums.sum / ((inp.records.sum : ℕ) : ℚ)

/-- model_data.py:259-263 `mean = s_sums / s_n_records`. -/
def ContInput.mean (inp : ContInput) (i j : ℕ) : ℚ := cumAt inp.sums i j / ((cumAt inp.records i j : ℕ) : ℚ)

/-- model_data.py:261, 264 `std = np.sqrt(s_ssums / s_n_records - mean ** 2)`. -/
noncomputable def ContInput.std (inp : ContInput) (i j : ℕ) : ℝ :=
  Real.sqrt ((cumAt inp.ssums i j / ((cumAt inp.records i j : ℕ) : ℚ) - inp.mean i j ^ 2 : ℚ) : ℝ)

/-- model_data.py:268-274: the matrix `U`. -/
def ContInput.U (inp : ContInput) (i j : ℕ) : ℤ := truncRat (inp.mean i j * scale)

/-- model_data.py:265, 269-275: the matrix `V`. -/
def ContInput.V (inp : ContInput) (i j : ℕ) : ℤ := truncRat (|inp.mean i j - inp.tMean| * scale)

/-- model_data.py:60-93 `find_pvalue_violation_indices_continuous`; `bad i r j k` is the comparison of the bins `r..i` and
`k..j`. -/
def pvalueViolationsCont (n : ℕ) (bad : ℕ → ℕ → ℕ → ℕ → Bool) : Policy → List Violation
  | .all =>
    (List.range (n - 1)).flatMap fun i => (List.range (i + 1)).flatMap fun r =>
      (List.range' (i + 1) (n - (i + 1))).flatMap fun j => (List.range' (i + 1) (j - i)).filterMap fun k =>
        if bad i r j k then some ((i, r), (j, k)) else none
  | .consecutive =>
    (List.range (n - 1)).flatMap fun i => (List.range (i + 1)).flatMap fun r =>
      (List.range' (i + 1) (n - (i + 1))).filterMap fun j =>
        if bad i r j (i + 1) then some ((i, r), (j, i + 1)) else none

/-- model_data.py:287-291. -/
noncomputable def ContInput.pviol (inp : ContInput) : List Violation :=
  match inp.test with
  | none => []
  | some t => pvalueViolationsCont inp.n (fun i r j k =>
      t (inp.mean i r) (inp.std i r) (cumAt inp.records i r) (inp.mean j k) (inp.std j k) (cumAt inp.records j k)) inp.policy

/-- model_data.py:293-297: the means are not scaled here. -/
def ContInput.mdiff (inp : ContInput) : List Violation :=
  if inp.minDiff > 0 then minDiffViolations inp.n inp.mean inp.minDiff else []

/-- continuous_cp.py:133-139, 221-227, 252-258: enforced only if bins end in `z` and in `i`. -/
def ascEnforced (U : ℕ → ℕ → ℤ) (x : ℕ → ℕ → ℤ) (z i : ℕ) : Prop :=
  x z z = 1 → x i i = 1 → rowS U x z + U z z * x z z - U i i * x i i - rowS U x i ≤ 0

/-- continuous_cp.py:144-150, 231-237, 242-248. -/
def descEnforced (U : ℕ → ℕ → ℤ) (x : ℕ → ℕ → ℤ) (z i : ℕ) : Prop :=
  x z z = 1 → x i i = 1 → rowS U x i + U i i * x i i - U z z * x z z - rowS U x z ≤ 0

/-- continuous_cp.py:179, 199: `M = max([abs(U[i][j]) for i in range(n) for j in range(i + 1)])`. -/
def contBigM (n : ℕ) (U : ℕ → ℕ → ℤ) : ℤ :=
  ((List.range n).flatMap fun i => (List.range (i + 1)).map fun j => |U i j|).foldl max 0

/-- continuous_cp.py:178-196 `add_constraint_monotonic_peak`. -/
def contPeak (n : ℕ) (U : ℕ → ℕ → ℤ) (x : ℕ → ℕ → ℤ) (y : ℕ → ℤ) : Prop :=
  ∀ i, 1 ≤ i → i < n → ∀ z < i, x z z = 1 → x i i = 1 →
    contBigM n U * (y i + y z) + U z z * x z z + rowS U x z - rowS U x i - U i i * x i i ≥ 0 ∧
    contBigM n U * (2 - y i - y z) + U i i * x i i + rowS U x i - rowS U x z - U z z * x z z ≥ 0

/-- continuous_cp.py:198-216 `add_constraint_monotonic_valley`. -/
def contValley (n : ℕ) (U : ℕ → ℕ → ℤ) (x : ℕ → ℕ → ℤ) (y : ℕ → ℤ) : Prop :=
  ∀ i, 1 ≤ i → i < n → ∀ z < i, x z z = 1 → x i i = 1 →
    contBigM n U * (y i + y z) + U i i * x i i + rowS U x i - rowS U x z - U z z * x z z ≥ 0 ∧
    contBigM n U * (2 - y i - y z) + U z z * x z z + rowS U x z - rowS U x i - U i i * x i i ≥ 0

/-- continuous_cp.py:152-163 `add_constraint_monotonic_concave`. -/
def contConcave (n : ℕ) (U : ℕ → ℕ → ℤ) (x : ℕ → ℕ → ℤ) : Prop :=
  ∀ i, 2 ≤ i → i < n → ∀ j, 1 ≤ j → j < i → ∀ k < j, x k k = 1 → x j j = 1 → x i i = 1 →
    -(rowRate U x i) + 2 * rowRate U x j - rowRate U x k ≥ 0

/-- continuous_cp.py:165-176 `add_constraint_monotonic_convex`. -/
def contConvex (n : ℕ) (U : ℕ → ℕ → ℤ) (x : ℕ → ℕ → ℤ) : Prop :=
  ∀ i, 2 ≤ i → i < n → ∀ j, 1 ≤ j → j < i → ∀ k < j, x k k = 1 → x j j = 1 → x i i = 1 →
    rowRate U x i - 2 * rowRate U x j + rowRate U x k ≥ 0

/-- continuous_cp.py:86-115, 130-150, 218-258: the trend constraints. -/
def contMonotonicity (t : Trend) (n : ℕ) (U : ℕ → ℕ → ℤ) (a : Assign) : Prop :=
  match t with
  | .unconstrained => True
  | .ascending => ∀ i, 1 ≤ i → i < n → ∀ z < i, ascEnforced U a.x z i
  | .descending => ∀ i, 1 ≤ i → i < n → ∀ z < i, descEnforced U a.x z i
  | .concave => contConcave n U a.x
  | .convex => contConvex n U a.x
  | .peak => changePoint n a.y a.t ∧ contPeak n U a.x a.y
  | .valley => changePoint n a.y a.t ∧ contValley n U a.x a.y
  | .peakHeuristic tc =>
    (∀ i, 1 ≤ i → i < tc → ∀ z < i, ascEnforced U a.x z i) ∧
      (∀ i, tc ≤ i → i < n → ∀ z, tc ≤ z → z < i → descEnforced U a.x z i)
  | .valleyHeuristic tc =>
    (∀ i, 1 ≤ i → i < tc → ∀ z < i, descEnforced U a.x z i) ∧
      (∀ i, tc ≤ i → i < n → ∀ z, tc ≤ z → z < i → ascEnforced U a.x z i)

/-- continuous_cp.py:58-62: the domains of `pmax`, `pmin`, which occur in no other constraint. -/
def contGammaVars (o : Opts) (inp : ContInput) (a : Assign) : Prop :=
  o.gamma = true → 0 ≤ a.pmax ∧ a.pmax ≤ inp.records.sum ∧ 0 ≤ a.pmin ∧ a.pmin ≤ inp.records.sum

/-- `ContinuousBinningCP.build_model` (continuous_cp.py:42-128): the accepted assignments. -/
def acceptsCont (o : Opts) (inp : ContInput) (a : Assign) : Prop :=
  domains o inp.n a ∧
  contGammaVars o inp a ∧
  uniqueAssignment inp.n a.x ∧
  continuity inp.n a.x ∧
  minMaxBins o inp.n a.x a.d ∧
  minMaxBinSize o inp.n a.x a.u (fun k => ((inp.records.getD k 0 : ℕ) : ℤ)) ∧
  contMonotonicity o.trend inp.n inp.U a ∧
  violationCP a.x inp.pviol ∧
  violationCP a.x inp.mdiff ∧
  fixedSplits o inp.n a.x

/-- continuous_cp.py:64-66, 69-71: the objective without regularisation. -/
def contObjectivePlain (inp : ContInput) (x : ℕ → ℕ → ℤ) : ℤ :=
  ∑ i ∈ range inp.n, (inp.V i i * x i i + ∑ j ∈ range i, (inp.V i j - inp.V i (j + 1)) * x i j)

/-- continuous_cp.py:58-71: the objective; `g` is the parameter `gamma`, the regularisation coefficient is
`ceil(10^6 * gamma / total_records)`. -/
def contObjective (o : Opts) (g : ℚ) (inp : ContInput) (a : Assign) : ℤ :=
  contObjectivePlain inp a.x -
    if o.gamma then ⌈(scale : ℚ) * g / ((inp.records.sum : ℕ) : ℚ)⌉ * (a.pmax - a.pmin) else 0

end OptBinning
