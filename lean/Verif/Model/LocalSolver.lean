import Verif.Model.ModelData

/-!
# Model of the LocalSolver formulation (`binning/ls.py`)

`model.constraint(c)` is the proposition `c`; the formulation is the conjunction of all of them.  Rates and divergences are the
scaled and truncated integers of `model_data(…, scale=10**6)`, as for `cp.py`.
-/
namespace OptBinning
open Finset

/-- The decision variables (ls.py:73-91). -/
structure AssignLS where
  x : ℕ → ℤ
  a : ℕ → ℤ
  z : ℕ → ℤ
  y : ℕ → ℤ := fun _ => 0
  t : ℤ := 0
  d : ℤ := 0
  u : ℕ → ℤ := fun _ => 0

/-- The Python index `i - 1` into a list of length `n`. -/
def pyPrev (n i : ℕ) : ℕ := if i = 0 then n - 1 else i - 1

/-- `model.at(array, i, k)` where row `i` of `array` is `W[i][::-1]` (ls.py:67-70), `W[i]` having `i + 1` entries.  (An index out of
range gives 0 here; no assignment that is accepted uses one, `C112_index_in_range`.) -/
def atLS (W : ℕ → ℕ → ℤ) (i : ℕ) (k : ℤ) : ℤ := ((List.range (i + 1)).map (W i)).reverse.getD k.toNat 0

/-- ls.py:73-91: domains of the variables. -/
def domainsLS (o : Opts) (n : ℕ) (s : AssignLS) : Prop :=
  (∀ i < n, (s.x i = 0 ∨ s.x i = 1) ∧ (0 ≤ s.a i ∧ s.a i ≤ n) ∧ (0 ≤ s.z i ∧ s.z i ≤ n)) ∧
  ((o.trend = .peak ∨ o.trend = .valley) → (∀ i < n, s.y i = 0 ∨ s.y i = 1) ∧ 0 ≤ s.t ∧ s.t ≤ n) ∧
  (∀ mn mx, o.minBins = some mn → o.maxBins = some mx → 0 ≤ s.d ∧ s.d ≤ mx - mn) ∧
  (∀ mn mx, o.minSize = some mn → o.maxSize = some mx → ∀ i < n, 0 ≤ s.u i ∧ s.u i ≤ mx - mn)

/-- ls.py:93-98: basic search space. -/
def searchSpaceLS (n : ℕ) (s : AssignLS) : Prop :=
  s.x (n - 1) = 1 ∧
  ∀ i < n, s.a i = (s.a (pyPrev n i) + 1) * (1 - s.x i) ∧ s.z i = s.a (pyPrev n i) * s.x i * (1 - s.x (pyPrev n i))

/-- The inequality of the ascending trend for `j < i` (ls.py:235-238, 311-314, 351-354). -/
def ascLS (M md : ℤ) (D : ℕ → ℕ → ℤ) (s : AssignLS) (j i : ℕ) : Prop :=
  s.x i * atLS D i (s.z i) + M * (1 - s.x i) ≥ s.x j * atLS D j (s.z j) + md * (s.x i + s.x j - 1)

/-- The inequality of the descending trend for `j < i` (ls.py:249-252, 323-326, 339-342). -/
def descLS (M md : ℤ) (D : ℕ → ℕ → ℤ) (s : AssignLS) (j i : ℕ) : Prop :=
  s.x i * atLS D i (s.z i) + md * (s.x i + s.x j - 1) ≤ s.x j * atLS D j (s.z j) + M * (1 - s.x j)

/-- ls.py:240-243, 316-319, 356-359: for `lo ≤ i`, `i + 1 < hi`. -/
def ascCutsLS (D : ℕ → ℕ → ℤ) (s : AssignLS) (lo hi : ℕ) : Prop :=
  ∀ i, lo ≤ i → i + 1 < hi → D (i + 1) i - D (i + 1) (i + 1) > 0 → s.x i = 0

/-- ls.py:254-257, 328-331, 344-347. -/
def descCutsLS (D : ℕ → ℕ → ℤ) (s : AssignLS) (lo hi : ℕ) : Prop :=
  ∀ i, lo ≤ i → i + 1 < hi → D (i + 1) i - D (i + 1) (i + 1) < 0 → s.x i = 0

/-- ls.py:259-267. -/
def concaveLS (M : ℤ) (n : ℕ) (D : ℕ → ℕ → ℤ) (s : AssignLS) : Prop :=
  ∀ i, 2 ≤ i → i < n → ∀ j, 1 ≤ j → j < i → ∀ k < j,
    -(atLS D i (s.z i) * s.x i) + 2 * atLS D j (s.z j) * s.x j - atLS D k (s.z k) * s.x k ≥ M * (s.x i + s.x j + s.x k - 3)

/-- ls.py:269-277. -/
def convexLS (M : ℤ) (n : ℕ) (D : ℕ → ℕ → ℤ) (s : AssignLS) : Prop :=
  ∀ i, 2 ≤ i → i < n → ∀ j, 1 ≤ j → j < i → ∀ k < j,
    atLS D i (s.z i) * s.x i - 2 * atLS D j (s.z j) * s.x j + atLS D k (s.z k) * s.x k ≥ M * (s.x i + s.x j + s.x k - 3)

/-- ls.py:118-120. -/
def changePointLS (n : ℕ) (s : AssignLS) : Prop :=
  ∀ i < n, s.t ≥ (i : ℤ) - n * (1 - s.y i) ∧ s.t ≤ (i : ℤ) + n * s.y i

/-- ls.py:279-290. -/
def peakLS (M : ℤ) (n : ℕ) (D : ℕ → ℕ → ℤ) (s : AssignLS) : Prop :=
  ∀ i, 1 ≤ i → i < n → ∀ j < i,
    M * (s.y i + s.y j) + M + (atLS D j (s.z j) - M) * s.x j - s.x i * atLS D i (s.z i) ≥ 0 ∧
    M * (2 - s.y i - s.y j) + M + (atLS D i (s.z i) - M) * s.x i - s.x j * atLS D j (s.z j) ≥ 0

/-- ls.py:292-303. -/
def valleyLS (M : ℤ) (n : ℕ) (D : ℕ → ℕ → ℤ) (s : AssignLS) : Prop :=
  ∀ i, 1 ≤ i → i < n → ∀ j < i,
    M * (s.y i + s.y j) + M + (atLS D i (s.z i) - M) * s.x i - s.x j * atLS D j (s.z j) ≥ 0 ∧
    M * (2 - s.y i - s.y j) + M + (atLS D j (s.z j) - M) * s.x j - s.x i * atLS D i (s.z i) ≥ 0

/-- ls.py:100-136: the chain on `monotonic_trend`; `md` is `int(M * min_event_rate_diff)` and `zero` the test
`min_event_rate_diff == 0`. -/
def trendLS (o : Opts) (M md : ℤ) (zero : Bool) (n : ℕ) (D : ℕ → ℕ → ℤ) (s : AssignLS) : Prop :=
  match o.trend with
  | .unconstrained => True
  | .ascending => (∀ i, 1 ≤ i → i < n → ∀ j < i, ascLS M md D s j i) ∧ (zero = true → ascCutsLS D s 0 n)
  | .descending => (∀ i, 1 ≤ i → i < n → ∀ j < i, descLS M md D s j i) ∧ (zero = true → descCutsLS D s 0 n)
  | .concave => concaveLS M n D s
  | .convex => convexLS M n D s
  | .peak => changePointLS n s ∧ peakLS M n D s
  | .valley => changePointLS n s ∧ valleyLS M n D s
  | .peakHeuristic tc =>
    (∀ i, 1 ≤ i → i < tc → ∀ j < i, ascLS M md D s j i) ∧ (zero = true → ascCutsLS D s 0 tc) ∧
    (∀ i, tc ≤ i → i < n → ∀ j, tc ≤ j → j < i → descLS M md D s j i) ∧ (zero = true → descCutsLS D s tc n)
  | .valleyHeuristic tc =>
    (∀ i, 1 ≤ i → i < tc → ∀ j < i, descLS M md D s j i) ∧ (zero = true → descCutsLS D s 0 tc) ∧
    (∀ i, tc ≤ i → i < n → ∀ j, tc ≤ j → j < i → ascLS M md D s j i) ∧ (zero = true → ascCutsLS D s tc n)

/-- ls.py:138-147. -/
def minMaxBinsLS (o : Opts) (n : ℕ) (s : AssignLS) : Prop :=
  let total := ∑ i ∈ range n, s.x i
  match o.minBins, o.maxBins with
  | some _, some mx => s.d + total - mx = 0
  | some mn, none => total ≥ mn
  | none, some mx => total ≤ mx
  | none, none => True

/-- ls.py:149-163. -/
def minMaxSizeLS (o : Opts) (n : ℕ) (NE E : ℕ → ℕ → ℤ) (s : AssignLS) : Prop :=
  ∀ i < n,
    let size := s.x i * (atLS NE i (s.z i) + atLS E i (s.z i))
    match o.minSize, o.maxSize with
    | some mn, some mx => s.u i + size - mx * s.x i = 0 ∧ s.u i ≤ (mx - mn) * s.x i
    | some mn, none => size ≥ mn * s.x i
    | none, some mx => size ≤ mx * s.x i
    | none, none => True

/-- ls.py:165-189. -/
def minMaxCountLS (mn mx : Option ℤ) (n : ℕ) (C : ℕ → ℕ → ℤ) (s : AssignLS) : Prop :=
  ∀ i < n, (∀ b, mn = some b → s.x i * atLS C i (s.z i) ≥ b * s.x i) ∧ (∀ b, mx = some b → s.x i * atLS C i (s.z i) ≤ b * s.x i)

/-- ls.py:191-195. -/
def fixedSplitsLS (o : Opts) (n : ℕ) (s : AssignLS) : Prop :=
  ∀ f, o.fixed = some f → ∀ i, i + 1 < n → f i = true → s.x i = 1

/-- The tables `NE`, `E` of `model_data` (model_data.py:150-152). -/
def BinaryInput.tableNE (inp : BinaryInput) (i j : ℕ) : ℤ := ((cumAt inp.nonevent i j : ℕ) : ℤ)
/-- The tables `NE`, `E` of `model_data` (model_data.py:150-152). -/
def BinaryInput.tableE (inp : BinaryInput) (i j : ℕ) : ℤ := ((cumAt inp.event i j : ℕ) : ℤ)

/-- `BinningLS.build_model` (ls.py:49-205): the accepted assignments. -/
def acceptsLS (o : Opts) (inp : BinaryInput) (s : AssignLS) : Prop :=
  domainsLS o inp.n s ∧ searchSpaceLS inp.n s ∧
  trendLS o scale (truncRat (inp.minDiff * scale)) (decide (inp.minDiff = 0)) inp.n inp.rateCP s ∧
  minMaxBinsLS o inp.n s ∧ minMaxSizeLS o inp.n inp.tableNE inp.tableE s ∧
  minMaxCountLS o.minNonevent o.maxNonevent inp.n inp.tableNE s ∧ minMaxCountLS o.minEvent o.maxEvent inp.n inp.tableE s ∧
  fixedSplitsLS o inp.n s

/-- ls.py:197-199: the objective. -/
noncomputable def objectiveLS (inp : BinaryInput) (s : AssignLS) : ℤ := ∑ i ∈ range inp.n, s.x i * atLS inp.ivCP i (s.z i)

/-- Answer of LocalSolver. -/
inductive AnswerLS
  | optimal (s : AssignLS)
  | feasible (s : AssignLS)
  | infeasible
  | inconsistent

/-- What LocalSolver guarantees. -/
def AnswerLS.Valid (o : Opts) (inp : BinaryInput) : AnswerLS → Prop
  | .optimal s => acceptsLS o inp s ∧ ∀ s', acceptsLS o inp s' → objectiveLS inp s' ≤ objectiveLS inp s
  | .feasible s => acceptsLS o inp s
  | _ => True

/-- ls.py:207-229 `solve`. -/
def solveLS (n : ℕ) : AnswerLS → String × List Bool
  | .optimal s => ("OPTIMAL", (List.range n).map fun i => s.x i != 0)
  | .feasible s => ("FEASIBLE", (List.range n).map fun i => s.x i != 0)
  | .infeasible => ("INFEASIBLE", (List.range n).map fun i => i == n - 1)
  | .inconsistent => ("INCONSISTENT", (List.range n).map fun i => i == n - 1)

end OptBinning
