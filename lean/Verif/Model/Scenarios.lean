import Verif.Model.Multiclass
import Verif.Spec.Scenarios
import Mathlib.Analysis.SpecialFunctions.Log.Base

/-!
# Model of scenario-based binning (`binning/uncertainty/binning_scenarios.py`, `build_model_scenarios` and the methods
ending in `_scenarios` in `binning/cp.py`)

`n_nonevent` and `n_event` are arrays (pre-bins × scenarios); they are lists of columns, one per scenario, as in the
multiclass model, and `MultiInput` is the input of `multiclass_model_data` (cp.py:180-183).
-/
namespace OptBinning
open Finset Spec

/-! ### the CP formulation -/

/-- Constructor arguments of `BinningCP` as passed by `SBOptimalBinning._fit_optimizer` (binning_scenarios.py:745-763):
one bin size limit per scenario, no limits on events, no `gamma`. -/
structure ScenOpts where
  trend : Trend := .unconstrained
  minBins : Option ℤ := none
  maxBins : Option ℤ := none
  minSize : Option (List ℤ) := none
  maxSize : Option (List ℤ) := none
  fixed : Option (ℕ → Bool) := none

/-- The options read by the inherited methods; `_is_scenario_binning` is `True` (cp.py:177). -/
def ScenOpts.base (o : ScenOpts) (zero : Bool) : Opts :=
  { trend := o.trend, minBins := o.minBins, maxBins := o.maxBins, fixed := o.fixed, minRateDiffZero := zero,
    scenario := true }

/-- cp.py:381-393 `add_constraint_min_max_bin_size_scenarios`. -/
def binSizeScenarios (o : ScenOpts) (inp : MultiInput) (x : ℕ → ℕ → ℤ) : Prop :=
  ∀ s < inp.classes, ∀ i < inp.n,
    (∀ l, o.minSize = some l → rowTotal (inp.cls s).dataCP.records x i ≥ l.getD s 0 * x i i) ∧
    (∀ l, o.maxSize = some l → rowTotal (inp.cls s).dataCP.records x i ≤ l.getD s 0 * x i i)

/-- cp.py:217-246: the trend constraints; the change point `t` and the side indicators `y` are shared by all scenarios.
There is no branch for other trends. -/
def trendScenarios (o : ScenOpts) (inp : MultiInput) (a : Assign) : Prop :=
  let ob := o.base (decide (inp.minDiff = 0))
  match o.trend with
  | .ascending => ∀ s < inp.classes, monoAscending ob (1000000 : ℤ) inp.n (inp.cls s).rateCP a.x
  | .descending => ∀ s < inp.classes, monoDescending ob (1000000 : ℤ) inp.n (inp.cls s).rateCP a.x
  | .concave => ∀ s < inp.classes, monoConcave (1000000 : ℤ) inp.n (inp.cls s).rateCP a.x
  | .convex => ∀ s < inp.classes, monoConvex (1000000 : ℤ) inp.n (inp.cls s).rateCP a.x
  | .peak => changePoint inp.n a.y a.t ∧ ∀ s < inp.classes, monoPeak (1000000 : ℤ) inp.n (inp.cls s).rateCP a.x a.y
  | .valley => changePoint inp.n a.y a.t ∧ ∀ s < inp.classes, monoValley (1000000 : ℤ) inp.n (inp.cls s).rateCP a.x a.y
  | _ => True

/-- `BinningCP.build_model_scenarios` (cp.py:175-263): which assignments are accepted.  Variables: cp.py:318-343. -/
def acceptsScen (o : ScenOpts) (inp : MultiInput) (a : Assign) : Prop :=
  let ob := o.base (decide (inp.minDiff = 0))
  domains ob inp.n a ∧ uniqueAssignment inp.n a.x ∧ continuity inp.n a.x ∧ minMaxBins ob inp.n a.x a.d ∧
  binSizeScenarios o inp a.x ∧ trendScenarios o inp a ∧
  (∀ s < inp.classes, violationCP a.x (inp.cls s).dataCP.pvalueViol) ∧
  (∀ s < inp.classes, violationCP a.x (inp.cls s).dataCP.minDiffViol) ∧
  fixedSplits ob inp.n a.x

/-- cp.py:190 `sw = 10 ** np.abs(np.log10(np.min(w)))`. -/
noncomputable def weightScale (w : List ℝ) : ℝ := (10 : ℝ) ^ |Real.logb 10 (w.min?.getD 0)|

/-- cp.py:191 `np.int64(w[s] * sw)`. -/
noncomputable def intWeight (w : List ℝ) (s : ℕ) : ℤ := truncReal (w.getD s 0 * weightScale w)

/-- cp.py:199-203: the objective. -/
noncomputable def objectiveScen (w : List ℝ) (inp : MultiInput) (a : Assign) : ℤ :=
  ∑ s ∈ range inp.classes, intWeight w s * objective (inp.cls s).dataCP a.x

/-- binning_scenarios.py:764-765: the weights passed to the solver. -/
noncomputable def defaultWeights (w : Option (List ℝ)) (n : ℕ) : List ℝ := w.getD (List.replicate n 1)

/-! ### the fit -/

variable {α : Type*} [LinearOrder α]

/-- One scenario: records with a value and a binary target (`some false` = 0, `some true` = another number). -/
abbrev Scen (α : Type*) := List (RecM α Bool)

/-- binning_scenarios.py:685-694 `n_nonevent[:, s]`. -/
def prebinNonevent (splits : List α) (recs : Scen α) : List ℕ := prebinEvent splits recs false
/-- binning_scenarios.py:685-694 `n_event[:, s]` (`y1 = ~y0`). -/
def prebinEventS (splits : List α) (recs : Scen α) : List ℕ := prebinRest splits recs false

/-- The object attributes used for fixed splits: `fixed` is `self.user_splits_fixed` after the sorting of 537-539,
`fixedPriv` and `splitsPriv` are `self._user_splits_fixed` and `self._user_splits` in the order given by the user
(binning_scenarios.py:312-313). -/
structure ScenState (α : Type*) where
  fixed : Option (List Bool) := none
  fixedPriv : List Bool := []
  splitsPriv : List α := []

/-- binning_scenarios.py:674-728 `_compute_prebins`, applied to the clean records of all scenarios. -/
def computePrebinsS (clean : List (Scen α)) (st : ScenState α) (splits : List α) : Except String (PrebinsM α) :=
  if _hn : splits.length = 0 then .ok ⟨{}, splits, 0, [], []⟩
  else
    let nev := clean.map (prebinNonevent splits)
    let ev := clean.map (prebinEventS splits)
    if _hany : (pureMaskM (splits.length + 1) nev ev).any id = true then
      let mask := maskSplits false (pureMaskM (splits.length + 1) nev ev)
      match st.fixed with
      | none => computePrebinsS clean st (select splits (mask.map (!·)))
      | some _ =>
        if (st.fixedPriv.zipWith and mask).any id then .error "Fixed user_splits are removed"
        else
          computePrebinsS clean
            { st with fixedPriv := select st.fixedPriv (mask.map (!·)),
                      splitsPriv := select st.splitsPriv (mask.map (!·)) }
            (select splits (mask.map (!·)))
    else .ok ⟨{}, splits, splits.length + 1, nev, ev⟩
termination_by splits.length
decreasing_by
  all_goals
    have h := maskSplits_any (c := false) (rm := pureMaskM (splits.length + 1) nev ev) (n := splits.length) (by omega)
      (by simp [pureMaskM]) _hany
    exact length_select_lt h.1 h.2

/-- User options of `SBOptimalBinning` that reach the solver. -/
structure ScenCfg where
  trend : Trend := .unconstrained
  minBins : Option ℤ := none
  maxBins : Option ℤ := none
  minSize : Option ℚ := none
  maxSize : Option ℚ := none
  minDiff : ℚ := 0
  test : Option (ℕ → ℕ → ℕ → ℕ → Bool) := none
  policy : Policy := .consecutive

/-- binning_scenarios.py:745-763: the options of the optimiser; `sizes` are the numbers of records per scenario,
`fixed` is `self.user_splits_fixed`. -/
def ScenCfg.opts (c : ScenCfg) (sizes : List ℕ) (fixed : Option (List Bool)) : ScenOpts where
  trend := c.trend
  minBins := c.minBins
  maxBins := c.maxBins
  minSize := c.minSize.map fun q => sizes.map fun m : ℕ => ⌈q * (m : ℚ)⌉
  maxSize := c.maxSize.map fun q => sizes.map fun m : ℕ => ⌈q * (m : ℚ)⌉
  fixed := fixed.map fun l i => l.getD i false

/-- binning_scenarios.py:770: the counts passed to the optimiser. -/
def ScenCfg.input (c : ScenCfg) (n : ℕ) (nev ev : List (List ℕ)) : MultiInput :=
  { n := n, nonevent := nev, event := ev, test := c.test, policy := c.policy, minDiff := c.minDiff }

/-- The external CP solver: its answer for a built model. -/
abbrev SolverS := ScenOpts → MultiInput → SolverAnswer

/-- The solver respects the models built for it (`w` are the scenario weights). -/
def RespectsS (w : List ℝ) (solver : SolverS) : Prop :=
  ∀ o inp, (solver o inp).Valid (acceptsScen o inp) (objectiveScen w inp)

/-- A fitted object: `status`, `splits` and, per scenario, the columns "Non-event" and "Event" of its table. -/
structure FittedS (α : Type*) where
  status : String
  splits : List α
  nonevent : List (List ℕ)
  event : List (List ℕ)

/-- binning_scenarios.py:136-138: `special_codes` must be a list, a dict is rejected. -/
def SpecialCodes.isDict : SpecialCodes α → Bool
  | .dict _ => true
  | _ => false

/-- binning_scenarios.py:541-606: refinement, `_fit_optimizer` (730-789) and one table per scenario (`bin_info`,
`target_info` for special and missing records).  If no split is left, `n_nonevent` is a one-dimensional array and
`n_nonevent[:, s]` (588) is an `IndexError`. -/
def fitFromS (c : ScenCfg) (sc : SpecialCodes α) (solver : SolverS) (scens : List (Scen α)) (st : ScenState α)
    (splits : List α) : Except String (FittedS α) :=
  let data := scens.map (splitDataM sc none)
  if sc.isDict = true then .error "TypeError: special_codes must be a list or numpy.ndarray."
  else if scens.length = 0 then .error "ValueError"
  else
    match computePrebinsS (data.map SplitM.clean) st splits with
    | .error e => .error e
    | .ok pb =>
      if pb.splits.length = 0 then .error "IndexError: too many indices for array"
      else
        let r := solve pb.nb (solver (c.opts (scens.map List.length) st.fixed) (c.input pb.nb pb.nonevent pb.event))
        .ok ⟨r.1, select pb.splits r.2.dropLast,
          data.zipIdx.map fun p => binInfo r.2 (pb.nonevent.getD p.2 []) none [countClass false p.1.special]
            (countClass false p.1.missing),
          data.zipIdx.map fun p => binInfo r.2 (pb.event.getD p.2 []) none [countRest false p.1.special]
            (countRest false p.1.missing)⟩

/-- `SBOptimalBinning.fit` without `user_splits` (binning_scenarios.py:469-645); `prebin` is the external pre-binning of
the clean records of all scenarios, one after the other (627-634), with the rounding of 666-667. -/
def fitScen (c : ScenCfg) (sc : SpecialCodes α) (prebin : List (RecM α Bool) → List α) (solver : SolverS)
    (scens : List (Scen α)) : Except String (FittedS α) :=
  fitFromS c sc solver scens {} (prebin ((scens.map fun s => (splitDataM sc none s).clean).flatten))

/-- First `SBOptimalBinning.fit` of an object with `user_splits` (binning_scenarios.py:526-542); `check_array` rejects an
empty list. -/
def fitUserS (c : ScenCfg) (sc : SpecialCodes α) (solver : SolverS) (userSplits : List α) (fixed : Option (List Bool))
    (scens : List (Scen α)) : Except String (FittedS α) :=
  if userSplits.length = 0 then .error "ValueError: Found array with 0 sample(s)"
  else
    match sortUserSplits { userSplits := userSplits, fixed := fixed } with
    | .error e => .error e
    | .ok p => fitFromS c sc solver scens { fixed := p.1.fixed, fixedPriv := fixed.getD [], splitsPriv := userSplits } p.2

/-- Entry-wise sum of columns (`self._n_event += s_n_event`, binning_scenarios.py:593-594, starting from the integer 0). -/
def sumCols (cols : List (List ℕ)) : List ℕ :=
  (List.range (cols.getD 0 []).length).map fun r => ((List.range cols.length).map fun i => cellM cols r i).sum

/-- The object as seen by `binning_table` and `transform` (binning_scenarios.py:461-467, 603-606): the optimal splits
and the summed counts. -/
def FittedS.merged (f : FittedS α) : Fitted α := ⟨f.status, f.splits, sumCols f.nonevent, sumCols f.event⟩

end OptBinning
