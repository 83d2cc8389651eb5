import Verif.Model.Fit
import Verif.Model.ContinuousSolver

/-!
# Model of the fit path of `ContinuousOptimalBinning` (`binning/continuous_binning.py`), of `continuous_bin_info`,
of `ContinuousBinningTable.build` (`binning/binning_statistics.py`) and of `transform_continuous_target`
(`binning/transformations.py`)

Targets and weights are exact rational numbers.  `none` in a table cell stands for NaN (or `None`, which the final
`astype(np.float64)` turns into NaN).  The `Std` column is represented by the number under its square root.
-/
namespace OptBinning
open Spec (weight)

variable {α : Type*} [LinearOrder α]

/-- preprocessing.py:188-191 `missing_mask`. -/
def RecC.isMissing (r : RecC α) : Bool := r.x.isNone || r.y.isNone
/-- preprocessing.py:216 `special_mask`. -/
def RecC.isSpecial (sc : SpecialCodes α) (r : RecC α) : Bool := sc.codes.contains r.x

/-- Result of `split_data`. -/
structure SplitC (α : Type*) where
  clean : List (RecC α)
  missing : List (RecC α)
  special : List (RecC α)

/-- preprocessing.py:176-249 `split_data` as called in continuous_binning.py:569-574 (no `fix_lb`, `fix_ub`,
`class_weight`), numerical variable; `outlier` is the external detector as a function of the clean records. -/
def splitDataC (sc : SpecialCodes α) (outlier : Option (List (RecC α) → List Bool)) (recs : List (RecC α)) : SplitC α :=
  let clean := recs.filter fun r => !r.isMissing && !r.isSpecial sc
  { clean := match outlier with
      | none => clean
      | some det => select clean ((det clean).map (!·))
    missing := recs.filter fun r => r.isMissing
    special := recs.filter fun r => r.isSpecial sc }

/-- One row of the binning table: Count, Sum, the square of Std, Min, Max, Zeros count. -/
structure RowC where
  cnt : ℕ
  sum : Option ℚ
  var : Option ℚ
  mn : Option ℚ
  mx : Option ℚ
  zeros : ℕ
deriving DecidableEq

/-- `sw * y` for one record (continuous_binning.py:690, 859, 921, binning_statistics.py:191, 205). -/
def RecC.wy (r : RecC α) : Option ℚ := r.y.map (r.w * ·)

/-- The values of an array none of which is NaN (a NaN makes `np.sum`, `np.std`, `np.min`, `np.max` NaN). -/
def allKnown (l : List (Option ℚ)) : Option (List ℚ) := if none ∈ l then none else some (l.filterMap id)

/-- `np.sum(sw)` with the later `astype(np.int64)`. -/
def truncWeightC (recs : List (RecC α)) : ℕ := ⌊(recs.map RecC.w).sum⌋₊

/-- `np.std(ys) ** 2`. -/
def npVar (ys : List ℚ) : ℚ := (ys.map fun y => (y - ys.sum / ys.length) ^ 2).sum / ys.length

/-- Statistics of a group of records computed at once: continuous_binning.py:688-696 (all clean records, no splits),
861-867 (missing), 874-879 (others), binning_statistics.py:188-198, 204-219 (special). The std of an empty group is NaN
or `None`. -/
def summaryC (recs : List (RecC α)) : RowC :=
  let ys := allKnown (recs.map RecC.wy)
  { cnt := truncWeightC recs
    sum := ys.map List.sum
    var := ys.bind fun l => if l = [] then none else some (npVar l)
    mn := ys.bind List.min?
    mx := ys.bind List.max?
    zeros := (recs.map RecC.wy).count (some 0) }

/-- Statistics of one pre-bin, also the accumulators of `continuous_bin_info`; `mn = none` is the initial `np.inf`,
`mx = none` the initial `-np.inf` of the accumulators. -/
structure CellC where
  cnt : ℕ
  s : ℚ
  ss : ℚ
  zeros : ℕ
  mn : Option ℚ
  mx : Option ℚ
deriving DecidableEq

/-- continuous_binning.py:918-928 for the records of one pre-bin (clean records: the target is known).  An empty pre-bin
has `min_t = -inf`, `max_t = inf`, which is never used because empty pre-bins are removed. -/
def cellOf (recs : List (RecC α)) : CellC :=
  let ys := recs.map fun r => r.w * r.y.getD 0
  { cnt := truncWeightC recs, s := ys.sum, ss := (ys.map (· ^ 2)).sum, zeros := ys.count 0, mn := ys.min?, mx := ys.max? }

/-- continuous_binning.py:902-928: all pre-bins. -/
def prebinCells (right : Bool) (nb : ℕ) (splits : List α) (recs : List (RecC α)) : List CellC :=
  (List.range nb).map fun i => cellOf (recs.filter fun r => digitize right splits r.x == i)

/-- continuous_binning.py:930 `mask_remove = (n_records == 0)`. -/
def emptyMask (cells : List CellC) : List Bool := cells.map fun c => c.cnt == 0

/-- Value returned by `_compute_prebins`, with the object state after the call. -/
structure PrebinsC (α : Type*) where
  st : PrebinState α
  splits : List α
  cells : List CellC

/-- continuous_binning.py:897-967 `_compute_prebins`.  Without splits it returns three values where every caller unpacks
eight (899-900, 963-964): a `ValueError`. -/
def computePrebinsC (catUser : Bool) (recs : List (RecC α)) (st : PrebinState α) (splits : List α) :
    Except String (PrebinsC α) :=
  if _hn : splits.length = 0 then .error "ValueError: not enough values to unpack (expected 8, got 3)"
  else
    let cells := prebinCells catUser (prebinNumber catUser splits) splits recs
    if _hany : (emptyMask cells).any id = true then
      let mask := maskSplits catUser (emptyMask cells)
      let st1 := { st with nRefinements := st.nRefinements + 1 }
      match st.fixed with
      | none => computePrebinsC catUser recs st1 (select splits (mask.map (!·)))
      | some fx =>
        if (fx.zipWith and mask).any id then .error "Fixed user_splits are removed"
        else
          computePrebinsC catUser recs
            { st1 with fixed := some (select fx (mask.map (!·))),
                       userSplits := select st.userSplits (mask.map (!·)) }
            (select splits (mask.map (!·)))
    else .ok ⟨st, splits, cells⟩
termination_by splits.length
decreasing_by
  all_goals
    have h := maskSplits_any (c := catUser) (rm := emptyMask cells) (n := splits.length) (by omega)
      (by simp [emptyMask, cells, prebinCells, prebinNumber]) _hany
    exact length_select_lt h.1 h.2

/-- What the external solver answers for given pre-bin statistics. -/
abbrev SolverC := List CellC → SolverAnswer

/-- Options of the optimisation (continuous_binning.py:759-824): the limits and the resolved trend may depend on the
pre-bin statistics. -/
structure SolverCfgC where
  opts : List CellC → Opts := fun _ => {}
  gamma : ℚ := 0
  test : Option (ℚ → ℝ → ℕ → ℚ → ℝ → ℕ → Bool) := none
  policy : Spec.Policy := .consecutive
  minDiff : ℚ := 0

/-- The arguments of `build_model` (continuous_binning.py:813-824). -/
def SolverCfgC.input (c : SolverCfgC) (cells : List CellC) : ContInput :=
  { records := cells.map CellC.cnt, sums := cells.map CellC.s, ssums := cells.map CellC.ss, test := c.test,
    policy := c.policy, minDiff := c.minDiff }

/-- The external CP solver respects the model built by `ContinuousBinningCP`. -/
def RespectsC (c : SolverCfgC) (solver : SolverC) : Prop :=
  ∀ cells, (solver cells).Valid (acceptsCont (c.opts cells) (c.input cells))
    (contObjective (c.opts cells) c.gamma (c.input cells))

/-- continuous_binning.py:741-840 `_fit_optimizer`. -/
def fitOptimizerC (catUser : Bool) (solver : SolverC) (splits : List α) (cells : List CellC) : OptimizerResult α :=
  if cells.length ≤ 1 then ⟨"OPTIMAL", splits, List.replicate splits.length false⟩
  else
    let r := solve cells.length (solver cells)
    ⟨r.1, select splits (if catUser then r.2 else r.2.dropLast), r.2⟩

/-- `min(accum_min_t, min_target[i])`, where `none` is infinite (binning_statistics.py:320, 334). -/
def optMin : Option ℚ → Option ℚ → Option ℚ
  | none, b => b
  | a, none => a
  | some a, some b => some (min a b)

/-- `max(accum_max_t, max_target[i])` (binning_statistics.py:321, 335). -/
def optMax : Option ℚ → Option ℚ → Option ℚ
  | none, b => b
  | a, none => a
  | some a, some b => some (max a b)

/-- The accumulators before a bin (binning_statistics.py:307-312, 323-328). -/
def CellC.zero : CellC := ⟨0, 0, 0, 0, none, none⟩

/-- binning_statistics.py:330-335. -/
def CellC.add (acc c : CellC) : CellC :=
  ⟨acc.cnt + c.cnt, acc.s + c.s, acc.ss + c.ss, acc.zeros + c.zeros, optMin acc.mn c.mn, optMax acc.mx c.mx⟩

/-- binning_statistics.py:288-289, 315-321: the row of a finished bin; `nstd` is the square root of
`ss / records - (s / records) ** 2`. -/
def CellC.row (c : CellC) : RowC :=
  ⟨c.cnt, some c.s, some (c.ss / (c.cnt : ℚ) - (c.s / (c.cnt : ℚ)) ^ 2), c.mn, c.mx, c.zeros⟩

/-- binning_statistics.py:313-335: the loop of `continuous_bin_info`. -/
def accumRows : List Bool → List CellC → CellC → List RowC
  | true :: sol, c :: cs, acc => (acc.add c).row :: accumRows sol cs CellC.zero
  | false :: sol, c :: cs, acc => accumRows sol cs (acc.add c)
  | _, _, _ => []

/-- binning_statistics.py:168-222 `target_info_special_continuous`.  With a dict of codes but no special record the lists
`std_special`, … are `None` and `None.append` fails. A dict group without weight gets std, min and max 0. -/
def specialRows (sc : SpecialCodes α) (special : List (RecC α)) : Except String (List RowC) :=
  match sc with
  | .dict gs =>
    if special = [] ∧ gs ≠ [] then .error "AttributeError: 'NoneType' object has no attribute 'append'"
    else .ok (gs.map fun g =>
      let rs := special.filter fun r => g.2.contains r.x
      if (rs.map RecC.w).sum = 0 then { summaryC rs with var := some 0, mn := some 0, mx := some 0 } else summaryC rs)
  | _ => .ok [summaryC special]

/-- The attributes `_std_missing`, `_min_target_missing`, `_max_target_missing` (continuous_binning.py:386-391, initially
`None`). -/
structure MissingStats where
  var : Option ℚ := none
  mn : Option ℚ := none
  mx : Option ℚ := none

/-- continuous_binning.py:858-867: the attributes are only assigned if there are missing records; `old` are the values of
a previous `fit` of the same object. -/
def missingRow (old : MissingStats) (missing : List (RecC α)) : RowC :=
  if missing = [] then { summaryC missing with var := old.var, mn := old.mn, mx := old.mx } else summaryC missing

/-- A fitted object: `splits`, `status` and the rows of the table. -/
structure FittedC (α : Type*) where
  status : String
  splits : List α
  rows : List RowC

/-- continuous_binning.py:653-722, 848-895: refinement (skipped without splits, 883-886), optimisation,
`continuous_bin_info` (binning_statistics.py:337-378).  Without splits the statistics are those of all clean records
(688-696); without clean records `np.min` of an empty array raises. -/
def fitCoreC (catUser : Bool) (solver : SolverC) (clean : List (RecC α)) (others : Option RowC) (special : List RowC)
    (missing : RowC) (st : PrebinState α) (splits : List α) : Except String (PrebinState α × FittedC α) := do
  let pb ← if splits.length = 0 then pure ⟨st, splits, []⟩ else computePrebinsC catUser clean st splits
  let r := fitOptimizerC catUser solver pb.splits pb.cells
  if clean = [] then throw "ValueError: zero-size array to reduction operation minimum which has no identity"
  let reg := accumRows r.solution pb.cells CellC.zero ++ (if r.solution.length = 0 then [summaryC clean] else [])
  pure (pb.st, ⟨r.status, r.splits, reg ++ others.toList ++ special ++ [missing]⟩)

/-- `ContinuousOptimalBinning.fit` of a numerical variable without user splits (continuous_binning.py:548-739);
`prebin` is the external pre-binning. Returns also the statistics kept for the next `fit` of the object. -/
def fitNumericalC (sc : SpecialCodes α) (outlier : Option (List (RecC α) → List Bool))
    (prebin : List (RecC α) → List α) (solver : SolverC) (old : MissingStats) (recs : List (RecC α)) :
    Except String (MissingStats × FittedC α) := do
  let s := splitDataC sc outlier recs
  match specialRows sc s.special with
  | .error e => throw e
  | .ok special =>
    let missing := missingRow old s.missing
    let r ← fitCoreC false solver s.clean none special missing {} (prebin s.clean)
    pure (⟨missing.var, missing.mn, missing.mx⟩, r.2)

/-- `ContinuousOptimalBinning.fit` of a numerical variable with user splits (continuous_binning.py:620-657).  With an
empty list `ssums` is unbound at line 679 (`UnboundLocalError`). -/
def fitUserC (sc : SpecialCodes α) (outlier : Option (List (RecC α) → List Bool)) (solver : SolverC)
    (old : MissingStats) (st : PrebinState α) (recs : List (RecC α)) :
    Except String (MissingStats × PrebinState α × FittedC α) := do
  if st.userSplits.length = 0 then throw "UnboundLocalError: ssums"
  let s := splitDataC sc outlier recs
  let (st1, sorted) ← sortUserSplits st
  match specialRows sc s.special with
  | .error e => throw e
  | .ok special =>
    let missing := missingRow old s.missing
    let r ← fitCoreC false solver s.clean none special missing st1 sorted
    pure (⟨missing.var, missing.mn, missing.mx⟩, r.1, r.2)

/-! ### the table -/

/-- `np.nansum`. -/
def nansum (l : List (Option ℚ)) : ℚ := (l.filterMap id).sum

/-- binning_statistics.py:1629. -/
def tRecords (rows : List RowC) : ℕ := (rows.map RowC.cnt).sum
/-- binning_statistics.py:1630. -/
def tSum (rows : List RowC) : ℚ := nansum (rows.map RowC.sum)
/-- binning_statistics.py:1631 `t_mean = t_sum / t_n_records`. -/
def tMeanC (rows : List RowC) : ℚ := tSum rows / ((tRecords rows : ℕ) : ℚ)
/-- binning_statistics.py:1632 "Count (%)". -/
def RowC.share (rows : List RowC) (r : RowC) : ℚ := (r.cnt : ℚ) / ((tRecords rows : ℕ) : ℚ)
/-- binning_statistics.py:1634-1636, transformations.py:433-435: "Mean", 0 for a row without records. -/
def RowC.mean (r : RowC) : Option ℚ := if 0 < r.cnt then r.sum.map (· / (r.cnt : ℚ)) else some 0
/-- binning_statistics.py:1639 "WoE". -/
def RowC.woe (rows : List RowC) (r : RowC) : Option ℚ := r.mean.map (· - tMeanC rows)
/-- binning_statistics.py:1640 "IV". -/
def RowC.iv (rows : List RowC) (r : RowC) : Option ℚ := (r.woe rows).map fun w => |w| * r.share rows
/-- `np.sum`: NaN if one summand is NaN. -/
def sumNaN (l : List (Option ℚ)) : Option ℚ := (allKnown l).map List.sum
/-- binning_statistics.py:1641 `t_iv`. -/
def tIv (rows : List RowC) : Option ℚ := sumNaN (rows.map fun r => r.iv rows)
/-- binning_statistics.py:1642 `t_woe`. -/
def tWoe (rows : List RowC) : Option ℚ := sumNaN (rows.map fun r => (r.woe rows).map fun w => |w|)
/-- binning_statistics.py:1689 `np.nanmin(min_target)`. -/
def tMin (rows : List RowC) : Option ℚ := ((rows.map RowC.mn).filterMap id).min?
/-- binning_statistics.py:1690 `np.nanmax(max_target)`. -/
def tMax (rows : List RowC) : Option ℚ := ((rows.map RowC.mx).filterMap id).max?
/-- binning_statistics.py:1691. -/
def tZeros (rows : List RowC) : ℕ := (rows.map RowC.zeros).sum

/-- binning_statistics.py:2015-2018 `rwoe`. -/
def relWoe (rows : List RowC) : Option ℚ :=
  if tMeanC rows = 0 then tWoe rows else (tWoe rows).map (· / |tMeanC rows|)

/-- metrics.py:354-358: the first factor of `continuous_binning_quality_score`. -/
def score1C (rwoe : ℚ) : ℚ := if rwoe = 0 then 0 else max (1 - 1 / rwoe) 0

/-! ### transform -/

/-- transformations.py:205-210, 220-225 with `metric == "mean"`. -/
def MetricOpt.forMean : MetricOpt → Option (Option ℚ)
  | .empirical => none
  | .int k => some (some (k : ℚ))
  | .float q => some (some q)

/-- `"empirical" not in (metric_special, metric_missing)` (transformations.py:427-429). -/
def usedRows (nb : ℕ) (ms mm : MetricOpt) (rows : List RowC) : List RowC :=
  match ms, mm with
  | .empirical, _ => rows
  | _, .empirical => rows
  | _, _ => rows.take nb

/-- transformations.py:438-439: `cat_unknown` if it is `None`. -/
def unknownMean (rows : List RowC) : Option ℚ :=
  (sumNaN (rows.map RowC.sum)).map (· / ((tRecords rows : ℕ) : ℚ))

/-- `transform(x, metric="mean", metric_special, metric_missing)` of a numerical variable, `cat_unknown=None`
(transformations.py:388-452). -/
def transformMean (f : FittedC α) (sc : SpecialCodes α) (ms mm : MetricOpt) (x : List (Option α)) : List (Option ℚ) :=
  let rows := usedRows (f.splits.length + 1) ms mm f.rows
  x.map (transformOne f.splits sc (fun i => ((rows[i]?).bind RowC.mean))
    (unknownMean rows) ms.forMean mm.forMean)

/-- `transform(x, metric="indices", …)`. -/
def transformIndicesC (f : FittedC α) (sc : SpecialCodes α) (ms mm : MetricOpt) (x : List (Option α)) : List ℤ :=
  x.map (transformOne f.splits sc (fun i => (i : ℤ)) (-1) ms.forIndices mm.forIndices)

end OptBinning
