import Verif.Model.Fit
import Verif.Model.MulticlassSolver
import Verif.Spec.Multiclass

/-!
# Model of the fit path of `MulticlassOptimalBinning` (`binning/multiclass_binning.py`), of `multiclass_bin_info` and
`MulticlassBinningTable.build` (`binning/binning_statistics.py`) and of `transform_multiclass_target`
(`binning/transformations.py`)

Matrices indexed by (bin, class) are lists of columns, one per class.  Class labels live in an arbitrary linear order
(the order of `np.unique`).
-/
namespace OptBinning

variable {α κ : Type*} [LinearOrder α] [LinearOrder κ]

/-- preprocessing.py:188-191 `missing_mask`. -/
def RecM.isMissing (r : RecM α κ) : Bool := r.x.isNone || r.y.isNone
/-- preprocessing.py:216 `special_mask`. -/
def RecM.isSpecial (sc : SpecialCodes α) (r : RecM α κ) : Bool := sc.codes.contains r.x

/-- Result of `split_data`. -/
structure SplitM (α κ : Type*) where
  clean : List (RecM α κ)
  missing : List (RecM α κ)
  special : List (RecM α κ)

/-- preprocessing.py:176-249 `split_data` as called in multiclass_binning.py:514-518; `outlier` is the external detector
as a function of the clean records. -/
def splitDataM (sc : SpecialCodes α) (outlier : Option (List (RecM α κ) → List Bool)) (recs : List (RecM α κ)) :
    SplitM α κ :=
  let clean := recs.filter fun r => !r.isMissing && !r.isSpecial sc
  { clean := match outlier with
      | none => clean
      | some det => select clean ((det clean).map (!·))
    missing := recs.filter fun r => r.isMissing
    special := recs.filter fun r => r.isSpecial sc }

/-- multiclass_binning.py:641 `self._classes = np.unique(y)`: the distinct labels in increasing order (the clean records
have a label). -/
def classesM (recs : List (RecM α κ)) : List κ := (recs.filterMap RecM.y).dedup.insertionSort (· ≤ ·)

/-- binning_statistics.py:112-120 `target_info(y, cl)[0]`, multiclass_binning.py:799, 805: number of records of the class. -/
def countClass (cl : κ) (recs : List (RecM α κ)) : ℕ := recs.countP fun r => r.y == some cl
/-- multiclass_binning.py:800, 804: number of records not of the class. -/
def countRest (cl : κ) (recs : List (RecM α κ)) : ℕ := recs.countP fun r => !(r.y == some cl)

/-- The records of pre-bin `i` (multiclass_binning.py:791, 803). -/
def inPrebin (splits : List α) (recs : List (RecM α κ)) (i : ℕ) : List (RecM α κ) :=
  recs.filter fun r => digitize false splits r.x == i

/-- multiclass_binning.py:802-805: `n_event[:, idx]`. -/
def prebinEvent (splits : List α) (recs : List (RecM α κ)) (cl : κ) : List ℕ :=
  (List.range (splits.length + 1)).map fun i => countClass cl (inPrebin splits recs i)
/-- multiclass_binning.py:802-805: `n_nonevent[:, idx]`. -/
def prebinRest (splits : List α) (recs : List (RecM α κ)) (cl : κ) : List ℕ :=
  (List.range (splits.length + 1)).map fun i => countRest cl (inPrebin splits recs i)

/-- multiclass_binning.py:796, 807 `mask_remove`: some class has no event or no non-event in the pre-bin. -/
def pureMaskM (nb : ℕ) (nev ev : List (List ℕ)) : List Bool :=
  (List.range nb).map fun i => (nev.zip ev).any fun p => p.1.getD i 0 == 0 || p.2.getD i 0 == 0

/-- Value returned by `_compute_prebins`, with the object state after the call. `nb` is `len(n_nonevent)`. -/
structure PrebinsM (α : Type*) where
  st : PrebinState α
  splits : List α
  nb : ℕ
  nonevent : List (List ℕ)
  event : List (List ℕ)

/-- multiclass_binning.py:785-839 `_compute_prebins`. -/
def computePrebinsM (classes : List κ) (recs : List (RecM α κ)) (st : PrebinState α) (splits : List α) :
    Except String (PrebinsM α) :=
  if _hn : splits.length = 0 then .ok ⟨st, splits, 0, [], []⟩
  else
    let nev := classes.map (prebinRest splits recs)
    let ev := classes.map (prebinEvent splits recs)
    if _hany : (pureMaskM (splits.length + 1) nev ev).any id = true then
      let mask := maskSplits false (pureMaskM (splits.length + 1) nev ev)
      let st1 := { st with nRefinements := st.nRefinements + 1 }
      match st.fixed with
      | none => computePrebinsM classes recs st1 (select splits (mask.map (!·)))
      | some fx =>
        if (fx.zipWith and mask).any id then .error "Fixed user_splits are removed"
        else
          computePrebinsM classes recs
            { st1 with fixed := some (select fx (mask.map (!·))),
                       userSplits := select st.userSplits (mask.map (!·)) }
            (select splits (mask.map (!·)))
    else .ok ⟨st, splits, splits.length + 1, nev, ev⟩
termination_by splits.length
decreasing_by
  all_goals
    have h := maskSplits_any (c := false) (rm := pureMaskM (splits.length + 1) nev ev) (n := splits.length) (by omega)
      (by simp [pureMaskM]) _hany
    exact length_select_lt h.1 h.2

/-- What the external solver answers for given pre-bin counts (number of pre-bins, columns per class). -/
abbrev SolverM := ℕ → List (List ℕ) → List (List ℕ) → SolverAnswer

/-- Options of the optimisation (multiclass_binning.py:684-761): the resolved trends may depend on the counts. -/
structure SolverCfgM where
  opts : ℕ → List (List ℕ) → List (List ℕ) → MultiOpts
  test : Option (ℕ → ℕ → ℕ → ℕ → Bool) := none
  policy : Spec.Policy := .consecutive
  minDiff : ℚ := 0

/-- The arguments of `build_model` (multiclass_binning.py:765). -/
def SolverCfgM.input (c : SolverCfgM) (n : ℕ) (nev ev : List (List ℕ)) : MultiInput :=
  { n := n, nonevent := nev, event := ev, test := c.test, policy := c.policy, minDiff := c.minDiff }

/-- The external solver (`solver="cp"` or `solver="mip"`) respects the model built for it. -/
def RespectsM (c : SolverCfgM) (solver : SolverM) : Prop :=
  (∀ n nev ev, (solver n nev ev).Valid (acceptsMultiCP (c.opts n nev ev) (c.input n nev ev))
    (objectiveMultiCP (c.opts n nev ev) (c.input n nev ev))) ∨
  (∀ n nev ev, (solver n nev ev).Valid (acceptsMultiMIP (c.opts n nev ev) (c.input n nev ev))
    (objectiveMultiMIP (c.opts n nev ev) (c.input n nev ev)))

/-- multiclass_binning.py:666-783 `_fit_optimizer`. -/
def fitOptimizerM (solver : SolverM) (pb : PrebinsM α) : OptimizerResult α :=
  if pb.nb = 0 then ⟨"OPTIMAL", pb.splits, List.replicate pb.splits.length false⟩
  else
    let r := solve pb.nb (solver pb.nb pb.nonevent pb.event)
    ⟨r.1, select pb.splits r.2.dropLast, r.2⟩

/-- binning_statistics.py:153-165 `target_info_special_multiclass` for one class. -/
def specialCountsM (sc : SpecialCodes α) (special : List (RecM α κ)) (cl : κ) : List ℕ :=
  match sc with
  | .dict gs => gs.map fun g => countClass cl (special.filter fun r => g.2.contains r.x)
  | _ => [countClass cl special]

/-- A fitted object: `status`, `splits`, `classes` and the column "Event_c" of the table for every class. -/
structure FittedM (α κ : Type*) where
  status : String
  splits : List α
  classes : List κ
  event : List (List ℕ)

/-- multiclass_binning.py:575-617, 636-664: `_prebinning_refinement`, `_fit_optimizer`, `multiclass_bin_info`
(binning_statistics.py:264-285, the vectors of the loop are split into their components: the loop for one class is that of
`bin_info`). -/
def fitFromM (sc : SpecialCodes α) (solver : SolverM) (s : SplitM α κ) (st : PrebinState α) (splits : List α) :
    Except String (PrebinState α × FittedM α κ) :=
  let classes := classesM s.clean
  if 100 < classes.length then .error "ValueError: Maximum number of classes exceeded"
  else
    match computePrebinsM classes s.clean st splits with
    | .error e => .error e
    | .ok pb =>
      let r := fitOptimizerM solver pb
      let counts (i : ℕ) (cl : κ) : List ℕ :=
        if pb.splits.length = 0 then [countClass cl s.clean] else pb.event.getD i []
      let cols := classes.zipIdx.map fun p =>
        binInfo r.solution (counts p.2 p.1) none (specialCountsM sc s.special p.1) (countClass p.1 s.missing)
      .ok (pb.st, ⟨r.status, r.splits, classes, cols⟩)

/-- `MulticlassOptimalBinning.fit` without `user_splits` (multiclass_binning.py:493-634); `prebin` is the external
pre-binning with the rounding to `split_digits` (658-659). -/
def fitNumericalM (sc : SpecialCodes α) (outlier : Option (List (RecM α κ) → List Bool))
    (prebin : List (RecM α κ) → List α) (solver : SolverM) (recs : List (RecM α κ)) : Except String (FittedM α κ) :=
  let s := splitDataM sc outlier recs
  (fitFromM sc solver s {} (prebin s.clean)).map Prod.snd

/-- `MulticlassOptimalBinning.fit` with `user_splits` (multiclass_binning.py:555-577); `check_array` rejects an empty
list (562-563). -/
def fitUserM (sc : SpecialCodes α) (outlier : Option (List (RecM α κ) → List Bool)) (solver : SolverM)
    (st : PrebinState α) (recs : List (RecM α κ)) : Except String (PrebinState α × FittedM α κ) :=
  if st.userSplits.length = 0 then .error "ValueError: Found array with 0 sample(s)"
  else
    match sortUserSplits st with
    | .error e => .error e
    | .ok p => fitFromM sc solver (splitDataM sc outlier recs) p.1 p.2

/-! ### the table -/

/-- `n_event[r, i]`. -/
def cellM (cols : List (List ℕ)) (r i : ℕ) : ℕ := (cols.getD i []).getD r 0
/-- binning_statistics.py:1165 `n_records[r]`, column "Count". -/
def rowRecords (cols : List (List ℕ)) (r : ℕ) : ℕ := ((List.range cols.length).map fun i => cellM cols r i).sum
/-- Number of rows of the table (without totals). -/
def rowsM (cols : List (List ℕ)) : ℕ := (cols.getD 0 []).length
/-- binning_statistics.py:1166 `t_n_records`. -/
def totalRecords (cols : List (List ℕ)) : ℕ := ((List.range (rowsM cols)).map (rowRecords cols)).sum
/-- binning_statistics.py:1167 "Count (%)". -/
def shareM (cols : List (List ℕ)) (r : ℕ) : ℚ := (rowRecords cols r : ℚ) / (totalRecords cols : ℚ)
/-- binning_statistics.py:1169-1174 "Event_rate_c". -/
def rateM (cols : List (List ℕ)) (r i : ℕ) : ℚ :=
  if 0 < cellM cols r i then (cellM cols r i : ℚ) / (rowRecords cols r : ℚ) else 0
/-- binning_statistics.py:1218 `t_n_events`, transformations.py:357 `t_n_event`. -/
def totalEvent (cols : List (List ℕ)) (i : ℕ) : ℕ := (cols.getD i []).sum
/-- binning_statistics.py:1219 the event rates of the totals row. -/
def totalRate (cols : List (List ℕ)) (i : ℕ) : ℚ := (totalEvent cols i : ℚ) / (totalRecords cols : ℚ)

/-! ### transform -/

/-- transformations.py:355 `n_nonevent[r, i]` (an `int64` difference, never negative). -/
def restM (cols : List (List ℕ)) (r i : ℕ) : ℕ := rowRecords cols r - cellM cols r i
/-- transformations.py:356 `t_n_nonevent[i]`. -/
def totalRest (cols : List (List ℕ)) (i : ℕ) : ℕ := ((List.range (rowsM cols)).map fun r => restM cols r i).sum

/-- transformations.py:19-38 `transform_event_rate_to_woe`. -/
noncomputable def rateToWoe (rate : ℝ) (nonevent event : ℕ) : ℝ := Real.log ((1 / rate - 1) * (event : ℝ) / (nonevent : ℝ))

/-- transformations.py:359-367 `woe[r, i]`. -/
noncomputable def woeM (cols : List (List ℕ)) (r i : ℕ) : ℝ :=
  if 0 < cellM cols r i ∧ 0 < restM cols r i then
    rateToWoe ((cellM cols r i : ℝ) / (rowRecords cols r : ℝ)) (totalRest cols i) (totalEvent cols i)
  else 0

/-- transformations.py:369-370: `woe.mean(axis=1)[r]`. -/
noncomputable def meanWoeM (cols : List (List ℕ)) (r : ℕ) : ℝ :=
  ((List.range cols.length).map fun i => woeM cols r i).sum / (cols.length : ℝ)

/-- transformations.py:371-372: `np.average(woe, weights=t_n_event, axis=1)[r]`. -/
noncomputable def weightedMeanWoeM (cols : List (List ℕ)) (r : ℕ) : ℝ :=
  ((List.range cols.length).map fun i => (totalEvent cols i : ℝ) * woeM cols r i).sum /
    ((List.range cols.length).map fun i => (totalEvent cols i : ℝ)).sum

/-- transformations.py:205-210, 220-225 for a numerical metric. -/
noncomputable def MetricOpt.forWoe : MetricOpt → Option ℝ
  | .empirical => none
  | .int k => some k
  | .float q => some q

/-- `transform(x, metric="mean_woe", metric_special, metric_missing)` (transformations.py:319-385); the initial value is
`np.zeros` (374). -/
noncomputable def transformMeanWoe (f : FittedM α κ) (sc : SpecialCodes α) (ms mm : MetricOpt) (x : List (Option α)) :
    List ℝ :=
  x.map (transformOne f.splits sc (meanWoeM f.event) 0 ms.forWoe mm.forWoe)

/-- `transform(x, metric="weighted_mean_woe", …)`. -/
noncomputable def transformWeightedWoe (f : FittedM α κ) (sc : SpecialCodes α) (ms mm : MetricOpt) (x : List (Option α)) :
    List ℝ :=
  x.map (transformOne f.splits sc (weightedMeanWoeM f.event) 0 ms.forWoe mm.forWoe)

/-- `transform(x, metric="indices", …)` (transformations.py:376-378, 152-163). -/
def transformIndicesM (f : FittedM α κ) (sc : SpecialCodes α) (ms mm : MetricOpt) (x : List (Option α)) : List ℤ :=
  x.map (transformOne f.splits sc (fun i => (i : ℤ)) (-1) ms.forIndices mm.forIndices)

/-! ### json -/

/-- The attributes of the object read by `transform` and `binning_table` (multiclass_binning.py:350-375, 487-491). -/
structure ObjM (α κ : Type*) where
  name : String
  special : SpecialCodes α
  isFitted : Bool := false
  splits : Option (List α) := none
  event : Option (List (List ℕ)) := none
  table : Option (String × SpecialCodes α × List α × List (List ℕ) × List κ) := none

/-- multiclass_binning.py:596-632: what `fit` stores. -/
def ObjM.store (o : ObjM α κ) (f : FittedM α κ) : ObjM α κ :=
  { o with isFitted := true, splits := some f.splits, event := some f.event,
           table := some (o.name, o.special, f.splits, f.event, f.classes) }

/-- multiclass_binning.py:878-901 `to_json`: the file contents. -/
def ObjM.toJson (o : ObjM α κ) : Except String (String × SpecialCodes α × List α × List (List ℕ) × List κ) :=
  if o.isFitted then
    match o.table with
    | some t => .ok t
    | none => .error "AttributeError"
  else .error "NotFittedError"

/-- multiclass_binning.py:903-924 `read_json`. -/
def ObjM.readJson (o : ObjM α κ) (file : String × SpecialCodes α × List α × List (List ℕ) × List κ) : ObjM α κ :=
  { o with isFitted := true, table := some file }

/-- multiclass_binning.py:485-491 `transform(x, metric="indices")`; `len(None)` is a `TypeError`. -/
def ObjM.transform (o : ObjM α κ) (ms mm : MetricOpt) (x : List (Option α)) : Except String (List ℤ) :=
  if o.isFitted then
    match o.splits with
    | none => .error "TypeError"
    | some s => .ok (x.map (transformOne s o.special (fun i => (i : ℤ)) (-1) ms.forIndices mm.forIndices))
  else .error "NotFittedError"

end OptBinning
