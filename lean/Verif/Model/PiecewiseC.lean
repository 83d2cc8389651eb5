import Verif.Model.Piecewise
import Verif.Model.UserParams

/-!
# Model of `ContinuousOptimalPWBinning` (`binning/piecewise/continuous_binning.py`) and of its table
(`PWContinuousBinningTable`, `binning/piecewise/binning_statistics.py:393-691`)

Values, coefficients and results live in a linearly ordered field `F`, training targets are rational numbers.  There are no
sample weights in this class; the records of the model carry weight 1.  The piecewise regression is external.
-/
namespace OptBinning

variable {F : Type*} [Field F] [LinearOrder F]

/-- The parameters of `ContinuousOptimalPWBinning` that are modelled; `prebin`, `solver` and `regress` are external as in `PWCfg`. -/
structure PWCfgC (F : Type*) where
  sc : SpecialCodes F := .none
  outlier : Option (List (RecC F) → List Bool) := none
  userSplits : Option (List F) := none
  fixed : Option FlagArray := none
  prebin : List (RecC F) → List F
  solver : SolverC
  regress : List (RecC F) → List F → Option F → Option F → List (List F)

/-- piecewise/base.py:363-379, 400-401: a new `ContinuousOptimalBinning` gets the clean records, the outlier detector (a second time), the user
splits and their flags, and no special codes.  Its own `_check_parameters` (continuous_binning.py:555) tests the flags. -/
def pwInnerC (c : PWCfgC F) (clean : List (RecC F)) : Except String (MissingStats × FittedC F) :=
  match c.userSplits with
  | none => fitNumericalC .none c.outlier c.prebin c.solver {} clean
  | some us =>
    match checkUserSplits ⟨us, c.fixed⟩ with
    | .error e => .error e
    | .ok _ =>
      match fitUserC .none c.outlier c.solver {} { userSplits := us, fixed := c.fixed.map FlagArray.values } clean with
      | .error e => .error e
      | .ok r => .ok (r.1, r.2.2)

/-- A fitted `ContinuousOptimalPWBinning`. -/
structure PWFittedC (F : Type*) where
  splits : List F
  coef : List (List F)
  rows : List RowC
  special : List RowC
  missing : RowC

/-- piecewise/continuous_binning.py:289-418 `_fit`: the inner `ContinuousOptimalBinning` (`pwInnerC`), a new object each time; then the special and
missing statistics (353-364) replace the last two rows of its table (366-386).  `old` are the values of the attributes
`_std_missing`, `_min_target_missing`, `_max_target_missing` before the call. -/
def pwFitC (c : PWCfgC F) (lb ub : Option F) (old : MissingStats) (recs : List (RecC F)) :
    Except String (MissingStats × PWFittedC F) := do
  let s := splitDataC c.sc c.outlier recs
  let g ← pwInnerC c s.clean
  match specialRows c.sc s.special with
  | .error e => throw e
  | .ok special =>
    let missing := missingRow old s.missing
    pure (⟨missing.var, missing.mn, missing.mx⟩,
      { splits := g.2.splits, coef := c.regress s.clean g.2.splits lb ub,
        rows := g.2.rows.take (g.2.rows.length - 2) ++ special ++ [missing], special := special, missing := missing })

/-- A result of `transform`; `none` is NaN (mean of a group with an unknown target). -/
structure NVal (F : Type*) where
  val : Option F
deriving DecidableEq

instance : Zero (NVal F) := ⟨⟨some 0⟩⟩

/-- A number. -/
def NVal.num (v : F) : NVal F := ⟨some v⟩

/-- piecewise/transformations.py:163-184: the empirical mean of a row (0 without records). -/
def NVal.ofRow (r : RowC) : NVal F := ⟨r.mean.map fun q => ((q : ℚ) : F)⟩

/-- `transform_continuous_target` (piecewise/transformations.py:138-191) as called by `ContinuousOptimalPWBinning.transform`
(continuous_binning.py:248-287), on one value. -/
def PWFittedC.value (f : PWFittedC F) (sc : SpecialCodes F) (ms mm : PWOpt F) (lb ub : Option F) (x : Option F) : NVal F :=
  pwApply sc (fun v => .num (pwClean f.splits f.coef lb ub v))
    (fun i => match f.special[i]? with | some r => .ofRow r | none => 0) (.ofRow f.missing)
    (ms.value.map .num) (mm.value.map .num) x

/-- `ContinuousOptimalPWBinning.transform`: the check of the options (piecewise/transformations.py:143), then every value. -/
def PWFittedC.transform (f : PWFittedC F) (sc : SpecialCodes F) (ms mm : PWOpt F) (lb ub : Option F) (x : List (Option F)) :
    Except String (List (NVal F)) :=
  if ms.valid = false then .error "ValueError: metric_special"
  else if mm.valid = false then .error "ValueError: metric_missing"
  else .ok (x.map (f.value sc ms mm lb ub))

/-- A Python bool used as a number. -/
def boolBound (b : Bool) : F := if b then 1 else 0

/-- `ContinuousOptimalPWBinning.fit_transform` (piecewise/continuous_binning.py:208-246): `self.fit(x, y, check_input)` binds
`check_input` to the third parameter of `fit`, which is `lb`; `ub` is not passed. -/
def pwFitTransformC (c : PWCfgC F) (old : MissingStats) (recs : List (RecC F)) (ms mm : PWOpt F) (lb ub : Option F)
    (checkInput : Bool) : Except String (List (NVal F)) := do
  let r ← pwFitC c (some (boolBound checkInput)) none old recs
  r.2.transform c.sc ms mm lb ub (recs.map RecC.x)

/-! ## the binning table -/

/-- piecewise/binning_statistics.py:524-533: column `c{i}`. -/
def PWFittedC.coefColumn (f : PWFittedC F) (sc : SpecialCodes F) (i : ℕ) : List (NVal F) :=
  let means := f.rows.map NVal.ofRow
  f.coef.map (fun c => .num (c.getD i 0)) ++
    (if i = 0 then means.drop (means.length - (sc.count + 1)) else List.replicate (sc.count + 1) 0)

/-- piecewise/binning_statistics.py:536 `np.nanmin(self.min_target[:-n_bins_extra])`. -/
def PWFittedC.totalMin (f : PWFittedC F) (sc : SpecialCodes F) : Option ℚ := tMin (f.rows.take (f.rows.length - (sc.count + 1)))
/-- piecewise/binning_statistics.py:537. -/
def PWFittedC.totalMax (f : PWFittedC F) (sc : SpecialCodes F) : Option ℚ := tMax (f.rows.take (f.rows.length - (sc.count + 1)))

end OptBinning
