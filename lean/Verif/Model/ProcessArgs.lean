import Verif.Model.Process
import Verif.Model.Params
import Verif.Model.ParamsC
import Verif.Model.ParamsM

/-!
# Model of the constructor arguments of `BinningProcess` and of the options they give to every variable
(binning_process.py:75-128, 201-308, 1053-1136)

As in `Model/Params.lean`: floats are rationals with NaN and infinities; checks of Python types are not modelled; all variables
are numerical (`categorical_variables=None`), `user_splits` is not given.  An entry of `binning_fit_params` is a list of
assignments of well-typed values; special codes, outlier options and prebinning method of a variable are external (`VarEnv`).
-/
namespace OptBinning

/-- Constructor arguments of `BinningProcess` checked by `_check_parameters` (binning_process.py:552-559). -/
structure ParamsP where
  maxPrebins : ℤ := 20
  minPrebinSize : XQ := .num (1 / 20)
  minBins : Option ℤ := none
  maxBins : Option ℤ := none
  minBinSize : Option XQ := none
  maxBinSize : Option XQ := none
  maxPvalue : Option XQ := none
  policy : Spec.Policy := .consecutive
  splitDigits : Option ℤ := none

/-- `_check_parameters` (binning_process.py:211-256, 288-292). -/
def checkParametersP (p : ParamsP) : Except String Unit :=
  if p.maxPrebins ≤ 1 then .error "ValueError"
  else if !(p.minPrebinSize.above 0 && p.minPrebinSize.atMost (1 / 2)) then .error "ValueError"
  else if badCount p.minBins then .error "ValueError"
  else if badCount p.maxBins then .error "ValueError"
  else if badOrder p.minBins p.maxBins then .error "ValueError"
  else if p.minBinSize.any fun v => !(v.above 0 && v.atMost (1 / 2)) then .error "ValueError"
  else if p.maxBinSize.any fun v => !(v.above 0 && v.atMost 1) then .error "ValueError"
  else if p.minBinSize.any fun v => p.maxBinSize.any fun w => v.greater w then .error "ValueError"
  else if p.maxPvalue.any fun v => !(v.above 0 && v.atMost 1) then .error "ValueError"
  else if p.splitDigits.any fun d => !(decide (0 ≤ d) && decide (d ≤ 8)) then .error "ValueError"
  else .ok ()

/-- One item of the dictionary of a variable in `binning_fit_params`: an option of the binning classes with its value, or a
name which no class knows. -/
inductive OptSet
  | divergence (v : Divergence) | maxPrebins (v : ℤ) | minPrebinSize (v : XQ) | minBins (v : Option ℤ) | maxBins (v : Option ℤ)
  | minBinSize (v : Option XQ) | maxBinSize (v : Option XQ) | minNonevent (v : Option ℤ) | maxNonevent (v : Option ℤ)
  | minEvent (v : Option ℤ) | maxEvent (v : Option ℤ) | trend (v : TrendArg) | trends (v : List TrendArg)
  | minRateDiff (v : XQ) | minMeanDiff (v : XQ) | maxPvalue (v : Option XQ) | policy (v : Spec.Policy) | gamma (v : XQ)
  | splitDigits (v : Option ℤ) | timeLimit (v : XQ) | unknown (name : String)

/-- `setattr` for one parameter of `OptimalBinning` in `set_params` (binning_process.py:121).  A list as `monotonic_trend` is
refused by the checks of `fit` (binning.py:147-155) with the same exception. -/
def Params.assign (p : Params) : OptSet → Except String Params
  | .divergence v => .ok { p with divergence := v }
  | .maxPrebins v => .ok { p with maxPrebins := v }
  | .minPrebinSize v => .ok { p with minPrebinSize := v }
  | .minBins v => .ok { p with minBins := v }
  | .maxBins v => .ok { p with maxBins := v }
  | .minBinSize v => .ok { p with minBinSize := v }
  | .maxBinSize v => .ok { p with maxBinSize := v }
  | .minNonevent v => .ok { p with minNonevent := v }
  | .maxNonevent v => .ok { p with maxNonevent := v }
  | .minEvent v => .ok { p with minEvent := v }
  | .maxEvent v => .ok { p with maxEvent := v }
  | .trend v => .ok { p with trend := v }
  | .trends _ => .error "ValueError"
  | .minRateDiff v => .ok { p with minRateDiff := v }
  | .minMeanDiff _ => .error "ValueError"
  | .maxPvalue v => .ok { p with maxPvalue := v }
  | .policy v => .ok { p with policy := v }
  | .gamma v => .ok { p with gamma := v }
  | .splitDigits v => .ok { p with splitDigits := v }
  | .timeLimit v => .ok { p with timeLimit := v }
  | .unknown _ => .error "ValueError"

/-- `setattr` for one parameter of `ContinuousOptimalBinning` in `set_params` (binning_process.py:121; the parameters are those
of continuous_binning.py:324-333). -/
def ParamsC.assign (p : ParamsC) : OptSet → Except String ParamsC
  | .maxPrebins v => .ok { p with maxPrebins := v }
  | .minPrebinSize v => .ok { p with minPrebinSize := v }
  | .minBins v => .ok { p with minBins := v }
  | .maxBins v => .ok { p with maxBins := v }
  | .minBinSize v => .ok { p with minBinSize := v }
  | .maxBinSize v => .ok { p with maxBinSize := v }
  | .trend v => .ok { p with trend := v }
  | .minMeanDiff v => .ok { p with minMeanDiff := v }
  | .maxPvalue v => .ok { p with maxPvalue := v }
  | .policy v => .ok { p with policy := v }
  | .gamma v => .ok { p with gamma := v }
  | .splitDigits v => .ok { p with splitDigits := v }
  | .timeLimit v => .ok { p with timeLimit := v }
  | _ => .error "ValueError"

/-- `setattr` for one parameter of `MulticlassOptimalBinning` in `set_params` (binning_process.py:121; the parameters are those
of multiclass_binning.py:325-333). -/
def ParamsM.assign (p : ParamsM) : OptSet → Except String ParamsM
  | .maxPrebins v => .ok { p with maxPrebins := v }
  | .minPrebinSize v => .ok { p with minPrebinSize := v }
  | .minBins v => .ok { p with minBins := v }
  | .maxBins v => .ok { p with maxBins := v }
  | .minBinSize v => .ok { p with minBinSize := v }
  | .maxBinSize v => .ok { p with maxBinSize := v }
  | .trend .none => .ok { p with trend := .none }
  | .trend v => .ok { p with trend := .str v }
  | .trends v => .ok { p with trend := .list v }
  | .minRateDiff v => .ok { p with minRateDiff := v }
  | .maxPvalue v => .ok { p with maxPvalue := v }
  | .policy v => .ok { p with policy := v }
  | .splitDigits v => .ok { p with splitDigits := v }
  | .timeLimit v => .ok { p with timeLimit := v }
  | _ => .error "ValueError"

/-- binning_process.py:91-98: the object of a variable with binary target, before `set_params`. -/
def ParamsP.binary (P : ParamsP) : Params :=
  { maxPrebins := P.maxPrebins, minPrebinSize := P.minPrebinSize, minBins := P.minBins, maxBins := P.maxBins,
    minBinSize := P.minBinSize, maxPvalue := P.maxPvalue, policy := P.policy, splitDigits := P.splitDigits }

/-- binning_process.py:100-107: the object of a variable with continuous target, before `set_params`. -/
def ParamsP.continuous (P : ParamsP) : ParamsC :=
  { maxPrebins := P.maxPrebins, minPrebinSize := P.minPrebinSize, minBins := P.minBins, maxBins := P.maxBins,
    minBinSize := P.minBinSize, maxPvalue := P.maxPvalue, policy := P.policy, splitDigits := P.splitDigits }

/-- binning_process.py:112-119: the object of a variable with multiclass target, before `set_params`. -/
def ParamsP.multiclass (P : ParamsP) : ParamsM :=
  { maxPrebins := P.maxPrebins, minPrebinSize := P.minPrebinSize, minBins := P.minBins, maxBins := P.maxBins,
    minBinSize := P.minBinSize, maxPvalue := P.maxPvalue, policy := P.policy, splitDigits := P.splitDigits }

/-- The loop over the items of the dictionary in `set_params` (binning_process.py:121). -/
def setAll {π : Type*} (assign : π → OptSet → Except String π) : List OptSet → π → Except String π
  | [], p => .ok p
  | o :: os, p =>
    match assign p o with
    | .error e => .error e
    | .ok q => setAll assign os q

/-- binning_process.py:80, 87-88 `binning_fit_params.get(name, {})`. -/
def fitParamsOf (fp : Option (PDict (List OptSet))) (name : String) : List OptSet := (fp.bind fun d => d.get name).getD []

/-- What the fit of one variable depends on besides its options and its column: external parts and options of the variable
outside `Params`. -/
structure VarEnv (α ρ S O : Type*) where
  special : SpecialCodes α
  extra : O
  prebin : List ρ → List α
  solver : S

section
variable {α κ V μ : Type*} [LinearOrder α] [LinearOrder κ]

/-- The records of a column for the target `y` and the weights `w` (binning_process.py:124; `w` is constantly 1 if `sample_weight` is None). -/
def colRecs (y : List (Option Bool)) (w : List ℚ) (x : List (Option α)) : List (Rec α) :=
  (x.zip (y.zip w)).map fun p => ⟨p.1, p.2.1, p.2.2⟩

/-- `_fit_variable` for a binary target (binning_process.py:75-128); `view` is the fitted object as the process sees it. -/
def fitVarBinary (P : ParamsP) (fp : Option (PDict (List OptSet)))
    (env : String → Params → VarEnv α (Rec α) Solver (SplitOpts α)) (view : String → Params → Fitted α → BinObj (Option α) V μ)
    (y : List (Option Bool)) (w : List ℚ) : FitVar (Option α) V μ := fun name x =>
  match setAll Params.assign (fitParamsOf fp name) P.binary with
  | .error e => .error e
  | .ok p =>
    match fitParams p (env name p).special (env name p).extra (env name p).prebin (env name p).solver (colRecs y w x) with
    | .error e => .error e
    | .ok f => .ok (view name p f)

/-- The records of a column for a continuous target (binning_process.py:126; no weights, 1071-1073). -/
def colRecsC (y : List (Option ℚ)) (x : List (Option α)) : List (RecC α) := (x.zip y).map fun p => { x := p.1, y := p.2, w := 1 }

/-- `_fit_variable` for a continuous target (binning_process.py:75-128); every object is new (no statistics of missing values
of an earlier fit). -/
def fitVarContinuous (P : ParamsP) (fp : Option (PDict (List OptSet)))
    (env : String → ParamsC → VarEnv α (RecC α) SolverC (Option (List (RecC α) → List Bool)))
    (view : String → ParamsC → FittedC α → BinObj (Option α) V μ) (y : List (Option ℚ)) : FitVar (Option α) V μ := fun name x =>
  match setAll ParamsC.assign (fitParamsOf fp name) P.continuous with
  | .error e => .error e
  | .ok p =>
    match fitParamsC p (env name p).special (env name p).extra (env name p).prebin (env name p).solver {} (colRecsC y x) with
    | .error e => .error e
    | .ok f => .ok (view name p f.2)

/-- The records of a column for a multiclass target (binning_process.py:126; no weights, 1071-1073). -/
def colRecsM (y : List (Option κ)) (x : List (Option α)) : List (RecM α κ) := (x.zip y).map fun p => { x := p.1, y := p.2 }

/-- `_fit_variable` for a multiclass target (binning_process.py:75-128). -/
def fitVarMulticlass (P : ParamsP) (fp : Option (PDict (List OptSet))) (hull : List ℚ → Option ℚ)
    (env : String → ParamsM → VarEnv α (RecM α κ) SolverM (Option (List (RecM α κ) → List Bool)))
    (view : String → ParamsM → FittedM α κ → BinObj (Option α) V μ) (y : List (Option κ)) : FitVar (Option α) V μ := fun name x =>
  match setAll ParamsM.assign (fitParamsOf fp name) P.multiclass with
  | .error e => .error e
  | .ok p =>
    match fitParamsM p hull (env name p).special (env name p).extra (env name p).prebin (env name p).solver (colRecsM y x) with
    | .error e => .error e
    | .ok f => .ok (view name p f)

variable [Field V] [LinearOrder V]

/-- `BinningProcess(...).fit(X, y)` (binning_process.py:1053-1186): the checks of 1060, then the fit; `fitVar` is one of the
three functions above and `t` the type of the target. -/
def fitProcess (P : ParamsP) (argsort : List V → List ℕ) (cfg : ProcCfg V μ) (njobs : ℕ) (fitVar : FitVar (Option α) V μ)
    (t : TargetType) (X : Frame (Option α)) (st : ProcState (Option α) V μ) : Except String (ProcState (Option α) V μ) :=
  match checkParametersP P with
  | .error e => .error e
  | .ok _ => procFit argsort cfg njobs fitVar t X st

end
end OptBinning
