import Verif.Model.Fit
import Verif.Model.Metrics
import Verif.Model.TransformRate
import Verif.Model.Continuous
import Mathlib.Algebra.Order.Field.Basic

/-!
# Model of `OptimalPWBinning` and `ContinuousOptimalPWBinning` (`binning/piecewise/*.py`)

Values, coefficients and rates live in an arbitrary linearly ordered field `F`; float rounding is not modelled.  The class
probability estimator and the piecewise regression (package RobustPWRegression) are external: the coefficients are an arbitrary
function of the clean records, the split points and the bounds.  Argument validation (piecewise/base.py:30-211), logging, timing,
plotting and the printed reports are omitted.
-/
namespace OptBinning
open Spec (Row)

variable {F : Type*} [Field F] [LinearOrder F]

/-! ## transform -/

/-- `np.polyval(p, x)`: Horner's scheme, highest power first. -/
def npPolyval (p : List F) (x : F) : F := p.foldl (fun y c => y * x + c) 0

/-- `np.clip(v, lb, ub)`; a bound `None` is not applied, and nothing is done if both are `None`
(piecewise/transformations.py:31-33). -/
def pwClip (lb ub : Option F) (v : F) : F :=
  let w := match lb with | some l => max v l | none => v
  match ub with | some u => min w u | none => w

/-- piecewise/transformations.py:26-33, 84-87 (156-159) for one clean value: the polynomial of row `c[i]` (coefficients of
increasing powers, reversed for `np.polyval`), then the bounds. -/
def pwClean (splits : List F) (coef : List (List F)) (lb ub : Option F) (v : F) : F :=
  let i := if splits.length = 0 then 0 else digitize false splits (some v)
  pwClip lb ub (npPolyval (coef.getD i []).reverse v)

/-- The arguments `metric_special` and `metric_missing`: `"empirical"`, a number, or another string.  A dict passes the check
(transformations.py:70-74) and fails later; it is not modelled. -/
inductive PWOpt (F : Type*)
  | empirical
  | number (q : F)
  | other

/-- transformations.py:63-90 `_check_metric_special_missing` for one of the two arguments. -/
def PWOpt.valid : PWOpt F → Bool
  | .other => false
  | _ => true

/-- piecewise/transformations.py:43, 48, 53: the number to assign, `none` for the empirical value. -/
def PWOpt.value : PWOpt F → Option F
  | .number q => some q
  | _ => none

/-- piecewise/transformations.py:102-108: rate of special group `i` (0 if one class is absent); `a` is the count called
`n_event_special` there and `b` the one called `n_nonevent_special`. -/
def pwSpecialRate (a b : List ℕ) (i : ℕ) : F :=
  if 0 < a.getD i 0 ∧ 0 < b.getD i 0 then ((a.getD i 0 : ℕ) : F) / ((a.getD i 0 + b.getD i 0 : ℕ) : F) else 0

/-- piecewise/transformations.py:115-120; `a` is the count called `n_event_missing` there. -/
def pwMissingRate (a b : ℕ) : F := if 0 < a + b then ((a : ℕ) : F) / ((a + b : ℕ) : F) else 0

/-- piecewise/transformations.py:18-58 `_apply_transform` on one value, generic in the kind of value: clean values by `clean`,
then special codes, then missing values (`special i` and `missing` are the empirical values). -/
def pwApply {V : Type*} [Zero V] (sc : SpecialCodes F) (clean : F → V) (special : ℕ → V) (missing : V) (ms mm : Option V)
    (x : Option F) : V :=
  let v0 := match x with
    | some v => if sc.codes.contains x then 0 else clean v
    | none => 0
  assignSpecialMissing 0 sc (fun i => if i < sc.count then special i else missing) ms mm v0 x

/-- The arguments of `transform_binary_target` (piecewise/transformations.py:61-65) which come from the fitted object, by the
names of the formal parameters. -/
structure PWArgs (F : Type*) where
  splits : List F
  c : List (List F)
  nNonevent : ℕ
  nEvent : ℕ
  nEventSpecial : List ℕ
  nNoneventSpecial : List ℕ
  nEventMissing : ℕ
  nNoneventMissing : ℕ
  sc : SpecialCodes F

/-- `transform_binary_target` (piecewise/transformations.py:61-135) with `metric="event_rate"` on one value. -/
def pwRate (a : PWArgs F) (lb ub : Option F) (ms mm : PWOpt F) (x : Option F) : F :=
  pwApply a.sc (pwClean a.splits a.c lb ub) (pwSpecialRate a.nEventSpecial a.nNoneventSpecial)
    (pwMissingRate a.nEventMissing a.nNoneventMissing) ms.value mm.value x

/-- A float as computed by NumPy: a number or one of the three special values. -/
inductive FVal
  | fin (v : ℝ)
  | posInf
  | negInf
  | nan

noncomputable instance : Zero FVal := ⟨.fin 0⟩

/-- `np.log(v)`. -/
noncomputable def npLog (v : ℝ) : FVal := if 0 < v then .fin (Real.log v) else if v = 0 then .negInf else .nan

/-- `transform_event_rate_to_woe` (transformations.py:19-38) in NumPy arithmetic: `np.log((1. / r - 1) * n_event / n_nonevent)`
for positive totals; a rate 0 gives `1. / 0 = inf` and WoE `inf`. -/
noncomputable def npWoe (nNonevent nEvent : ℕ) (r : ℝ) : FVal :=
  if r = 0 then .posInf else npLog ((1 / r - 1) * (nEvent : ℝ) / (nNonevent : ℝ))

/-- `transform_binary_target` (piecewise/transformations.py:61-135): the metric check, the check of the two options, and the
values.  With `metric="woe"` the rates of clean values and the empirical rates are turned into WoE, given numbers are not.  The
empirical rate of missing values is a Python number: `1. / 0` raises (line 123). -/
noncomputable def pwTransform (a : PWArgs ℝ) (metric : String) (ms mm : PWOpt ℝ) (lb ub : Option ℝ) (x : List (Option ℝ)) :
    Except String (List FVal) :=
  if ¬ (metric = "event_rate" ∨ metric = "woe") then .error "ValueError: metric"
  else if ms.valid = false then .error "ValueError: metric_special"
  else if mm.valid = false then .error "ValueError: metric_missing"
  else if metric = "event_rate" then .ok (x.map fun v => .fin (pwRate a lb ub ms mm v))
  else
    let miss : ℝ := pwMissingRate a.nEventMissing a.nNoneventMissing
    if mm.value = none ∧ miss = 0 then .error "ZeroDivisionError"
    else
      let woe := npWoe a.nNonevent a.nEvent
      .ok (x.map (pwApply a.sc (fun v => woe (pwClean a.splits a.c lb ub v))
        (fun i => woe (pwSpecialRate a.nEventSpecial a.nNoneventSpecial i)) (woe miss)
        (ms.value.map .fin) (mm.value.map .fin)))

/-! ## fit, binary target -/

/-- The parameters of `OptimalPWBinning` that are modelled.  `prebin` is the external pre-binning, `solver` the external solver
of the inner `OptimalBinning`, `regress` the external estimator and piecewise regression (piecewise/binning.py:360-371,
piecewise/base.py:412-476). -/
structure PWCfg (F : Type*) where
  sc : SpecialCodes F := .none
  outlier : Option (List (Rec F) → List Bool) := none
  userSplits : Option (List F) := none
  fixed : Option (List Bool) := none
  prebin : List (Rec F) → List F
  solver : Solver
  regress : List (Rec F) → List F → Option F → Option F → List (List F)

/-- piecewise/base.py:381-401: the inner `OptimalBinning` gets the clean records, the outlier detector (a second time) and no
special codes. -/
def pwInner (c : PWCfg F) (clean : List (Rec F)) : Except String (Fitted F) :=
  match c.userSplits with
  | none => fitNumerical {} .none { outlier := c.outlier } c.prebin c.solver clean
  | some us => (fitUser {} .none { outlier := c.outlier } c.solver { userSplits := us, fixed := c.fixed } clean).map Prod.snd

/-- A fitted `OptimalPWBinning`: split points, coefficients, the columns Non-event and Event of the table and the counts of
special and missing records. -/
structure PWFitted (F : Type*) where
  splits : List F
  coef : List (List F)
  nonevent : List ℕ
  event : List ℕ
  neSpecial : List ℕ
  evSpecial : List ℕ
  neMissing : ℕ
  evMissing : ℕ

/-- piecewise/binning.py:394-396 and binning_statistics.py:112-120: missing records are counted, not weighed. -/
def pwMissingCount (missing : List (Rec F)) (event : Bool) : ℕ := missing.countP fun r => r.isEvent == event

/-- piecewise/binning.py:306-440 `_fit`.  The table of the inner binning is built (398), which fails if no row has records of
both classes (`buildTable`); its last two rows are replaced by the special and missing counts (399-405).  The computation of the
reported metrics (410-418) is `pwDivergence` below, the Gini index, KS, average precision and Brier score are not modelled. -/
def pwFit (c : PWCfg F) (lb ub : Option F) (recs : List (Rec F)) : Except String (PWFitted F) := do
  let s := splitData c.sc { outlier := c.outlier } recs
  let f ← pwInner c s.clean
  if (rowsOf f.nonevent f.event).filter Row.mixed = [] then .error "ValueError: Found array with 0 sample(s)"
  else
    let nes := specialCounts c.sc s.special false
    let evs := specialCounts c.sc s.special true
    let nem := pwMissingCount s.missing false
    let evm := pwMissingCount s.missing true
    pure
      { splits := f.splits
        coef := c.regress s.clean f.splits lb ub
        nonevent := f.nonevent.take (f.nonevent.length - 2) ++ nes ++ [nem]
        event := f.event.take (f.event.length - 2) ++ evs ++ [evm]
        neSpecial := nes, evSpecial := evs, neMissing := nem, evMissing := evm }

/-- The call of `transform_binary_target` in `transform` (piecewise/binning.py:299-304).  The formal parameters are
`n_event_special, n_nonevent_special, n_event_missing, n_nonevent_missing`; the call passes `self._n_nonevent_special,
self._n_event_special, self._n_nonevent_missing, self._n_event_missing` in these positions. -/
def PWFitted.args (f : PWFitted F) (sc : SpecialCodes F) : PWArgs F :=
  { splits := f.splits, c := f.coef, nNonevent := f.nonevent.sum, nEvent := f.event.sum,
    nEventSpecial := f.neSpecial, nNoneventSpecial := f.evSpecial, nEventMissing := f.neMissing, nNoneventMissing := f.evMissing,
    sc := sc }

/-- `OptimalPWBinning.transform(x, "event_rate", …)` on one value. -/
def PWFitted.rate (f : PWFitted F) (sc : SpecialCodes F) (ms mm : PWOpt F) (lb ub : Option F) (x : Option F) : F :=
  pwRate (f.args sc) lb ub ms mm x

/-- `OptimalPWBinning.transform` (piecewise/binning.py:258-304). -/
noncomputable def PWFitted.transform (f : PWFitted ℝ) (sc : SpecialCodes ℝ) (metric : String) (ms mm : PWOpt ℝ)
    (lb ub : Option ℝ) (x : List (Option ℝ)) : Except String (List FVal) :=
  pwTransform (f.args sc) metric ms mm lb ub x

/-! ## the binning table -/

/-- piecewise/binning_statistics.py:124-126: the event rate of row `i`. -/
def PWFitted.rowRate (f : PWFitted F) (i : ℕ) : F :=
  if 0 < f.event.getD i 0 ∧ 0 < f.nonevent.getD i 0 then
    ((f.event.getD i 0 : ℕ) : F) / ((f.event.getD i 0 + f.nonevent.getD i 0 : ℕ) : F)
  else 0

/-- piecewise/binning_statistics.py:160-169: column `c{i}`: the coefficients of the bins, then for `i = 0` the event rates of the
special and missing rows and zeros otherwise. -/
def PWFitted.coefColumn (f : PWFitted F) (sc : SpecialCodes F) (i : ℕ) : List F :=
  let rates := (List.range f.event.length).map f.rowRate
  f.coef.map (fun c => c.getD i 0) ++
    (if i = 0 then rates.drop (rates.length - (sc.count + 1)) else List.replicate (sc.count + 1) 0)

/-- piecewise/binning_statistics.py:318-319, 333, 347-349: the pairs of rows compared by `analysis`. -/
def pwTestPairs (nRows : ℕ) : List (ℕ × ℕ) := (List.range (nRows - 2 - 1)).map fun i => (i, i + 1)

/-! ## reported divergences -/

/-- piecewise/metrics.py:24-35 `_fun_divergence` and 38-83 `divergences_asymptotic` for one divergence `d` given by its
summands: mean over all records of the divergence of the two densities at the clean records, plus the special groups with both
classes (divided by their number of groups), plus the missing records if both classes occur there.  `rates` are the event rates
of the clean records. -/
noncomputable def pwDivergence (d : ℝ → ℝ → ℝ) (rates : List ℝ) (nes evs : List ℕ) (nem evm : ℕ) (tne tev : ℕ) : ℝ :=
  let n : ℝ := (tne : ℝ) + (tev : ℝ)
  let p : ℝ := (tev : ℝ) / n
  let clean := (rates.map fun r => d ((1 - r) / (1 - p)) (r / p)).sum / n
  let groups := (nes.zip evs).filter fun g => decide (0 < g.2) && decide (0 < g.1)
  let special := if groups = [] then 0 else
    (groups.map fun g => d ((g.1 : ℝ) / (tne : ℝ)) ((g.2 : ℝ) / (tev : ℝ))).sum / (evs.length : ℝ)
  let missing := if 0 < evm ∧ 0 < nem then d ((nem : ℝ) / (tne : ℝ)) ((evm : ℝ) / (tev : ℝ)) else 0
  clean + special + missing

/-- piecewise/metrics.py:86-118 `binary_metrics`: the rates of the clean records are those of `transform_binary_target` with the
bounds `1e-8` and `1 - 1e-8`. -/
noncomputable def PWFitted.cleanRates (f : PWFitted ℝ) (sc : SpecialCodes ℝ) (clean : List (Rec ℝ)) : List ℝ :=
  clean.map fun r => f.rate sc .empirical .empirical (some 1e-8) (some (1 - 1e-8)) r.x

/-- One of the four reported divergences (piecewise/metrics.py:67-83; piecewise/binning.py:414-418). -/
noncomputable def PWFitted.divergence (f : PWFitted ℝ) (sc : SpecialCodes ℝ) (clean : List (Rec ℝ)) (d : ℝ → ℝ → ℝ) : ℝ :=
  pwDivergence d (f.cleanRates sc clean) f.neSpecial f.evSpecial f.neMissing f.evMissing f.nonevent.sum f.event.sum

end OptBinning
