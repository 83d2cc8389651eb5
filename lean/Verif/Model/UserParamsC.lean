import Verif.Model.UserParams
import Verif.Model.ParamsC

/-!
# Model of `ContinuousOptimalBinning(user_splits=…, user_splits_fixed=…)`, numerical variable: checks, fit, attributes left behind

`binning/continuous_binning.py:143-160, 548-740, 881-967`.
-/
namespace OptBinning

/-- `np.round(·, split_digits)` (continuous_binning.py:888-889); `rnd d` stands for `np.round(·, d)`. -/
def ParamsC.rounded {α : Type*} (p : ParamsC) (rnd : ℤ → α → α) : α → α :=
  match p.splitDigits with
  | none => id
  | some d => rnd d

/-- The arguments of the solver (continuous_binning.py:813-824) with the flags `user_splits_fixed` the object holds after the refinement. -/
noncomputable def ParamsC.cfgFixed (p : ParamsC) (hull : List ℚ → Option ℚ) (pv : ℚ → ℝ → ℕ → ℚ → ℝ → ℕ → ℝ) (n : ℕ)
    (fixed : Option FlagArray) : SolverCfgC :=
  { p.cfg hull pv n with opts := fun cells => { (p.cfg hull pv n).opts cells with fixed := fixed.map fun l i => l.values.getD i false } }

/-- `fitUserC` (Model/Continuous.lean) with the rounding of `_prebinning_refinement` (continuous_binning.py:881-892). -/
def fitUserRoundedC {α : Type*} [LinearOrder α] (sc : SpecialCodes α) (outlier : Option (List (RecC α) → List Bool)) (solver : SolverC)
    (old : MissingStats) (st : PrebinState α) (r : α → α) (recs : List (RecC α)) : Except String (MissingStats × PrebinState α × FittedC α) :=
  if st.userSplits.length = 0 then .error "UnboundLocalError: ssums"
  else
    match sortUserSplits st with
    | .error e => .error e
    | .ok (st1, sorted) =>
      match specialRows sc (splitDataC sc outlier recs).special with
      | .error e => .error e
      | .ok special =>
        match fitCoreC false solver (splitDataC sc outlier recs).clean none special (missingRow old (splitDataC sc outlier recs).missing) st1 (sorted.map r) with
        | .error e => .error e
        | .ok q => .ok (⟨(missingRow old (splitDataC sc outlier recs).missing).var, (missingRow old (splitDataC sc outlier recs).missing).mn,
            (missingRow old (splitDataC sc outlier recs).missing).mx⟩, q.1, q.2)

/-- `fit` (continuous_binning.py:548-740) of a numerical variable with `user_splits`: the checks of 555 (143-160 are those of
binning.py:206-223), the fit; the flags left in the object are a numpy array (650, 955). -/
def fitUserParamsC {α : Type*} [LinearOrder α] (p : ParamsC) (sc : SpecialCodes α) (outlier : Option (List (RecC α) → List Bool)) (rnd : ℤ → α → α)
    (solver : SolverC) (old : MissingStats) (u : UserSplits α) (recs : List (RecC α)) : Except String (MissingStats × UserSplits α × FittedC α) :=
  match checkParametersC p with
  | .error e => .error e
  | .ok _ =>
    match checkUserSplits u with
    | .error e => .error e
    | .ok _ =>
      match fitUserRoundedC sc outlier solver old { userSplits := u.splits, fixed := u.fixed.map FlagArray.values } (p.rounded rnd) recs with
      | .error e => .error e
      | .ok r => .ok (r.1, ⟨r.2.1.userSplits, r.2.1.fixed.map fun l => ⟨l, true⟩⟩, r.2.2)

end OptBinning
