import Verif.Model.Params

/-!
# Model of `OptimalBinning(user_splits=…, user_splits_fixed=…)`, numerical variable: checks, fit, attributes left behind

`binning/binning.py:206-223, 700-707, 772-807, 991-1021, 1111-1127`.
-/
namespace OptBinning

/-- The argument `user_splits_fixed`: flags in a list of Python bools, or in a numpy array (`isinstance(np.bool_(…), bool)` is
false). -/
structure FlagArray where
  values : List Bool
  numpy : Bool := false

/-- The attributes `user_splits` and `user_splits_fixed` of the object (binning.py:489-490). -/
structure UserSplits (α : Type*) where
  splits : List α
  fixed : Option FlagArray := none

/-- binning.py:206-223, part of `_check_parameters`, for an object with `user_splits`: the flags must be Python bools (217-218) and as many as the
splits (219-223).  `splits` and flags are lists or arrays, so the type tests (207, 214) succeed. -/
def checkUserSplits {α : Type*} (u : UserSplits α) : Except String Unit :=
  match u.fixed with
  | none => .ok ()
  | some fx =>
    if fx.numpy && !fx.values.isEmpty then .error "ValueError"
    else if u.splits.length ≠ fx.values.length then .error "ValueError"
    else .ok ()

/-- The solver object and the arguments of `build_model` (binning.py:991-1021) with the flags `user_splits_fixed` the object holds after the
refinement. -/
noncomputable def Params.cfgFixed (p : Params) (hull : List ℚ → Option ℚ) (stale : Bool) (pv : ℕ → ℕ → ℕ → ℕ → ℝ) (n : ℕ)
    (fixed : Option FlagArray) : SolverCfg :=
  { p.cfg hull stale pv n with
    opts := fun nev ev => { (p.cfg hull stale pv n).opts nev ev with fixed := fixed.map fun l i => l.values.getD i false } }

/-- `np.round(·, split_digits)` (binning.py:1068-1069) applied to the pre-binning splits, nothing if `split_digits` is None.  `rnd d` stands for
`np.round(·, d)` on the values of the variable. -/
def Params.rounded {α : Type*} (p : Params) (rnd : ℤ → α → α) : α → α :=
  match p.splitDigits with
  | none => id
  | some d => rnd d

/-- `fitUser` (Model/Fit.lean) with the rounding of `_prebinning_refinement` (binning.py:1063-1072): the attributes `user_splits` and
`user_splits_fixed` are sorted but not rounded. -/
def fitUserRounded {α : Type*} [LinearOrder α] (cfg : PrebinCfg) (sc : SpecialCodes α) (so : SplitOpts α) (solver : Solver) (st : PrebinState α)
    (r : α → α) (recs : List (Rec α)) : Except String (PrebinState α × Fitted α) :=
  if st.userSplits.length = 0 then .error "TypeError"
  else
    match sortUserSplits st with
    | .error e => .error e
    | .ok (st1, sorted) => fitFrom { cfg with catUser := false } sc solver (splitData sc so recs) st1 (sorted.map r)

/-- `fit` (binning.py:700-877) of a numerical variable with `user_splits`: the checks of 707, the fit; the flags left in the object are a
numpy array (801-802, 1124). `stale` state other than the two attributes does not matter (`stale` of `Params.cfgFixed`). -/
def fitUserParams {α : Type*} [LinearOrder α] (p : Params) (sc : SpecialCodes α) (so : SplitOpts α) (rnd : ℤ → α → α) (solver : Solver) (u : UserSplits α)
    (recs : List (Rec α)) : Except String (UserSplits α × Fitted α) :=
  match checkParameters p with
  | .error e => .error e
  | .ok _ =>
    match checkUserSplits u with
    | .error e => .error e
    | .ok _ =>
      match fitUserRounded { keepPure := p.divergence.keepsPure } sc so solver { userSplits := u.splits, fixed := u.fixed.map FlagArray.values }
        (p.rounded rnd) recs with
      | .error e => .error e
      | .ok r => .ok (⟨r.1.userSplits, r.1.fixed.map fun l => ⟨l, true⟩⟩, r.2)

end OptBinning
