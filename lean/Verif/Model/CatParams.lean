import Verif.Model.Params
import Verif.Model.Categorical

/-!
# Model of `OptimalBinning(dtype="categorical", …)`: checks and options

`binning/binning.py:195-199, 700-707, 904-1021`.
-/
namespace OptBinning

/-- binning.py:979-982: for a categorical variable any trend other than None becomes "ascending". -/
def TrendArg.categorical : TrendArg → TrendArg
  | .none => .none
  | _ => .ascending

/-- The arguments as the optimiser of a categorical variable sees them (binning.py:979-982); with `monotonic_trend` None or "ascending"
`Params.cfg` is what binning.py:917-1021 hands to the solver (no automatic trend, no `trend_change`). -/
def Params.forCategorical (p : Params) : Params := { p with trend := p.trend.categorical }

/-- binning.py:195-198: `cat_cutoff` outside (0, 1]. -/
def badCutoff (c : Option XQ) : Bool := c.any fun v => !(v.above 0 && v.atMost 1)

/-- `OptimalBinning(dtype="categorical", cat_cutoff=…).fit(x, y)` without `user_splits` (binning.py:700-877): the checks of 707, then the fit. -/
def fitCatParams {κ : Type} [LinearOrder κ] (p : Params) (cutoff : Option XQ) (sc : SpecialCodes κ) (rank : List (Rec κ) → List κ)
    (prebin : List (Rec ℚ) → List ℚ) (solver : Solver) (recs : List (Rec κ)) : Except String (CatFitted κ) :=
  match checkParameters p with
  | .error e => .error e
  | .ok _ =>
    if badCutoff cutoff then .error "ValueError"
    else fitCategorical { keepPure := p.divergence.keepsPure } sc (cutoff.map XQ.value) rank prebin solver recs

end OptBinning
