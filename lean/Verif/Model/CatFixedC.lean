import Verif.Model.CatUserC
import Verif.Model.UserParamsC

/-!
# Model of `ContinuousOptimalBinning(dtype="categorical", user_splits=groups, user_splits_fixed=flags)`

`binning/continuous_binning.py:133-160, 548-740, 813-824, 848-967`, `binning/preprocessing.py:321-374`.
-/
namespace OptBinning

variable {κ : Type} [LinearOrder κ]

/-- The groups in the order of the indices which `argsort` returns (preprocessing.py:361-364). -/
def sortedBy (argsort : List (RecC κ) → List (List κ) → List ℕ) (l : List (RecC κ)) (g : List (List κ)) : List (List κ) :=
  (argsort l g).map fun i => g.getD i []

/-- `fit` (continuous_binning.py:548-740) of a categorical variable with `user_splits` and, possibly, `user_splits_fixed`: the checks of 133-160,
the flags in the order of the sorted groups (649-651), the refinement (930-964), and the attributes `user_splits`, `user_splits_fixed` left in the
object.  `argsort` is the external sort of the groups by mean target (preprocessing.py:357-361).  The state of the refinement holds the indices of
the groups in the order of the user, which 956 selects with a mask in the order of the sorted groups.  `np.asarray` of groups of different
length (944) is an array of objects, as in numpy before 1.24. -/
def fitCatFixedC (p : ParamsC) (cutoff : Option XQ) (sc : SpecialCodes κ) (argsort : List (RecC κ) → List (List κ) → List ℕ)
    (solver : SolverC) (old : MissingStats) (u : UserSplits (List κ)) (recs : List (RecC κ)) :
    Except String (MissingStats × UserSplits (List κ) × CatUserFittedC κ) :=
  match checkParametersC p with
  | .error e => .error e
  | .ok _ =>
    if badCutoff cutoff then .error "ValueError"
    else
      match checkUserSplits u with
      | .error e => .error e
      | .ok _ =>
        let s := splitDataC sc none recs
        if u.splits.length = 0 then .error "UnboundLocalError: ssums"
        else if ¬ u.splits.flatten.Nodup then .error "ValueError: Category is repeated."
        else
          let others := (s.clean.filterMap RecC.x).dedup.filter fun c => !u.splits.flatten.contains c
          let main := s.clean.filter fun r => !r.inCats others
          let idx := argsort main u.splits
          let groups := idx.map fun i => u.splits.getD i []
          let missing := missingRow old s.missing
          match specialRows sc s.special with
          | .error e => .error e
          | .ok special =>
            match fitCoreC true solver (main.map (RecC.encodeGroup groups))
                (if others.length = 0 then none else some (summaryC (s.clean.filter fun r => r.inCats others)))
                special missing
                { userSplits := List.range u.splits.length, fixed := u.fixed.map fun l => idx.map fun i => l.values.getD i false }
                (List.range groups.length) with
            | .error e => .error e
            | .ok q => .ok (⟨missing.var, missing.mn, missing.mx⟩,
                ⟨q.1.userSplits.map fun i => u.splits.getD i [], q.1.fixed.map fun l => ⟨l, true⟩⟩,
                ⟨q.2.status, q.2.splits, groups, others, q.2.rows⟩)

end OptBinning
