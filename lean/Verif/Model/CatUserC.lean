import Verif.Model.CatParamsC

/-!
# Model of `ContinuousOptimalBinning(dtype="categorical", user_splits=groups)` without `user_splits_fixed`

`binning/continuous_binning.py:548-740, 848-967`, `binning/preprocessing.py:321-374`, `binning/binning_statistics.py:80-111, 337-378`.
-/
namespace OptBinning

variable {κ : Type} [LinearOrder κ]

/-- The fitted object: `groups` are the user's groups sorted by mean target (`_categories`), `splits` the positions of the last group of each bin,
`others` the training categories in no group (`_cat_others`), `rows` the rows of the binning table (binning_statistics.py:337-378). -/
structure CatUserFittedC (κ : Type) where
  status : String
  splits : List ℕ
  groups : List (List κ)
  others : List κ
  rows : List RowC

/-- `bin_categorical` with user splits (binning_statistics.py:80-111): the same function as for a binary target. -/
def CatUserFittedC.bins (f : CatUserFittedC κ) : List (List κ) := CatUserFitted.bins ⟨f.status, f.splits, f.groups, f.others, [], []⟩

/-- preprocessing.py:354-371 on one record: the position of the group containing the category (0 by default). -/
def RecC.encodeGroup (groups : List (List κ)) (r : RecC κ) : RecC ℕ := ⟨some (transformCatClean groups id 0 r.x), r.y, r.w⟩

/-- `fit` of a categorical variable with `user_splits` and without `user_splits_fixed` (continuous_binning.py:620-657, 679-722, 848-967;
preprocessing.py:321-374; the row "others" 869-879 and binning_statistics.py:345-351).  `sortGroups` is the external `argsort` of the groups by
the mean target of their records (preprocessing.py:357-366; ties and the NaN of an empty group in any order).  With an empty list of groups
`ssums` is unbound at line 679 (`UnboundLocalError`). -/
def fitCategoricalUserC (sc : SpecialCodes κ) (sortGroups : List (RecC κ) → List (List κ) → List (List κ)) (solver : SolverC)
    (userSplits : List (List κ)) (old : MissingStats) (recs : List (RecC κ)) : Except String (MissingStats × CatUserFittedC κ) :=
  let s := splitDataC sc none recs
  if userSplits.length = 0 then .error "UnboundLocalError: ssums"
  else if ¬ userSplits.flatten.Nodup then .error "ValueError: Category is repeated."
  else
    let others := (s.clean.filterMap RecC.x).dedup.filter fun c => !userSplits.flatten.contains c
    let main := s.clean.filter fun r => !r.inCats others
    let groups := sortGroups main userSplits
    let missing := missingRow old s.missing
    match specialRows sc s.special with
    | .error e => .error e
    | .ok special =>
      match fitCoreC true solver (main.map (RecC.encodeGroup groups))
          (if others.length = 0 then none else some (summaryC (s.clean.filter fun r => r.inCats others)))
          special missing {} (List.range groups.length) with
      | .error e => .error e
      | .ok q => .ok (⟨missing.var, missing.mn, missing.mx⟩, ⟨q.2.status, q.2.splits, groups, others, q.2.rows⟩)

/-- `fit` with the checks of 555 (continuous_binning.py:133-141; `cat_cutoff` is checked although it is not used with `user_splits`). -/
def fitCatUserParamsC (p : ParamsC) (cutoff : Option XQ) (sc : SpecialCodes κ) (sortGroups : List (RecC κ) → List (List κ) → List (List κ))
    (solver : SolverC) (userSplits : List (List κ)) (old : MissingStats) (recs : List (RecC κ)) :
    Except String (MissingStats × CatUserFittedC κ) :=
  match checkParametersC p with
  | .error e => .error e
  | .ok _ =>
    if badCutoff cutoff then .error "ValueError"
    else fitCategoricalUserC sc sortGroups solver userSplits old recs

end OptBinning
