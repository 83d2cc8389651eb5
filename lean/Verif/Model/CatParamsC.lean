import Verif.Model.CatParams
import Verif.Model.ParamsC

/-!
# Model of `ContinuousOptimalBinning(dtype="categorical", …)` without `user_splits`

`binning/continuous_binning.py:133-137, 548-740, 800-803, 848-895`, `binning/preprocessing.py:25-42, 176-281`,
`binning/binning_statistics.py:80-111, 337-378`.
-/
namespace OptBinning

variable {κ : Type} [LinearOrder κ]

/-- The category of the record is one of `cs` (pandas `isin`, preprocessing.py:267-271). -/
def RecC.inCats (cs : List κ) (r : RecC κ) : Bool := r.x.elim false fun v => cs.contains v

/-- preprocessing.py:25-30 `categorical_transform` on one record: the code of a category is its position in the sorted list. -/
def RecC.encode (cats : List κ) (r : RecC κ) : RecC ℚ := ⟨r.x.map fun v => ((cats.idxOf v : ℕ) : ℚ), r.y, r.w⟩

/-- preprocessing.py:264-271 `categorical_cutoff(x_clean, y_clean, cat_cutoff)`: the target plays no part. -/
def cutoffOthersC (cutoff : Option ℚ) (clean : List (RecC κ)) : Except String (List κ) :=
  cutoffOthers cutoff (clean.map fun r => ⟨r.x, none, r.w⟩)

/-- A fitted categorical variable: `_splits_optimal`, `_categories`, `_cat_others` and the rows of the table. -/
structure CatFittedC (κ : Type) where
  status : String
  splits : List ℚ
  categories : List κ
  others : List κ
  rows : List RowC

/-- binning_statistics.py:80-111 `bin_categorical` without user splits (shared with the binary target). -/
def CatFittedC.bins (f : CatFittedC κ) : List (List κ) := CatFitted.bins ⟨f.status, f.splits, f.categories, f.others, [], []⟩

/-- `ContinuousOptimalBinning.fit` of a categorical variable without `user_splits` (preprocessing.py:262-281: no outlier detector for
categories; continuous_binning.py:658-662, 679-709, 848-895; the row "others" 869-879 and binning_statistics.py:345-351).
`rank` is the external `groupby(x).mean().sort_values()` (preprocessing.py:26-27), `prebin` the external pre-binning of the codes. -/
def fitCategoricalC (sc : SpecialCodes κ) (cutoff : Option ℚ) (rank : List (RecC κ) → List κ) (prebin : List (RecC ℚ) → List ℚ)
    (solver : SolverC) (old : MissingStats) (recs : List (RecC κ)) : Except String (MissingStats × CatFittedC κ) :=
  let s := splitDataC sc none recs
  match cutoffOthersC cutoff s.clean with
  | .error e => .error e
  | .ok others =>
    let main := s.clean.filter fun r => !r.inCats others
    let cats := rank main
    let codes := main.map (RecC.encode cats)
    let missing := missingRow old s.missing
    match specialRows sc s.special with
    | .error e => .error e
    | .ok special =>
      match fitCoreC false solver codes (if others.length = 0 then none else some (summaryC (s.clean.filter fun r => r.inCats others)))
          special missing {} (prebin codes) with
      | .error e => .error e
      | .ok q => .ok (⟨missing.var, missing.mn, missing.mx⟩, ⟨q.2.status, q.2.splits, cats, others, q.2.rows⟩)

/-- The arguments as the optimiser of a categorical variable sees them (continuous_binning.py:800-803). -/
def ParamsC.forCategorical (p : ParamsC) : ParamsC := { p with trend := p.trend.categorical }

/-- `ContinuousOptimalBinning(dtype="categorical", cat_cutoff=…).fit(x, y)` without `user_splits` (continuous_binning.py:548-739): the
checks of 555 (of `cat_cutoff`: 133-137), then the fit. -/
def fitCatParamsC (p : ParamsC) (cutoff : Option XQ) (sc : SpecialCodes κ) (rank : List (RecC κ) → List κ)
    (prebin : List (RecC ℚ) → List ℚ) (solver : SolverC) (old : MissingStats) (recs : List (RecC κ)) :
    Except String (MissingStats × CatFittedC κ) :=
  match checkParametersC p with
  | .error e => .error e
  | .ok _ =>
    if badCutoff cutoff then .error "ValueError"
    else fitCategoricalC sc (cutoff.map XQ.value) rank prebin solver old recs

end OptBinning
