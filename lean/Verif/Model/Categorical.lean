import Mathlib.Data.List.Dedup
import Verif.Model.Fit
import Verif.Spec.Categorical

/-!
# Model of the categorical branches of fit and transform

`binning/preprocessing.py:25-42, 262-281, 321-374`, `binning/binning_statistics.py:80-111`,
`binning/binning.py:772-860`, `binning/transformations.py:176-316`.
Categories are elements of a linear order (strings); the order itself is never used by the modelled code, it is only
required by the shared definitions.
-/
namespace OptBinning

variable {κ : Type} [LinearOrder κ]

/-- The category of the record is one of `cs` (pandas `isin`; the records in question have a category). -/
def Rec.inCats (cs : List κ) (r : Rec κ) : Bool := r.x.elim false fun v => cs.contains v

/-- preprocessing.py:33-42 `categorical_cutoff`: the categories with less than `ceil(cutoff * n)` records (the order of
the result of `value_counts` is not modelled); the error value stands for the `ValueError` of 40. -/
def categoricalCutoff (cutoff : ℚ) (clean : List (Rec κ)) : Except String (List κ) :=
  let cutoffCount : ℤ := ⌈cutoff * (clean.length : ℚ)⌉
  let others := (clean.filterMap Rec.x).dedup.filter fun c =>
    decide (((clean.countP fun r => r.x == some c : ℕ) : ℤ) < cutoffCount)
  if (clean.countP fun r => !r.inCats others) = 0 then
    .error "All categories moved to others' bin."
  else .ok others

/-- preprocessing.py:25-30 `categorical_transform` on one record: the code of a category is its position in the sorted
list of categories. -/
def Rec.encode (cats : List κ) (r : Rec κ) : Rec ℚ := ⟨r.x.map fun v => ((cats.idxOf v : ℕ) : ℚ), r.y, r.w⟩

/-- A fitted categorical variable: `_splits_optimal`, `_categories`, `_cat_others` and the columns of the table. -/
structure CatFitted (κ : Type) where
  status : String
  splits : List ℚ
  categories : List κ
  others : List κ
  nonevent : List ℕ
  event : List ℕ

/-- preprocessing.py:264-271: `others` is empty if `cat_cutoff` is not given. -/
def cutoffOthers (cutoff : Option ℚ) (clean : List (Rec κ)) : Except String (List κ) :=
  match cutoff with
  | none => .ok []
  | some q => categoricalCutoff q clean

/-- `OptimalBinning.fit` of a categorical variable without `user_splits` (preprocessing.py:262-281,
binning.py:808-860).  `rank` is the external `groupby(x).mean().sort_values()` (preprocessing.py:26-27). -/
def fitCategorical (cfg : PrebinCfg) (sc : SpecialCodes κ) (cutoff : Option ℚ) (rank : List (Rec κ) → List κ)
    (prebin : List (Rec ℚ) → List ℚ) (solver : Solver) (recs : List (Rec κ)) : Except String (CatFitted κ) := do
  let s := splitData sc {} recs
  let others ← cutoffOthers cutoff s.clean
  let main := s.clean.filter fun r => !r.inCats others
  let yOthers := s.clean.filter fun r => r.inCats others
  let cats := rank main
  let codes := main.map (Rec.encode cats)
  let r ← fitCore { cfg with catUser := false } solver codes
    (fun event => if others.length = 0 then none else some (truncWeight (yOthers.filter fun q => q.isEvent == event)))
    (specialCounts sc s.special) (fun event => truncWeight (s.missing.filter fun q => q.isEvent == event)) {}
    (prebin codes)
  pure ⟨r.2.status, r.2.splits, cats, others, r.2.nonevent, r.2.event⟩

/-- binning_statistics.py:84-95: the items whose position has bin index `i`, for `i < nb`. -/
def groupCodes {γ : Type*} (right : Bool) (nb : ℕ) (splits : List ℤ) (cats : List γ) : List (List γ) :=
  (List.range nb).map fun i => (cats.zipIdx.filter fun p => digitize right splits (some (p.2 : ℤ)) == i).map Prod.fst

/-- binning_statistics.py:80-111 `bin_categorical` without user splits; also the value of the property `splits`
(binning.py:1162-1166). -/
def CatFitted.bins (f : CatFitted κ) : List (List κ) :=
  groupCodes false (f.splits.length + 1) (f.splits.map Int.ceil) f.categories ++
    if f.others.length = 0 then [] else [f.others]

/-- transformations.py:191-195: the loop over the groups of categories. -/
def transformCatClean {β : Type*} (bins : List (List κ)) (mv : ℕ → β) (unk : β) (x : Option κ) : β :=
  bins.zipIdx.foldl (fun v b => if x.elim false (fun c => b.1.contains c) then mv b.2 else v) unk

/-- `_apply_transform` (transformations.py:176-227) on one value, categorical case. -/
def transformCat {β : Type*} (bins : List (List κ)) (sc : SpecialCodes κ) (mv : ℕ → β) (unk : β) (ms mm : Option β)
    (x : Option κ) : β :=
  assignSpecialMissing bins.length sc mv ms mm (transformCatClean bins mv unk x) x

/-- `transform(x, metric="indices", cat_unknown)` of a fitted categorical variable. -/
def transformCatIndices (bins : List (List κ)) (sc : SpecialCodes κ) (catUnknown : Option ℤ) (ms mm : MetricOpt)
    (x : List (Option κ)) : List ℤ :=
  x.map (transformCat bins sc (fun i => (i : ℤ)) (catUnknown.getD (-1)) ms.forIndices mm.forIndices)

/-- The argument `cat_unknown` for a numerical metric: a Python int or a Python float. -/
inductive CatUnknown
  | int (k : ℤ)
  | float (q : ℚ)

def CatUnknown.value : CatUnknown → ℚ
  | .int k => k
  | .float q => q

/-- `np.full(x.shape, cat_unknown)` (transformations.py:302) has an integer dtype if `cat_unknown` is an int; values
assigned to its cells are then truncated towards zero. -/
def storeCell (cu : Option CatUnknown) (q : ℚ) : ℚ :=
  match cu with
  | some (.int _) => if 0 ≤ q then ((⌊q⌋ : ℤ) : ℚ) else ((⌈q⌉ : ℤ) : ℚ)
  | _ => q

/-- transformations.py:205-210, 220-225 for the metric `"event_rate"`. -/
def MetricOpt.forRate : MetricOpt → Option ℚ
  | .empirical => none
  | .int k => some k
  | .float q => some q

/-- transformations.py:277-280 `"empirical" not in (metric_special, metric_missing)`. -/
def MetricOpt.isEmpirical : MetricOpt → Bool
  | .empirical => true
  | _ => false

/-- transformations.py:282-287 `event_rate[i]`: 0 for pure rows. -/
def tableRate (nonevent event : List ℕ) (i : ℕ) : ℚ :=
  if 0 < event.getD i 0 ∧ 0 < nonevent.getD i 0 then
    (event.getD i 0 : ℚ) / ((event.getD i 0 + nonevent.getD i 0 : ℕ) : ℚ)
  else 0

/-- transformations.py:272-275, 277-280, 292-293 `mean_event_rate`: the events of all rows divided by the records of
all rows or, if neither option is `"empirical"`, of the first `n_bins` rows only. -/
def meanEventRate (nb : ℕ) (ms mm : MetricOpt) (nonevent event : List ℕ) : ℚ :=
  (event.sum : ℚ) /
    ((if ms.isEmpirical || mm.isEmpirical then event.sum + nonevent.sum
      else (event.take nb).sum + (nonevent.take nb).sum : ℕ) : ℚ)

/-- `transform(x, metric="event_rate", metric_special, metric_missing, cat_unknown)` of a categorical variable. -/
def transformCatRate (bins : List (List κ)) (nonevent event : List ℕ) (sc : SpecialCodes κ) (cu : Option CatUnknown)
    (ms mm : MetricOpt) (x : List (Option κ)) : List ℚ :=
  let unk := match cu with
    | some c => c.value
    | none => meanEventRate bins.length ms mm nonevent event
  x.map (transformCat bins sc (fun i => storeCell cu (tableRate nonevent event i)) unk (ms.forRate.map (storeCell cu))
    (mm.forRate.map (storeCell cu)))

/-- A categorical variable fitted with `user_splits`: `groups` are the user's groups sorted by event rate
(`_categories`), `splits` the positions of the last group of each bin. -/
structure CatUserFitted (κ : Type) where
  status : String
  splits : List ℕ
  groups : List (List κ)
  others : List κ
  nonevent : List ℕ
  event : List ℕ

/-- preprocessing.py:354-371 on one record: the position of the group containing the category (0 by default). -/
def Rec.encodeGroup (groups : List (List κ)) (r : Rec κ) : Rec ℕ := ⟨some (transformCatClean groups id 0 r.x), r.y, r.w⟩

/-- `OptimalBinning.fit` of a categorical variable with `user_splits` and without `user_splits_fixed`
(preprocessing.py:321-374, binning.py:772-860).  `sortGroups` is the external `argsort` of the groups by event rate
(preprocessing.py:357-366, ties and NaN in any order). -/
def fitCategoricalUser (cfg : PrebinCfg) (sc : SpecialCodes κ)
    (sortGroups : List (Rec κ) → List (List κ) → List (List κ)) (solver : Solver) (userSplits : List (List κ))
    (recs : List (Rec κ)) : Except String (CatUserFitted κ) := do
  let s := splitData sc {} recs
  if userSplits.length = 0 then throw "TypeError"
  if ¬ userSplits.flatten.Nodup then throw "Category is repeated."
  let others := (s.clean.filterMap Rec.x).dedup.filter fun c => !userSplits.flatten.contains c
  let main := s.clean.filter fun r => !r.inCats others
  let yOthers := s.clean.filter fun r => r.inCats others
  let groups := sortGroups main userSplits
  let r ← fitCore { cfg with catUser := true } solver (main.map (Rec.encodeGroup groups))
    (fun event => if others.length = 0 then none else some (truncWeight (yOthers.filter fun q => q.isEvent == event)))
    (specialCounts sc s.special) (fun event => truncWeight (s.missing.filter fun q => q.isEvent == event)) {}
    (List.range groups.length)
  pure ⟨r.2.status, r.2.splits, groups, others, r.2.nonevent, r.2.event⟩

/-- binning_statistics.py:80-111 `bin_categorical` with user splits. -/
def CatUserFitted.bins (f : CatUserFitted κ) : List (List κ) :=
  (groupCodes true f.splits.length (f.splits.map fun n => ((n : ℕ) : ℤ)) f.groups).map List.flatten ++
    if f.others.length = 0 then [] else [f.others]

end OptBinning
