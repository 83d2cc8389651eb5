import Verif.Spec.Metrics
import Verif.Model.ModelData
import Mathlib.Analysis.SpecialFunctions.Sqrt

/-! # Model of `binning/metrics.py`, the WoE transformations and `BinningTable.build`

Floats are real numbers; rounding is not modelled. -/
namespace OptBinning

open Spec (Row)

/-- `scipy.special.xlogy`: `x * log(y)`, 0 if `x = 0`. -/
noncomputable def xlogy (x y : ℝ) : ℝ := if x = 0 then 0 else x * Real.log y

/-- `transform_event_rate_to_woe`, transformations.py:19-38. -/
noncomputable def eventRateToWoe (eventRate nNonevent nEvent : ℝ) : ℝ :=
  Real.log ((1 / eventRate - 1) * nEvent / nNonevent)

/-- `transform_woe_to_event_rate`, transformations.py:41-60. -/
noncomputable def woeToEventRate (woe nNonevent nEvent : ℝ) : ℝ :=
  1 / (1 + nNonevent / nEvent * Real.exp woe)

/-- `entropy`, metrics.py:25-38. -/
noncomputable def entropy (x : List ℝ) : ℝ := -(x.map fun a => xlogy a a).sum

/-- One entry of `kullback_leibler`, metrics.py:81-104. -/
noncomputable def kullbackLeibler (x y : ℝ) : ℝ := xlogy x (x / y)

/-- One entry of `jeffrey`, metrics.py:107-132. -/
noncomputable def jeffrey (x y : ℝ) : ℝ := xlogy (x - y) (x / y)

/-- One entry of `jensen_shannon`, metrics.py:135-157. -/
noncomputable def jensenShannon (x y : ℝ) : ℝ :=
  let m := (x + y) / 2
  (kullbackLeibler x m + kullbackLeibler y m) / 2

/-- One entry of `hellinger`, metrics.py:199-224. -/
noncomputable def hellinger (x y : ℝ) : ℝ := (Real.sqrt x - Real.sqrt y) ^ 2 / 2

/-- One entry of `triangular`, metrics.py:227-253. -/
noncomputable def triangular (x y : ℝ) : ℝ := (x - y) ^ 2 / (x + y)

/-- `ner`, metrics.py:70. -/
noncomputable def nonEventRate (r : Row) : ℝ := (r.nonevent : ℝ) / ((r.event : ℝ) + (r.nonevent : ℝ))

/-- What `np.argsort` guarantees of the re-ordered rows (quicksort: ties in any order). -/
def IsArgsort (sort : List Row → List Row) : Prop :=
  ∀ l, (sort l).Perm l ∧ (sort l).Pairwise fun a b => nonEventRate a ≤ nonEventRate b

/-- `np.dot`. -/
noncomputable def dot (a b : List ℝ) : ℝ := (List.zipWith (· * ·) a b).sum

/-- `gini`, metrics.py:41-78; `sort` is the reordering `[idx]` of line 71. -/
noncomputable def gini (sort : List Row → List Row) (rows : List Row) : ℝ :=
  let kept := rows.filter fun r => decide (0 < r.event + r.nonevent)
  if kept.length ≤ 1 then 0
  else
    let te : ℝ := (kept.map fun r => (r.event : ℝ)).sum
    let tne : ℝ := (kept.map fun r => (r.nonevent : ℝ)).sum
    let sorted := sort kept
    let ev := sorted.map fun r => (r.event : ℝ)
    let ne := sorted.map fun r => (r.nonevent : ℝ)
    let s := 0 :: (cumsumFrom 0 ne.dropLast).map (2 * ·)
    1 - dot ev (List.zipWith (· + ·) ne s) / (te * tne)

/-- `hhi`, metrics.py:307-329, `normalized=False`. -/
noncomputable def hhi (s : List ℝ) : ℝ := (s.map fun a => a ^ 2).sum

/-- `hhi`, metrics.py:321-327, `normalized=True`. -/
noncomputable def hhiNorm (s : List ℝ) : ℝ :=
  if s.length = 1 then 1
  else
    let n1 : ℝ := 1 / (s.length : ℝ)
    (hhi s - n1) / (1 - n1)

/-- The constant `c` of `binning_quality_score`, metrics.py:334. -/
noncomputable def qualityC : ℝ := 0.39573882184806863

/-- `binning_quality_score`, metrics.py:332-344. -/
noncomputable def qualityScore (iv : ℝ) (pValues : List ℝ) (hhiN : ℝ) : ℝ :=
  (iv * Real.exp (1 / 2 * (1 - (iv / qualityC) ^ 2)) / qualityC) * (pValues.map fun p => 1 - p).prod * (1 - hhiN)

/-- `multiclass_binning_quality_score`, metrics.py:347-350. -/
noncomputable def multiclassQualityScore (js : ℝ) (nClasses : ℕ) (pValues : List ℝ) (hhiN : ℝ) : ℝ :=
  qualityScore (js / Real.log nClasses) pValues hhiN

/-- `continuous_binning_quality_score`, metrics.py:353-367. -/
noncomputable def continuousQualityScore (rwoe : ℝ) (pValues : List ℝ) (hhiN : ℝ) : ℝ :=
  (if rwoe = 0 then 0 else max (1 - 1 / rwoe) 0) * (pValues.map fun p => 1 - p).prod * (1 - hhiN)

/-- Maximum of a list of non-negative numbers (`np.max` of absolute values). -/
noncomputable def maxAbs (l : List ℝ) : ℝ := (l.map fun a => |a|).foldr max 0

/-- The statistics computed by `BinningTable.build`. -/
structure BuiltTable where
  eventRate : List ℝ
  woe : List ℝ
  iv : List ℝ
  js : List ℝ
  tIv : ℝ
  tJs : ℝ
  tHellinger : ℝ
  tTriangular : ℝ
  gini : ℝ
  ks : ℝ
  hhi : ℝ
  hhiNorm : ℝ

/-- `mask`, binning_statistics.py:528. -/
def Spec.Row.mixed (r : Row) : Bool := decide (0 < r.event) && decide (0 < r.nonevent)

/-- The values computed by `BinningTable.build`, binning_statistics.py:515-562 (labels and data frame omitted). -/
noncomputable def buildCore (sort : List Row → List Row) (rows : List Row) : BuiltTable :=
  let te : ℝ := (rows.map fun r => (r.event : ℝ)).sum
  let tne : ℝ := (rows.map fun r => (r.nonevent : ℝ)).sum
  let total : ℝ := tne + te
  let pRecords := rows.map fun r => ((r.event : ℝ) + (r.nonevent : ℝ)) / total
  let pEvent := rows.map fun r => (r.event : ℝ) / te
  let pNonevent := rows.map fun r => (r.nonevent : ℝ) / tne
  let er := rows.map fun r => if r.mixed then (r.event : ℝ) / ((r.event : ℝ) + (r.nonevent : ℝ)) else 0
  let constant := Real.log (te / tne)
  let woe := (rows.zip er).map fun p => if p.1.mixed then Real.log (1 / p.2 - 1) + constant else 0
  let iv := rows.map fun r => if r.mixed then jeffrey (r.event / te) (r.nonevent / tne) else 0
  let js := rows.map fun r => if r.mixed then jensenShannon (r.event / te) (r.nonevent / tne) else 0
  let kept := rows.filter Spec.Row.mixed
  { eventRate := er, woe := woe, iv := iv, js := js, tIv := iv.sum, tJs := js.sum
    tHellinger := (kept.map fun r => OptBinning.hellinger (r.event / te) (r.nonevent / tne)).sum
    tTriangular := (kept.map fun r => OptBinning.triangular (r.event / te) (r.nonevent / tne)).sum
    gini := OptBinning.gini sort rows
    ks := maxAbs (List.zipWith (· - ·) (cumsumFrom 0 pEvent) (cumsumFrom 0 pNonevent))
    hhi := OptBinning.hhi pRecords
    hhiNorm := OptBinning.hhiNorm pRecords }

/-- `BinningTable.build`, binning_statistics.py:498-608.  `jeffrey` (line 546) validates its arguments with sklearn's
`check_array` (metrics.py:16-22), which rejects arrays without entries: `build` raises if no row is mixed. -/
noncomputable def buildTable (sort : List Row → List Row) (rows : List Row) : Except String BuiltTable :=
  if rows.filter Spec.Row.mixed = [] then .error "ValueError: Found array with 0 sample(s)"
  else .ok (buildCore sort rows)

end OptBinning
