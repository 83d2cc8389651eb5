import Mathlib.Data.Rat.Floor
import Mathlib.Algebra.Order.Field.Rat
import Mathlib.Algebra.Order.Group.Abs
import Mathlib.Data.List.Sort
import Mathlib.Data.List.GetD
import Verif.Model.AutoMonotonic
import Verif.Model.Fit

/-! # Model of `binning/outlier.py` (exact rational arithmetic) -/
namespace OptBinning

/-- `np.sort`. -/
def sortQ (x : List ℚ) : List ℚ := x.insertionSort (· ≤ ·)

/-- `np.percentile` / `np.quantile` (method "linear") of a sorted non-empty array at the fraction `f` in [0, 1]. -/
def quantileSorted (s : List ℚ) (f : ℚ) : ℚ :=
  let pos := f * ((s.length - 1 : ℕ) : ℚ)
  let i := ⌊pos⌋.toNat
  let t := pos - (i : ℕ)
  s.getD i 0 * (1 - t) + s.getD (min (i + 1) (s.length - 1)) 0 * t

/-- outlier.py:103-107, method "ETI". -/
def etiBounds (len : ℚ) (x : List ℚ) : ℚ × ℚ :=
  let s := sortQ x
  (quantileSorted s ((1 - len) / 2), quantileSorted s ((1 + len) / 2))

/-- outlier.py:109-119, method "HDI"; `none` when `argmin` of an empty array raises. -/
def hdiBounds (len : ℚ) (x : List ℚ) : Option (ℚ × ℚ) :=
  let n := x.length
  let s := sortQ x
  let nIncluded := ⌈len * (n : ℕ)⌉.toNat
  let nCi := n - nIncluded
  let ci := List.zipWith (fun b a => b - a) (s.drop nIncluded) (s.take nCi)
  if ci.length = 0 then none
  else
    let j := argminIdx ci
    some (s.getD j 0, s.getD (j + nIncluded) 0)

/-- outlier.py:121-125: the flags for the bounds `lb`, `ub`. -/
def rangeFlag (k : ℚ) (b : ℚ × ℚ) (v : ℚ) : Bool :=
  let iqr := b.2 - b.1
  decide (v > b.2 + k * iqr) || decide (v < b.1 - k * iqr)

/-- `RangeDetector(len, k, method).fit(x).get_support()`, outlier.py:93-127; `hdi` selects the method. -/
def rangeDetector (len k : ℚ) (hdi : Bool) (x : List ℚ) : Except String (List Bool) :=
  if ¬ (0 ≤ len ∧ len ≤ 1) then .error "ValueError"
  else if x.length = 0 then .error "IndexError"
  else if hdi then
    match hdiBounds len x with
    | none => .error "ValueError"
    | some b => .ok (x.map (rangeFlag k b))
  else .ok (x.map (rangeFlag k (etiBounds len x)))

/-- `np.median`. -/
def medianQ (x : List ℚ) : ℚ :=
  let s := sortQ x
  if s.length % 2 = 1 then s.getD (s.length / 2) 0 else (s.getD (s.length / 2 - 1) 0 + s.getD (s.length / 2) 0) / 2

/-- outlier.py:156-160: flag of a value.  For `mad = 0` numpy gives NaN for the median itself (not flagged) and infinity for
all other values (flagged). -/
def zscoreFlag (threshold : ℚ) (x : List ℚ) (v : ℚ) : Bool :=
  let med := medianQ x
  let mad := medianQ (x.map fun a => |a - med|)
  if mad = 0 then decide (v ≠ med) else decide (|0.6745 * (v - med) / mad| > threshold)

/-- `ModifiedZScoreDetector(threshold).fit(x).get_support()`, outlier.py:149-162 (empty arrays give an empty mask). -/
def zscoreDetector (threshold : ℚ) (x : List ℚ) : Except String (List Bool) :=
  if threshold < 0 then .error "ValueError" else .ok (x.map (zscoreFlag threshold x))

/-- `YQuantileDetector(outlier_detector="zscore").fit(x, y).get_support()`, outlier.py:187-227: per quantile bin of `x`, the
flags of the detector on the `y` values of the bin.  The quantile splits (204-205) are an argument. -/
def yQuantileZscore (threshold : ℚ) (splits : List ℚ) (recs : List (ℚ × ℚ)) : List Bool :=
  recs.map fun r =>
    zscoreFlag threshold ((recs.filter fun q => digitize false splits (some q.1) == digitize false splits (some r.1)).map Prod.snd) r.2

end OptBinning
