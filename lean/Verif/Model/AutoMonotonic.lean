import Verif.Spec.Options
import Mathlib.Data.Rat.Defs
import Mathlib.Algebra.Order.Ring.Rat
import Mathlib.Data.Sign.Basic
import Mathlib.Algebra.Order.Field.Rat
import Mathlib.Algebra.Order.Floor.Defs

/-! # Model of `binning/auto_monotonic.py` (over exact rational numbers) -/
namespace OptBinning

/-- `x[1:] - x[:-1]`. -/
def diffs (x : List ℚ) : List ℚ := List.zipWith (fun b a => b - a) x.tail x

/-- `n_peaks_valleys`, auto_monotonic.py:13-26. -/
def nPeaksValleys (x : List ℚ) : ℕ :=
  let s := (diffs x).map fun d => SignType.sign d
  (List.zipWith (fun a b => decide (a ≠ b)) s.tail s).count true

/-- `np.argmax`: first position of a largest entry. -/
def argmaxIdx (x : List ℚ) : ℕ := x.findIdx fun a => x.all fun b => decide (b ≤ a)
/-- `np.argmin`. -/
def argminIdx (x : List ℚ) : ℕ := x.findIdx fun a => x.all fun b => decide (a ≤ b)

/-- `_is_peak`, auto_monotonic.py:365-374. -/
def isPeak (x : List ℚ) : Bool :=
  let t := argmaxIdx x
  (diffs (x.take (t + 1))).all (fun d => decide (0 ≤ d)) && (diffs (x.drop t)).all fun d => decide (d ≤ 0)

/-- `_is_valley`, auto_monotonic.py:377-386. -/
def isValley (x : List ℚ) : Bool :=
  let t := argminIdx x
  (diffs (x.drop t)).all (fun d => decide (0 ≤ d)) && (diffs (x.take (t + 1))).all fun d => decide (d ≤ 0)

/-- `_is_convex`, auto_monotonic.py:389-400. -/
def isConvex : List ℚ → Bool
  | a :: b :: c :: l => decide (0 ≤ c - 2 * b + a) && isConvex (b :: c :: l)
  | _ => true

/-- `_is_concave`, auto_monotonic.py:403-414. -/
def isConcave : List ℚ → Bool
  | a :: b :: c :: l => decide (0 ≤ -c + 2 * b - a) && isConcave (b :: c :: l)
  | _ => true

/-- `type_of_monotonic_trend`, auto_monotonic.py:417-438. -/
def typeOfMonotonicTrend (x : List ℚ) : String :=
  if x.length = 1 then "undefined"
  else if 1 ≤ nPeaksValleys x then
    if isPeak x then (if isConcave x then "peak (concave)" else "peak")
    else if isValley x then (if isConvex x then "valley (convex)" else "valley")
    else "no monotonic"
  else if (diffs x).all fun d => decide (0 ≤ d) then "ascending"
  else "descending"

/-- The trend reported by `BinningTable.analysis`, binning_statistics.py:975: computed from all rows of the table but the last
two. -/
def analysisTrend (rates : List ℚ) : String := typeOfMonotonicTrend (rates.take (rates.length - 2))

/-- The data of `auto_monotonic_data` used by the decision functions (auto_monotonic.py:136-153, 335-342).  `none` is NaN. -/
structure AutoData where
  pTrendChanges : Option ℚ
  lrSense : ℤ
  pRecordsMinLeft : Option ℚ
  pRecordsMinRight : Option ℚ
  pRecordsMaxLeft : Option ℚ
  pRecordsMaxRight : Option ℚ
  pArea : Option ℚ
  pConvexHull : Option ℚ

/-- Comparison `v <= c`; false for NaN. -/
def leq (v : Option ℚ) (c : ℚ) : Bool := v.elim false fun a => decide (a ≤ c)

/-- auto_monotonic.py:282-289: the final dispatch; `none` is Python's `None`. -/
def trendName (k : ℕ) : Option String :=
  if k = 0 then some "ascending" else if k = 1 then some "descending" else if k = 2 then some "peak"
  else if k = 3 then some "valley" else none

/-- `auto_monotonic_decision`, auto_monotonic.py:231-289. -/
def autoDecision (d : AutoData) : Option String :=
  trendName <|
    if leq d.pArea 0.22145836800336838 then
      if d.lrSense = 0 then
        if leq d.pConvexHull 0.48331470787525177 then
          if leq d.pRecordsMinRight 0.010740397498011589 then 1
          else if leq d.pRecordsMinRight 0.022145185619592667 then 3 else 1
        else if leq d.pRecordsMaxRight 0.6426683664321899 then 3 else 1
      else 0
    else
      if leq d.pRecordsMinRight 0.06137961149215698 then
        if leq d.pConvexHull 0.23837491869926453 then 1
        else if leq d.pRecordsMaxLeft 0.10170064494013786 then
          if leq d.pRecordsMaxLeft 0.01817034650593996 then 3 else 1
        else 2
      else if leq d.pRecordsMinLeft 0.05336669087409973 then
        if leq d.pRecordsMaxRight 0.0695494469255209 then 0
        else if leq d.pRecordsMaxLeft 0.14705360680818558 then 0 else 2
      else if leq d.pRecordsMinLeft 0.8308950066566467 then 3
      else if leq d.pRecordsMaxRight 0.1587613895535469 then 3 else 2

/-- auto_monotonic.py:328-331. -/
def ascDescName (k : ℕ) : Option String :=
  if k = 0 then some "ascending" else if k = 1 then some "descending" else none

/-- `auto_monotonic_asc_desc_decision`, auto_monotonic.py:292-331. -/
def autoAscDescDecision (d : AutoData) : Option String :=
  ascDescName <|
    if d.lrSense = 0 then
      if leq d.pArea 0.4890555590391159 then
        if leq d.pRecordsMaxRight 0.029244758188724518 then 0 else 1
      else if leq d.pConvexHull 0.5553120970726013 then 0 else 1
    else
      if leq d.pRecordsMaxLeft 0.03698493912816048 then 1
      else if leq d.pRecordsMinLeft 0.7991077601909637 then
        if leq d.pArea 0.48206718266010284 then 0
        else if leq d.pRecordsMaxLeft 0.8631451725959778 then 0 else 1
      else if leq d.pTrendChanges 0.5277777910232544 then
        if leq d.pRecordsMinLeft 0.8155287206172943 then 1 else 0
      else 1

/-- numpy division of floats: NaN for 0/0, and `none` for ±inf as well (never compared below). -/
def npDiv (a b : ℚ) : Option ℚ := if b = 0 then none else some (a / b)

/-- Determinant of the 3×3 matrix of `extreme_points_area`, auto_monotonic.py:68-74. -/
def triArea (x1 x2 x3 y1 y2 y3 : ℚ) : ℚ := |x1 * (y2 - y3) - x2 * (y1 - y3) + x3 * (y1 - y2)| / 2

/-- `extreme_points_area`, auto_monotonic.py:38-81. -/
def extremePointsArea (x : List ℚ) : Option ℚ :=
  let n : ℚ := (x.length : ℕ)
  let pmin := argminIdx x
  let pmax := argmaxIdx x
  if 0 < x.length - 2 then
    let y0 := x.getD 0 0
    let ymin := x.getD pmin 0
    let ymax := x.getD pmax 0
    let yl := x.getD (x.length - 1) 0
    npDiv (triArea 0 pmin pmax y0 ymin ymax + triArea pmin pmax n ymin ymax yl) ((ymax - ymin) * n)
  else some 0

/-- Numerator of the least-squares slope of `np.polyfit(arange(n), x, deg=1)` (its denominator is positive for n ≥ 2). -/
def slopeNum (x : List ℚ) : ℚ :=
  ((x.zipIdx.map fun p => ((p.2 : ℕ) : ℚ) * p.1).sum) * (x.length : ℕ) - ((x.zipIdx.map fun p => ((p.2 : ℕ) : ℚ)).sum) * x.sum

/-- `auto_monotonic_data`, auto_monotonic.py:84-155.  `hull` is the external convex-hull ratio (lines 120-134). -/
def autoData (hull : List ℚ → Option ℚ) (nonevent event : List ℕ) : Except String AutoData :=
  let n := nonevent.length
  let records := List.zipWith (· + ·) nonevent event
  let rate := List.zipWith (fun e r => ((e : ℕ) : ℚ) / ((r : ℕ) : ℚ)) event records
  let pmin := argminIdx rate
  let pmax := argmaxIdx rate
  let total : ℚ := (records.sum : ℕ)
  if n = 0 then .error "ValueError"
  else if n = 1 then .error "ZeroDivisionError"
  else .ok
    { pTrendChanges := npDiv (nPeaksValleys rate : ℕ) (n : ℕ)
      lrSense := if 0 < slopeNum rate then 1 else 0
      pRecordsMinLeft := npDiv ((records.take pmin).sum : ℕ) total
      pRecordsMinRight := npDiv ((records.drop (pmin + 1)).sum : ℕ) total
      pRecordsMaxLeft := npDiv ((records.take pmax).sum : ℕ) total
      pRecordsMaxRight := npDiv ((records.drop (pmax + 1)).sum : ℕ) total
      pArea := extremePointsArea rate
      pConvexHull := hull rate }

/-- Values of `monotonic_trend` accepted by `OptimalBinning` (binning.py:148-151). -/
inductive TrendArg
  | none | auto | autoHeuristic | autoAscDesc | ascending | descending | concave | convex | peak | valley | peakHeuristic
  | valleyHeuristic
deriving DecidableEq

/-- `_auto_monotonic_decision`, auto_monotonic.py:334-352. -/
def decide' (d : AutoData) : TrendArg → Option String
  | .auto => autoDecision d
  | .autoHeuristic => autoDecision d
  | .autoAscDesc => autoAscDescDecision d
  | _ => none

/-- The trend constraint the solver adds for a string (cp.py:123-151); any other value adds none. -/
def trendOfName (tc : ℕ) : Option String → Trend
  | some "ascending" => .ascending
  | some "descending" => .descending
  | some "peak" => .peak
  | some "valley" => .valley
  | some "peak_heuristic" => .peakHeuristic tc
  | some "valley_heuristic" => .valleyHeuristic tc
  | _ => .unconstrained

/-- `OptimalBinning._fit_optimizer`, binning.py:944-982, numerical variable: the trend handed to the solver. -/
def resolveTrend (hull : List ℚ → Option ℚ) (nonevent event : List ℕ) (arg : TrendArg) : Except String Trend :=
  let rate := List.zipWith (fun e r => ((e : ℕ) : ℚ) / ((r : ℕ) : ℚ)) event (List.zipWith (· + ·) nonevent event)
  match arg with
  | .none => .ok .unconstrained
  | .ascending => .ok .ascending
  | .descending => .ok .descending
  | .concave => .ok .concave
  | .convex => .ok .convex
  | .peak => .ok .peak
  | .valley => .ok .valley
  | .peakHeuristic => .ok (.peakHeuristic (argmaxIdx rate))
  | .valleyHeuristic => .ok (.valleyHeuristic (argminIdx rate))
  | .auto => do let d ← autoData hull nonevent event; pure (trendOfName 0 (decide' d .auto))
  | .autoAscDesc => do let d ← autoData hull nonevent event; pure (trendOfName 0 (decide' d .autoAscDesc))
  | .autoHeuristic => do
      let d ← autoData hull nonevent event
      match decide' d .autoHeuristic with
      | some "peak" => pure (trendOfName (argmaxIdx rate) (some "peak_heuristic"))
      | some "valley" => pure (trendOfName (argminIdx rate) (some "valley_heuristic"))
      | o => pure (trendOfName 0 o)

end OptBinning
