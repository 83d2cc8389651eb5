import Verif.Model.Categorical
import Verif.Model.Metrics

/-! # Model of `transform(metric="event_rate")` and `transform(metric="woe")`, transformations.py:270-316 -/
namespace OptBinning
open Spec (Row)

variable {α : Type*} [LinearOrder α] {κ : Type} [LinearOrder κ]

/-- transformations.py:282-288 `woe[i]`: 0 for pure rows. -/
noncomputable def tableWoe (nonevent event : List ℕ) (i : ℕ) : ℝ :=
  if 0 < event.getD i 0 ∧ 0 < nonevent.getD i 0 then
    eventRateToWoe ((tableRate nonevent event i : ℚ) : ℝ) (nonevent.sum : ℕ) (event.sum : ℕ)
  else 0

/-- transformations.py:291-295: the value for unknown categories if `cat_unknown is None`. -/
noncomputable def meanWoe (nb : ℕ) (ms mm : MetricOpt) (nonevent event : List ℕ) : ℝ :=
  eventRateToWoe ((meanEventRate nb ms mm nonevent event : ℚ) : ℝ) (nonevent.sum : ℕ) (event.sum : ℕ)

/-- `transform(x, metric="event_rate", metric_special, metric_missing)` of a numerical variable, `cat_unknown=None`. -/
def transformRate (f : Fitted α) (sc : SpecialCodes α) (ms mm : MetricOpt) (x : List (Option α)) : List ℚ :=
  x.map (transformOne f.splits sc (tableRate f.nonevent f.event)
    (meanEventRate (f.splits.length + 1) ms mm f.nonevent f.event) ms.forRate mm.forRate)

/-- `transform(x, metric="woe", metric_special, metric_missing)` of a numerical variable, `cat_unknown=None`. -/
noncomputable def transformWoe (f : Fitted α) (sc : SpecialCodes α) (ms mm : MetricOpt) (x : List (Option α)) : List ℝ :=
  x.map (transformOne f.splits sc (tableWoe f.nonevent f.event)
    (meanWoe (f.splits.length + 1) ms mm f.nonevent f.event) (ms.forRate.map fun (q : ℚ) => (q : ℝ)) (mm.forRate.map fun (q : ℚ) => (q : ℝ)))

/-- `transform(x, metric="woe", …)` of a categorical variable, `cat_unknown` `None` or a float. -/
noncomputable def transformCatWoe (bins : List (List κ)) (nonevent event : List ℕ) (sc : SpecialCodes κ) (cu : Option ℚ)
    (ms mm : MetricOpt) (x : List (Option κ)) : List ℝ :=
  x.map (transformCat bins sc (tableWoe nonevent event)
    (match cu with | some q => (q : ℝ) | none => meanWoe bins.length ms mm nonevent event)
    (ms.forRate.map fun (q : ℚ) => (q : ℝ)) (mm.forRate.map fun (q : ℚ) => (q : ℝ)))

/-- The rows of the binning table built from the two count columns (binning_statistics.py:515-518). -/
def rowsOf (nonevent event : List ℕ) : List Row := List.zipWith Row.mk nonevent event

end OptBinning
