import Verif.Model.AutoMonotonic

/-! # Model of `metrics/classification.py` -/
namespace OptBinning

/-- classification.py:56-63, entry `k` of `p_diff` for the labels `yy` in the order of increasing score: `cum_event[k]` is the
number of events among the first `k + 1` labels, `cum_population[k] = k` (`np.arange(0, n_samples)`). -/
def ksDiff (y : List Bool) (k : ℕ) : ℚ :=
  let nEvent : ℚ := (y.count true : ℕ)
  let nNonevent : ℚ := (y.length : ℕ) - nEvent
  let cumEvent : ℚ := ((y.take (k + 1)).count true : ℕ)
  let cumPopulation : ℚ := (k : ℕ)
  (cumPopulation - cumEvent) / nNonevent - cumEvent / nEvent

/-- `ks`, classification.py:34-67, after `argsort` (line 53-54): `y` are the labels in the order of increasing score.
`none` when `argmax` of an empty array raises or when a class is missing (division by zero, NaN). -/
def ks (y : List Bool) : Option (ℚ × ℕ) :=
  if y.count true = 0 ∨ y.count false = 0 then none
  else
    let d := (List.range y.length).map (ksDiff y)
    some (d.getD (argmaxIdx d) 0, argmaxIdx d)

/-- Cells of the confusion matrix `tn, fp, fn, tp` (sklearn `confusion_matrix(...).ravel()`), classification.py:86. -/
structure Confusion where
  tn : ℕ
  fp : ℕ
  fn : ℕ
  tp : ℕ

/-- Lines 88-101 of `imbalanced_classification_metrics`: TPR, TNR, FPR, FNR, balanced accuracy. -/
def imbalancedMetrics (c : Confusion) : ℚ × ℚ × ℚ × ℚ × ℚ :=
  let tpr : ℚ := ((c.tp : ℕ) : ℚ) / (((c.tp + c.fn) : ℕ) : ℚ)
  let tnr : ℚ := ((c.tn : ℕ) : ℚ) / (((c.fp + c.tn) : ℕ) : ℚ)
  (tpr, tnr, 1 - tnr, 1 - tpr, (tpr + tnr) / 2)

end OptBinning
