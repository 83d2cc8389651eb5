import Mathlib.Analysis.SpecialFunctions.Log.Basic

/-! # Specification: scorecards

A record is described by the position of its bin in the table of each selected variable. -/
namespace OptBinning.Spec

/-- What the fitted estimator and binning process hold for one variable: the metric (WoE or mean) shown in the binning table
for the regular, special and missing rows (in this order), the number of special rows, and the coefficient. -/
structure ModelVar where
  metric : List ℝ
  nSpecial : ℕ
  coef : ℝ

/-- The table has at least one regular row, its special rows and one missing row. -/
def ModelVar.Wf (v : ModelVar) : Prop := 1 ≤ v.nSpecial ∧ v.nSpecial + 2 ≤ v.metric.length

/-- The value used for a record of row `k` in the model: the given constant for special/missing rows (if any), otherwise the
metric of the row. -/
noncomputable def ModelVar.value (v : ModelVar) (special missing : Option ℝ) (k : ℕ) : ℝ :=
  if k + 1 = v.metric.length then missing.getD (v.metric.getD k 0)
  else if v.metric.length ≤ k + 1 + v.nSpecial then special.getD (v.metric.getD k 0)
  else v.metric.getD k 0

/-- The linear predictor of the fitted model (`decision_function` of a logistic or linear regression). -/
noncomputable def linear (vars : List ModelVar) (special missing : Option ℝ) (intercept : ℝ) (ks : List ℕ) : ℝ :=
  (List.zipWith (fun v k => v.coef * v.value special missing k) vars ks).sum + intercept

/-- The record has a row in the table of every variable. -/
def Record (vars : List ModelVar) (ks : List ℕ) : Prop := List.Forall₂ (fun (v : ModelVar) k => k < v.metric.length) vars ks

/-- Odds of event implied by a logistic model. -/
noncomputable def eventOdds (lin : ℝ) : ℝ := Real.exp lin

end OptBinning.Spec
