import Verif.Spec.Scorecard
import Mathlib.Algebra.Order.Floor.Defs
import Mathlib.Algebra.Order.Floor.Ring
import Mathlib.Algebra.Order.Archimedean.Real.Basic
import Mathlib.Algebra.Ring.Parity

/-! # Model of `scorecard/scorecard.py` and `scorecard/rounding.py` (real arithmetic)

Variable names are taken to be distinct: the code selects rows by name, the model by position. -/
namespace OptBinning
open Spec (ModelVar)

/-- `np.min` / `np.max` of a non-empty array. -/
noncomputable def minR : List ℝ → ℝ
  | [] => 0
  | [a] => a
  | a :: b :: l => min a (minR (b :: l))
noncomputable def maxR : List ℝ → ℝ
  | [] => 0
  | [a] => a
  | a :: b :: l => max a (maxR (b :: l))

/-- scorecard.py:597-609: the column `Points` of one variable before scaling.  `ms`, `mm` are `none` for `"empirical"`. -/
noncomputable def rawPoints (ms mm : Option ℝ) (v : ModelVar) : List ℝ :=
  let nt := v.metric.length
  let pts := v.metric.map fun m => m * v.coef
  let pts := match ms with
    | none => pts
    | some s => pts.mapIdx fun j p => if nt - 1 - v.nSpecial ≤ j ∧ j ≤ nt - 2 then s * v.coef else p
  match mm with
  | none => pts
  | some s => pts.mapIdx fun j p => if j = nt - 1 then s * v.coef else p

/-- `scaling_method` with `scaling_method_params`. -/
inductive Scaling
  | none
  | pdoOdds (pdo odds points : ℝ)
  | minMax (a b : ℝ)

/-- `_compute_scorecard_points`, scorecard.py:121-156, and 618-625. -/
noncomputable def scalePoints (sc : Scaling) (intercept : ℝ) (reverse : Bool) (tables : List (List ℝ)) : List (List ℝ) :=
  let n : ℝ := (tables.length : ℝ)
  let sense : ℝ := if reverse then -1 else 1
  match sc with
  | .none => tables
  | .pdoOdds pdo odds points =>
    let factor := pdo / Real.log 2
    let offset := points - factor * Real.log odds
    tables.map fun t => t.map fun p => -(sense * p + intercept / n) * factor + offset / n
  | .minMax a b =>
    let minP := (tables.map minR).sum
    let maxP := (tables.map maxR).sum
    let smin := intercept + minP
    let smax := intercept + maxP
    let slope := sense * (a - b) / (smax - smin)
    let shift := if reverse then a - slope * smin else b - slope * smin
    let base := shift + slope * intercept
    tables.map fun t => t.map fun p => base / n + slope * p

/-- `_compute_intercept_based`, scorecard.py:159-174. -/
noncomputable def interceptBased (tables : List (List ℝ)) : List (List ℝ) × ℝ :=
  (tables.map fun t => t.map fun p => p - minR t, (tables.map minR).sum)

/-- `np.rint`: to the nearest integer, ties to the even one. -/
noncomputable def rint (x : ℝ) : ℤ :=
  if x - ⌊x⌋ < 1 / 2 then ⌊x⌋
  else if 1 / 2 < x - ⌊x⌋ then ⌊x⌋ + 1
  else if ⌊x⌋ % 2 = 0 then ⌊x⌋ else ⌊x⌋ + 1

/-- The constraints of `RoundingMIP.build_model`, rounding.py:21-77, on the integer points `p`; the variables `min_b`,
`max_b` are existential, `tp`, `tm` are eliminated (67: they hold the positive and negative part of the error, which is the
objective). -/
def RoundingFeasible (points : List (List ℝ)) (p : List (List ℤ)) : Prop :=
  let minP := minR (points.map minR)
  let maxP := maxR (points.map maxR)
  List.Forall₂ (fun a b => a.length = b.length) points p ∧
  (∀ t ∈ p, ∀ q ∈ t, minP ≤ (q : ℝ) ∧ (q : ℝ) ≤ maxP) ∧
  ∃ minB maxB : List ℤ,
    (∀ q ∈ minB, minP ≤ (q : ℝ) ∧ (q : ℝ) ≤ maxP) ∧ (∀ q ∈ maxB, minP ≤ (q : ℝ) ∧ (q : ℝ) ≤ maxP) ∧
    List.Forall₂ (fun t m => ∀ q ∈ t, q ≤ m) p maxB ∧ List.Forall₂ (fun t m => ∀ q ∈ t, m ≤ q) p minB ∧
    minB.sum = rint (points.map minR).sum ∧ maxB.sum = rint (points.map maxR).sum

/-- The objective of `RoundingMIP`, rounding.py:61-62 with 67: total absolute error. -/
noncomputable def roundingCost (points : List (List ℝ)) (p : List (List ℤ)) : ℝ :=
  (List.zipWith (fun (t : List ℝ) (q : List ℤ) => (List.zipWith (fun (a : ℝ) (b : ℤ) => |a - (b : ℝ)|) t q).sum) points p).sum

/-- Options of `Scorecard` used after the estimator is fitted. -/
structure ScOpts where
  scaling : Scaling := .none
  reverse : Bool := false
  interceptBased : Bool := false
  rounding : Bool := false

/-- The attributes `_df_scorecard.Points` (per variable) and `intercept_`. -/
structure Card where
  points : List (List ℝ)
  intercept : ℝ

/-- `np.rint` of every point. -/
noncomputable def rintAll (t : List (List ℝ)) : List (List ℝ) := t.map fun l => l.map fun p => (rint p : ℝ)

/-- `Scorecard._fit`, scorecard.py:582-658: from coefficients and tables to points.  `mip` is the answer of the rounding
solver (`none`: status neither OPTIMAL nor FEASIBLE); `old` is the attribute `intercept_` before the call (0 for a new object,
scorecard.py:248). -/
noncomputable def buildCard (o : ScOpts) (ms mm : Option ℝ) (mip : List (List ℝ) → Option (List (List ℤ))) (intercept : ℝ)
    (vars : List ModelVar) (old : ℝ) : Card :=
  let tables := vars.map (rawPoints ms mm)
  let tables := scalePoints o.scaling intercept o.reverse tables
  let c : Card := if o.interceptBased then ⟨(interceptBased tables).1, (interceptBased tables).2⟩ else ⟨tables, old⟩
  if o.rounding then
    let pts := match o.scaling with
      | .minMax _ _ => match mip c.points with
        | some p => p.map fun (l : List ℤ) => l.map fun (q : ℤ) => (q : ℝ)
        | none => rintAll c.points
      | _ => rintAll c.points
    ⟨pts, if o.interceptBased then (rint c.intercept : ℝ) else c.intercept⟩
  else c

/-- numpy indexing with a possibly negative index (an index out of range raises; here 0). -/
noncomputable def npGet (l : List ℝ) (k : ℤ) : ℝ := if 0 ≤ k then l.getD k.toNat 0 else l.getD (l.length + k).toNat 0

/-- `Scorecard.score`, scorecard.py:396-421, for one record whose bin indices
(`transform(metric="indices", "empirical", "empirical")`) are `ks`. -/
noncomputable def Card.score (c : Card) (ks : List ℤ) : ℝ := (List.zipWith npGet c.points ks).sum + c.intercept

end OptBinning
