import Verif.Spec.Counterfactual
import Mathlib.Algebra.BigOperators.Intervals

/-! # Model of `scorecard/counterfactual` (`mip.py`, `multi_mip.py`, `model_data.py`, `counterfactual.py`)

Floats are real numbers.  The MIP solver is external: an answer is any assignment of the decision variables that satisfies the
constraints.  `CFMIP` (one counterfactual) and `MCFMIP` (`K` counterfactuals) generate the same constraints for each counterfactual.
The piecewise linear approximation of the logistic function (`utils.py`, package RobustPWRegression) is external. -/
namespace OptBinning

open Finset

/-- `outcome_type` and `y`.  For "probability": the pieces `(b_pw[r][0], b_pw[r][1], c_pw[r][0], c_pw[r][1])` of `logistic_pw`. -/
inductive CFOutcome
  | binary (y : Bool)
  | probability (y : ℝ) (pieces : List (ℝ × ℝ × ℝ × ℝ))
  | continuous (y : ℝ)

/-- Options of `generate` after its preparation, counterfactual.py:426-446: `none` for an objective or soft constraint that is not given. -/
structure CFCfg where
  K : ℕ := 1
  proximity : Option ℝ := some 1
  closeness : Option ℝ := some 1
  maxChanges : ℤ
  nonActionable : List ℕ := []
  minOutcome : Bool := false
  maxOutcome : Bool := false
  diffOutcome : Option ℝ := none
  hardFeatures : Bool := false
  hardValues : Bool := false
  softFeatures : Option ℝ := none
  softValues : Option ℝ := none

/-- model_data.py:19-36 for one variable: `values` is the metric column of the detailed table of the variable.  The result is
`zip indices metric`. -/
noncomputable def cfModelData (values : List ℝ) (x : ℝ) (specialMissing : Bool) : List (ℕ × ℝ) :=
  let v := if specialMissing then values else values.take (values.length - 2)
  v.zipIdx.filterMap fun q => if q.1 ≠ x then some (q.2, q.1) else none

/-- The data of `build_model`, mip.py:32-36; `F`, `mu`, `wrange` of problem_data.py:11-56. -/
structure CFData where
  p : ℕ
  x : ℕ → ℝ
  cands : ℕ → List (ℕ × ℝ)
  intercept : ℝ
  coef : ℕ → ℝ
  wrange : ℕ → ℝ
  F : ℕ → ℕ → ℝ
  mu : ℕ → ℝ

/-- `nbins[i]`. -/
def CFData.nbins (d : CFData) (i : ℕ) : ℕ := (d.cands i).length

/-- `metric[i][j]`. -/
def CFData.metric (d : CFData) (i j : ℕ) : ℝ := ((d.cands i).getD j (0, 0)).2

/-- The decision variables of one counterfactual, mip.py:219-260, multi_mip.py:277-306. -/
structure CFVars where
  xp : ℕ → ℝ
  a : ℕ → ℤ
  z : ℕ → ℕ → ℤ
  tp : ℕ → ℝ
  tm : ℕ → ℝ
  mp : ℕ → ℝ
  mm : ℕ → ℝ
  qp : ℝ
  qm : ℝ
  f : ℝ
  h : ℕ → ℝ
  s : ℕ → ℤ

/-- Bounds of the decision variables, mip.py:234-258. -/
def cfBounds (d : CFData) (v : CFVars) : Prop :=
  (∀ i < d.p, 0 ≤ v.a i ∧ v.a i ≤ d.nbins i ∧ (∀ j < d.nbins i, v.z i j = 0 ∨ v.z i j = 1) ∧
    0 ≤ v.tp i ∧ 0 ≤ v.tm i ∧ 0 ≤ v.mp i ∧ 0 ≤ v.mm i) ∧
  0 ≤ v.qp ∧ 0 ≤ v.qm ∧ 0 ≤ v.f ∧ v.f ≤ 1 ∧ ∀ r, v.s r = 0 ∨ v.s r = 1

/-- `add_constraint_proximity`, mip.py:262-270, multi_mip.py:319-329. -/
def cfProximity (d : CFData) (v : CFVars) : Prop :=
  ∀ i < d.p, v.tp i - v.tm i = d.x i - v.xp i ∧
    v.xp i = d.x i + ∑ j ∈ range (d.nbins i), (d.metric i j - d.x i) * (v.z i j : ℝ)

/-- `add_constraint_closeness`, mip.py:272-276, multi_mip.py:331-336. -/
def cfCloseness (d : CFData) (v : CFVars) : Prop :=
  ∀ i < d.p, v.mp i - v.mm i = ∑ j ∈ Ico i d.p, d.F j i * (v.xp j - d.mu j)

/-- `add_constraint_max_changes`, mip.py:278-283, multi_mip.py:338-346. -/
def cfMaxChanges (d : CFData) (maxChanges : ℤ) (v : CFVars) : Prop :=
  (∀ i < d.p, v.a i = ∑ j ∈ range (d.nbins i), v.z i j ∧ v.a i ≤ 1) ∧ ∑ i ∈ range d.p, v.a i ≤ maxChanges

/-- `add_constraint_actionable`, mip.py:285-287, multi_mip.py:348-351. -/
def cfActionable (nonActionable : List ℕ) (v : CFVars) : Prop := ∀ i ∈ nonActionable, v.a i = 0

/-- `activation`, mip.py:290-291, 302-303. -/
noncomputable def cfActivation (d : CFData) (v : CFVars) : ℝ := d.intercept + ∑ i ∈ range d.p, d.coef i * v.xp i

/-- `add_constraint_opposite`, mip.py:289-296, multi_mip.py:353-361. -/
def cfOpposite (d : CFData) (y : Bool) (v : CFVars) : Prop :=
  if y then cfActivation d v ≥ 1 / 10 ^ 6 else cfActivation d v ≤ 0

/-- `add_constraint_min_max_diff_outcome`, continuous, mip.py:328-336, multi_mip.py:396-404. -/
def cfContinuous (d : CFData) (c : CFCfg) (y : ℝ) (v : CFVars) : Prop :=
  (c.minOutcome → cfActivation d v ≥ y) ∧ (c.maxOutcome → cfActivation d v ≤ y) ∧
  (c.diffOutcome.isSome → v.qp - v.qm = cfActivation d v - y)

/-- `add_constraint_min_max_diff_outcome`, probability, mip.py:305-327, multi_mip.py:371-395. -/
def cfProbability (d : CFData) (c : CFCfg) (y : ℝ) (pieces : List (ℝ × ℝ × ℝ × ℝ)) (v : CFVars) : Prop :=
  ∑ r ∈ range pieces.length, v.h r = cfActivation d v ∧
  ∑ r ∈ range pieces.length, ((pieces.getD r (0, 0, 0, 0)).2.2.2 * v.h r + (pieces.getD r (0, 0, 0, 0)).2.2.1 * (v.s r : ℝ)) = v.f ∧
  ∑ r ∈ range pieces.length, v.s r = 1 ∧
  (∀ r < pieces.length, (pieces.getD r (0, 0, 0, 0)).1 * (v.s r : ℝ) ≤ v.h r ∧ v.h r ≤ (pieces.getD r (0, 0, 0, 0)).2.1 * (v.s r : ℝ)) ∧
  (c.minOutcome → v.f ≥ y) ∧ (c.maxOutcome → v.f ≤ y) ∧ (c.diffOutcome.isSome → v.qp - v.qm = v.f - y)

/-- mip.py:89-96, multi_mip.py:72-80. -/
def cfOutcome (d : CFData) (c : CFCfg) (o : CFOutcome) (v : CFVars) : Prop :=
  match o with
  | .binary y => cfOpposite d y v
  | .probability y pieces => cfProbability d c y pieces v
  | .continuous y => cfContinuous d c y v

/-- The constraints of one counterfactual, mip.py:74-96, multi_mip.py:56-80. -/
def cfSingle (d : CFData) (c : CFCfg) (o : CFOutcome) (v : CFVars) : Prop :=
  cfBounds d v ∧ (c.proximity.isSome → cfProximity d v) ∧ (c.closeness.isSome → cfCloseness d v) ∧
  cfMaxChanges d c.maxChanges v ∧ cfActionable c.nonActionable v ∧ cfOutcome d c o v

/-- The decision variables of `MCFMIP`, multi_mip.py:260-317. -/
structure CFMulti where
  v : ℕ → CFVars
  u : ℕ → ℕ → ℕ → ℤ
  d : ℕ → ℕ → ℕ → ℕ → ℤ

/-- Diversity constraints for the counterfactuals `k < l`, multi_mip.py:82-105. -/
def cfDiversity (d : CFData) (c : CFCfg) (m : CFMulti) (k l : ℕ) : Prop :=
  (∀ i < d.p, (m.u k l i = 0 ∨ m.u k l i = 1) ∧
    m.u k l i ≤ (m.v k).a i + (m.v l).a i ∧ m.u k l i ≥ (m.v k).a i - (m.v l).a i ∧
    m.u k l i ≥ (m.v l).a i - (m.v k).a i ∧ m.u k l i ≤ 2 - (m.v k).a i - (m.v l).a i ∧
    (∀ j < d.nbins i, (m.d k l i j = 0 ∨ m.d k l i j = 1) ∧
      m.d k l i j ≤ (m.v k).z i j + (m.v l).z i j ∧ m.d k l i j ≥ (m.v k).z i j - (m.v l).z i j ∧
      m.d k l i j ≥ -(m.v k).z i j + (m.v l).z i j ∧ m.d k l i j ≤ 2 - (m.v k).z i j - (m.v l).z i j) ∧
    (c.hardValues → ∑ j ∈ range (d.nbins i), m.d k l i j ≥ (m.v k).a i + (m.v l).a i - 1)) ∧
  (c.hardFeatures → ∑ i ∈ range d.p, m.u k l i ≥ 1)

/-- All constraints of `MCFMIP`; for `K = 1` those of `CFMIP`. -/
def cfModel (d : CFData) (c : CFCfg) (o : CFOutcome) (m : CFMulti) : Prop :=
  (∀ k < c.K, cfSingle d c o (m.v k)) ∧ ∀ k < c.K, ∀ l, k < l → l < c.K → cfDiversity d c m k l

/-- `compute_objectives`, mip.py:338-361, multi_mip.py:406-452. -/
noncomputable def cfComponent (d : CFData) (K : ℕ) (m : CFMulti) : Spec.Objective → ℝ
  | .proximity => ∑ k ∈ range K, ∑ i ∈ range d.p, d.wrange i * ((m.v k).tp i + (m.v k).tm i)
  | .closeness => ∑ k ∈ range K, ∑ i ∈ range d.p, ((m.v k).mp i + (m.v k).mm i)
  | .diffOutcome => ∑ k ∈ range K, ((m.v k).qp + (m.v k).qm)
  | .diversityFeatures => -∑ k ∈ range K, ∑ l ∈ Ico (k + 1) K, ∑ i ∈ range d.p, (m.u k l i : ℝ)
  | .diversityValues => -∑ k ∈ range K, ∑ l ∈ Ico (k + 1) K, ∑ i ∈ range d.p, ∑ j ∈ range (d.nbins i), (m.d k l i j : ℝ)

/-- `weights`, mip.py:65, multi_mip.py:46: the given objectives and soft constraints with their weights. -/
def CFCfg.weight (c : CFCfg) : Spec.Objective → Option ℝ
  | .proximity => c.proximity
  | .closeness => c.closeness
  | .diffOutcome => c.diffOutcome
  | .diversityFeatures => c.softFeatures
  | .diversityValues => c.softValues

/-- The objective of the weighted method, mip.py:64-72, multi_mip.py:45-53. -/
noncomputable def cfObjective (d : CFData) (c : CFCfg) (m : CFMulti) : ℝ :=
  (c.proximity.getD 0) * cfComponent d c.K m .proximity + (c.closeness.getD 0) * cfComponent d c.K m .closeness +
  (c.diffOutcome.getD 0) * cfComponent d c.K m .diffOutcome + (c.softFeatures.getD 0) * cfComponent d c.K m .diversityFeatures +
  (c.softValues.getD 0) * cfComponent d c.K m .diversityValues

/-- The degradation constraints of the hierarchical method, mip.py:134-147, multi_mip.py:139-152; `prev` is `pre_objs`. -/
def cfDegradation (d : CFData) (c : CFCfg) (tol : ℝ) (prev : List (Spec.Objective × ℝ)) (m : CFMulti) : Prop :=
  ∀ q ∈ prev, ∃ dp dm : ℝ, 0 ≤ dp ∧ 0 ≤ dm ∧ dp - dm = cfComponent d c.K m q.1 - q.2 ∧ dp + dm ≤ tol * |q.2|

/-- `hierarchical_model` followed by `solve`, mip.py:104-190, multi_mip.py:113-230: `m` is an answer if every solver call is answered with an optimal
solution.  `names` are the objectives in descending priority, `prev` the values of `pre_objs`. -/
def CFHierarchical (d : CFData) (c : CFCfg) (o : CFOutcome) (tol : ℝ) : List Spec.Objective → List (Spec.Objective × ℝ) → CFMulti → Prop
  | [], _, _ => False
  | [n], prev, m => (cfModel d c o m ∧ cfDegradation d c tol prev m) ∧
      ∀ m', cfModel d c o m' → cfDegradation d c tol prev m' → cfComponent d c.K m n ≤ cfComponent d c.K m' n
  | n :: n' :: rest, prev, m => ∃ m0, ((cfModel d c o m0 ∧ cfDegradation d c tol prev m0) ∧
      ∀ m', cfModel d c o m' → cfDegradation d c tol prev m' → cfComponent d c.K m0 n ≤ cfComponent d c.K m' n) ∧
      CFHierarchical d c o tol (n' :: rest) (prev ++ [(n, cfComponent d c.K m0 n)]) m

/-- `solve`, mip.py:201-204, multi_mip.py:240-245: the solution of counterfactual `k`, feature `i`. -/
def cfSolution (d : CFData) (m : CFMulti) (k i : ℕ) : List Bool := (List.range (d.nbins i)).map fun j => (m.v k).z i j != 0

/-- What `_get_counterfactual` reports for one counterfactual, counterfactual.py:593-614: the new bin numbers per feature
(`new_indices`; a feature is in `new_indices` if its list is not empty) and the score. -/
noncomputable def cfReport (d : CFData) (sol : ℕ → List Bool) : (ℕ → List ℕ) × ℝ :=
  (fun i => ((d.cands i).zip (sol i)).filterMap fun q => if q.2 then some q.1.1 else none,
   (∑ i ∈ range d.p, d.coef i * (d.x i + ∑ j ∈ range (d.nbins i), (d.metric i j - d.x i) * (if (sol i).getD j false then 1 else 0))) +
     d.intercept)

/-- counterfactual.py:648-656. -/
def cfNonActionable (names : List String) (actionable : Option (List String)) : List ℕ :=
  match actionable with
  | none => []
  | some l => (names.zipIdx.filter fun q => !l.contains q.1).map Prod.snd

/-- counterfactual.py:435-439. -/
def cfDefaultMaxChanges (nVariables : ℕ) : ℤ := ((nVariables / 2 : ℕ) : ℤ)

end OptBinning
