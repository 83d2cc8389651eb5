import Mathlib.Algebra.BigOperators.Group.Finset.Basic
import Mathlib.Analysis.SpecialFunctions.Exp
import Mathlib.Data.Finset.Card

/-! # Specification: counterfactual explanations of a linear model on binned features

A counterfactual proposes for every feature either no change or another bin. -/
namespace OptBinning.Spec

/-- The model that is explained: `p` features, the value `x i` of the query, and per feature the values of the bins (WoE or mean) among
which a counterfactual may choose (`bins i` lists bin number and value). -/
structure Explained where
  p : ℕ
  x : ℕ → ℝ
  bins : ℕ → List (ℕ × ℝ)
  intercept : ℝ
  coef : ℕ → ℝ

/-- A proposal: the new bin (number and value) of the changed features. -/
abbrev Proposal := ℕ → Option (ℕ × ℝ)

/-- Value of feature `i` after the change. -/
def Proposal.value (c : Proposal) (m : Explained) (i : ℕ) : ℝ := ((c i).map Prod.snd).getD (m.x i)

/-- The features that are changed. -/
def Proposal.changed (c : Proposal) (p : ℕ) : Finset ℕ := (Finset.range p).filter fun i => (c i).isSome

/-- The score of the linear model after the change. -/
noncomputable def Proposal.score (c : Proposal) (m : Explained) : ℝ := m.intercept + ∑ i ∈ Finset.range m.p, m.coef i * c.value m i

/-- New bins are bins of the feature. -/
def Proposal.IsValid (c : Proposal) (m : Explained) : Prop := ∀ i < m.p, ∀ b, c i = some b → b ∈ m.bins i

/-- Probability of the event (logistic regression). -/
noncomputable def probability (score : ℝ) : ℝ := 1 / (1 + Real.exp (-score))

end OptBinning.Spec

namespace OptBinning.Spec

/-- What the user asks of a set of `K` counterfactuals; `outcome` is the condition on the score. -/
structure Request where
  K : ℕ
  maxChanges : ℤ
  nonActionable : List ℕ
  outcome : ℝ → Prop
  diverseFeatures : Bool := false
  diverseValues : Bool := false

/-- The proposals `c 0, …, c (K-1)` are what the user asked for. -/
def Request.MetBy (r : Request) (m : Explained) (c : ℕ → Proposal) : Prop :=
  (∀ k < r.K, (c k).IsValid m ∧ (((c k).changed m.p).card : ℤ) ≤ r.maxChanges ∧ (∀ i ∈ r.nonActionable, c k i = none) ∧ r.outcome ((c k).score m)) ∧
  ∀ k < r.K, ∀ l, k < l → l < r.K →
    (r.diverseFeatures → (c k).changed m.p ≠ (c l).changed m.p) ∧
    (r.diverseValues → ∀ i < m.p, c k i = c l i → c k i = none)

/-- The objectives and rewarded diversities. -/
inductive Objective
  | proximity | closeness | diffOutcome | diversityFeatures | diversityValues
  deriving DecidableEq

/-- The data of the objectives: `weight` of each objective in the weighted method, weights of the features, matrix and centre of the Mahalanobis
distance, and the deviation of a score from the desired outcome. -/
structure CostData where
  weight : Objective → ℝ
  featureWeight : ℕ → ℝ
  factor : ℕ → ℕ → ℝ
  mean : ℕ → ℝ
  deviation : ℝ → ℝ

/-- Weighted distance of the changed values to the query. -/
noncomputable def Proposal.distance (c : Proposal) (m : Explained) (w : ℕ → ℝ) : ℝ := ∑ i ∈ Finset.range m.p, w i * |m.x i - c.value m i|

/-- l1 norm of `factorᵀ (value - mean)` for a lower triangular `factor` (Mahalanobis distance to the centre of the data). -/
noncomputable def Proposal.mahalanobis (c : Proposal) (m : Explained) (factor : ℕ → ℕ → ℝ) (mean : ℕ → ℝ) : ℝ :=
  ∑ i ∈ Finset.range m.p, |∑ j ∈ Finset.Ico i m.p, factor j i * (c.value m j - mean j)|

/-- Number of features changed by exactly one of two proposals. -/
def featureDifferences (c e : Proposal) (p : ℕ) : ℕ := ((Finset.range p).filter fun i => (c i).isSome ≠ (e i).isSome).card

/-- Number of new bins proposed by exactly one of two proposals. -/
noncomputable def valueDifferences (c e : Proposal) (p : ℕ) : ℕ := by
  classical exact ∑ i ∈ Finset.range p, if c i = e i then 0 else (c i).toList.length + (e i).toList.length

/-- Value of one objective for `K` proposals; all are to be minimised, so diversities count negatively. -/
noncomputable def objectiveValue (w : CostData) (m : Explained) (K : ℕ) (c : ℕ → Proposal) : Objective → ℝ
  | .proximity => ∑ k ∈ Finset.range K, (c k).distance m w.featureWeight
  | .closeness => ∑ k ∈ Finset.range K, (c k).mahalanobis m w.factor w.mean
  | .diffOutcome => ∑ k ∈ Finset.range K, w.deviation ((c k).score m)
  | .diversityFeatures => -∑ k ∈ Finset.range K, ∑ l ∈ Finset.Ico (k + 1) K, ((featureDifferences (c k) (c l) m.p : ℕ) : ℝ)
  | .diversityValues => -∑ k ∈ Finset.range K, ∑ l ∈ Finset.Ico (k + 1) K, ((valueDifferences (c k) (c l) m.p : ℕ) : ℝ)

/-- The weighted method: weighted sum of the objectives. -/
noncomputable def cost (w : CostData) (m : Explained) (K : ℕ) (c : ℕ → Proposal) : ℝ :=
  w.weight .proximity * objectiveValue w m K c .proximity + w.weight .closeness * objectiveValue w m K c .closeness +
  w.weight .diffOutcome * objectiveValue w m K c .diffOutcome +
  w.weight .diversityFeatures * objectiveValue w m K c .diversityFeatures +
  w.weight .diversityValues * objectiveValue w m K c .diversityValues

/-- `v` is within the relative tolerance `tol` of `best`. -/
def Near (tol best v : ℝ) : Prop := |v - best| ≤ tol * |best|

/-- The hierarchical method: `S` are the admissible sets of proposals and `val` the objective values.  The objectives of `names` are minimised one
after the other; the best value found for each one may only degrade by the relative tolerance `tol` afterwards (`prev` are the earlier
objectives with their best values).  `c` is a result. -/
def IsHierarchicalOptimum {α : Type*} (S : Set α) (val : α → Objective → ℝ) (tol : ℝ) : List Objective → List (Objective × ℝ) → α → Prop
  | [], _, _ => False
  | [n], prev, c => c ∈ S ∧ (∀ q ∈ prev, Near tol q.2 (val c q.1)) ∧
      ∀ e ∈ S, (∀ q ∈ prev, Near tol q.2 (val e q.1)) → val c n ≤ val e n
  | n :: n' :: rest, prev, c => ∃ best, IsLeast {v | ∃ e ∈ S, (∀ q ∈ prev, Near tol q.2 (val e q.1)) ∧ v = val e n} best ∧
      IsHierarchicalOptimum S val tol (n' :: rest) (prev ++ [(n, best)]) c

end OptBinning.Spec
