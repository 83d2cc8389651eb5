import Mathlib.Analysis.SpecialFunctions.BinaryEntropy

/-! # Specification: discretisation of a variable by split points, information gain -/
namespace OptBinning.Spec

/-- Index of the bin of `v` among `(-∞, s₁], (s₁, s₂], …, (s_k, ∞)`. -/
def rightClosedBin (splits : List ℚ) (v : ℚ) : ℕ := splits.countP fun s => decide (s < v)

/-- Index of the bin of `v` among `(-∞, s₁), [s₁, s₂), …, [s_k, ∞)`. -/
def leftClosedBin (splits : List ℚ) (v : ℚ) : ℕ := splits.countP fun s => decide (s ≤ v)

/-- Number of records with bin index `i`. -/
def recordsIn (bin : ℚ → ℕ) (data : List (ℚ × Bool)) (i : ℕ) : ℕ := data.countP fun r => bin r.1 == i

/-- Entropy of the target in a set of records. -/
noncomputable def targetEntropy (ys : List Bool) : ℝ := Real.binEntropy ((ys.count true : ℝ) / (ys.length : ℝ))

/-- Information gain of the split of the records at the value `s`. -/
noncomputable def infoGain (data : List (ℚ × Bool)) (s : ℚ) : ℝ :=
  let l := data.filter fun r => decide (r.1 ≤ s)
  let r := data.filter fun r => !decide (r.1 ≤ s)
  targetEntropy (data.map Prod.snd) -
    ((l.length : ℝ) / (data.length : ℝ) * targetEntropy (l.map Prod.snd) + (r.length : ℝ) / (data.length : ℝ) * targetEntropy (r.map Prod.snd))

end OptBinning.Spec
