import Verif.Spec.Admissible

/-!
# Specification for `solver="ls"` (C112)
-/
namespace OptBinning.Spec

/-- Pairs of bins, given by their last pre-bins, to which `min_event_rate_diff` applies with `solver="ls"`: all pairs for the trends
"ascending" and "descending", those on one side of the change point for the heuristic trends, none for the other trends. -/
def SameSide : Trend → ℕ → ℕ → Prop
  | .ascending, _, _ => True
  | .descending, _, _ => True
  | .peakHeuristic c, e, e' => e < c ↔ e' < c
  | .valleyHeuristic c, e, e' => e < c ↔ e' < c
  | _, _, _ => False

/-- No bin ends between two neighbouring pre-bins whose rates run against the trend (`r i (i + 1)` is the rate of both together). -/
def KeepsRuns (n : ℕ) (sol : ℕ → Bool) (r : ℕ → ℕ → ℤ) : Trend → Prop
  | .ascending => ∀ i, i + 1 < n → r (i + 1) (i + 1) < r i (i + 1) → sol i = false
  | .descending => ∀ i, i + 1 < n → r i (i + 1) < r (i + 1) (i + 1) → sol i = false
  | .peakHeuristic c => (∀ i, i + 1 < c → r (i + 1) (i + 1) < r i (i + 1) → sol i = false) ∧
      ∀ i, c ≤ i → i + 1 < n → r i (i + 1) < r (i + 1) (i + 1) → sol i = false
  | .valleyHeuristic c => (∀ i, i + 1 < c → r i (i + 1) < r (i + 1) (i + 1) → sol i = false) ∧
      ∀ i, c ≤ i → i + 1 < n → r (i + 1) (i + 1) < r i (i + 1) → sol i = false
  | _ => True

end OptBinning.Spec
