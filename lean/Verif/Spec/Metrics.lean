import Mathlib.Analysis.SpecialFunctions.Log.Basic

/-! # Specification: shares of a binning table, merging of rows, concordance

A binning table is a list of rows with a non-event and an event count. -/
namespace OptBinning.Spec

/-- The two count columns of one line of a binning table. -/
structure Row where
  nonevent : ℕ
  event : ℕ
deriving DecidableEq, Repr

/-- The row holding the records of all rows of a list: the union of the bins. -/
def union (g : List Row) : Row := ⟨(g.map Row.nonevent).sum, (g.map Row.event).sum⟩

/-- All events / non-events of the table. -/
def events (t : List Row) : ℕ := (union t).event
def nonevents (t : List Row) : ℕ := (union t).nonevent

/-- Share of all events (non-events) of the table which fall in the row. -/
noncomputable def eventShare (t : List Row) (r : Row) : ℝ := (r.event : ℝ) / (events t : ℝ)
noncomputable def noneventShare (t : List Row) (r : Row) : ℝ := (r.nonevent : ℝ) / (nonevents t : ℝ)

/-- Event and non-event records are distributed over the bins in the same way. -/
def SameDistribution (t : List Row) : Prop := ∀ r ∈ t, eventShare t r = noneventShare t r

/-- The row has records of one class only. -/
def PureRow (r : Row) : Prop := (r.event = 0 ∧ r.nonevent ≠ 0) ∨ (r.event ≠ 0 ∧ r.nonevent = 0)

/-- Table with the two columns exchanged. -/
def swapColumns (t : List Row) : List Row := t.map fun r => ⟨r.event, r.nonevent⟩

/-- `coarse` arises from `fine` by taking unions of disjoint groups of bins that cover all bins. -/
def Coarsens (fine coarse : List Row) : Prop :=
  ∃ groups : List (List Row), fine.Perm groups.flatten ∧ coarse = groups.map union

/-- Both classes occur in the table. -/
def TwoClasses (t : List Row) : Prop := 0 < events t ∧ 0 < nonevents t

/-- Share of events among the records of the row. -/
noncomputable def rate (r : Row) : ℝ := (r.event : ℝ) / ((r.event : ℝ) + (r.nonevent : ℝ))

/-- Concordant minus discordant pairs (event record, non-event record): a pair is concordant if the bin of the event has the
higher event rate, discordant if it has the lower one, and counts nothing for equal rates. -/
noncomputable def concordance (t : List Row) : ℝ :=
  (t.map fun a => (t.map fun b =>
    (a.event : ℝ) * (b.nonevent : ℝ) * (if rate b < rate a then 1 else if rate a < rate b then -1 else 0)).sum).sum

/-- Distance of the cumulative distributions of events and non-events after the first `k` bins. -/
noncomputable def cumulativeGap (t : List Row) (k : ℕ) : ℝ :=
  |((events (t.take k) : ℕ) : ℝ) / (events t : ℝ) - ((nonevents (t.take k) : ℕ) : ℝ) / (nonevents t : ℝ)|

end OptBinning.Spec
