import Verif.Model.UserParams
import Verif.Spec.Params

/-!
# Specification: what the arguments ask of a binning table (C117, C118)
-/
namespace OptBinning.Spec

/-- The first `bins` rows of a table (the bins) are within the limits given by the arguments, for a fit of `N` records: numbers of bins,
records per bin (less than one record more than `max_bin_size * N`), non-events and events per bin; each bin holds both classes. -/
structure TableWithin (p : Params) (N bins : ℕ) (nonevent event : List ℕ) : Prop where
  minBins : ∀ b, p.minBins = some b → b ≤ (bins : ℤ)
  maxBins : ∀ b, p.maxBins = some b → (bins : ℤ) ≤ b
  minSize : ∀ k < bins, ∀ q, p.minBinSize = some (.num q) → q * (N : ℚ) ≤ ((nonevent.getD k 0 + event.getD k 0 : ℕ) : ℚ)
  maxSize : ∀ k < bins, ∀ q, p.maxBinSize = some (.num q) → ((nonevent.getD k 0 + event.getD k 0 : ℕ) : ℚ) < q * (N : ℚ) + 1
  minNonevent : ∀ k < bins, ∀ b, p.minNonevent = some b → b ≤ (nonevent.getD k 0 : ℤ)
  maxNonevent : ∀ k < bins, ∀ b, p.maxNonevent = some b → (nonevent.getD k 0 : ℤ) ≤ b
  minEvent : ∀ k < bins, ∀ b, p.minEvent = some b → b ≤ (event.getD k 0 : ℤ)
  maxEvent : ∀ k < bins, ∀ b, p.maxEvent = some b → (event.getD k 0 : ℤ) ≤ b
  mixed : ∀ k < bins, 0 < nonevent.getD k 0 ∧ 0 < event.getD k 0

/-- Split `s` of the user is flagged as fixed. -/
def IsFixed {α : Type*} (u : UserSplits α) (s : α) : Prop := ∃ fx, u.fixed = some fx ∧ (s, true) ∈ u.splits.zip fx.values

/-- The cut a user split stands for: with `split_digits=d`, the split rounded to `d` digits (`rnd d`). -/
def asCut {α : Type*} (p : Params) (rnd : ℤ → α → α) (t : α) : α :=
  match p.splitDigits with
  | none => t
  | some d => rnd d t

end OptBinning.Spec
