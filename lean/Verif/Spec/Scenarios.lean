import Verif.Spec.Admissible
import Verif.Spec.Multiclass

/-!
# Specification vocabulary for scenario-based binning (`SBOptimalBinning`)
-/
namespace OptBinning.Spec

/-- The trend holds in every one of the `S` scenarios, where `r i` are the event rates of scenario `i`.  For "peak" and
"valley" the position of the change is the same in all scenarios. -/
def TrendInAll {R : Type*} [CommRing R] [LinearOrder R] (S n : ℕ) (sol : ℕ → Bool) (r : ℕ → ℕ → ℕ → R) : Trend → Prop
  | .peak => ∃ c, ∀ i < S, AscendingOn n sol (r i) (fun e => e < c) ∧ DescendingOn n sol (r i) (fun e => c ≤ e)
  | .valley => ∃ c, ∀ i < S, DescendingOn n sol (r i) (fun e => e < c) ∧ AscendingOn n sol (r i) (fun e => c ≤ e)
  | t => ∀ i < S, TrendHolds n sol (r i) t

/-- The rows `0, …, m` of every scenario's table follow the trend; for "peak" and "valley" the row of the change is the
same in all scenarios. -/
def RowsTrendInAll {R : Type*} [CommRing R] [LinearOrder R] (S m : ℕ) (rate : ℕ → ℕ → R) : Trend → Prop
  | .ascending => ∀ i < S, ∀ k k', k < k' → k' ≤ m → rate i k ≤ rate i k'
  | .descending => ∀ i < S, ∀ k k', k < k' → k' ≤ m → rate i k' ≤ rate i k
  | .concave => ∀ i < S, ∀ k k' k'', k < k' → k' < k'' → k'' ≤ m → rate i k + rate i k'' ≤ 2 * rate i k'
  | .convex => ∀ i < S, ∀ k k' k'', k < k' → k' < k'' → k'' ≤ m → 2 * rate i k' ≤ rate i k + rate i k''
  | .peak => ∃ t, ∀ i < S, (∀ k k', k < k' → k' ≤ m → k' < t → rate i k ≤ rate i k') ∧
      ∀ k k', k < k' → k' ≤ m → t ≤ k → rate i k' ≤ rate i k
  | .valley => ∃ t, ∀ i < S, (∀ k k', k < k' → k' ≤ m → k' < t → rate i k' ≤ rate i k) ∧
      ∀ k k', k < k' → k' ≤ m → t ≤ k → rate i k ≤ rate i k'
  | _ => True

/-- Every interval cut out by `splits` contains a regular (not special) value of a non-event and of an event of the
scenario. -/
def MixedIn {α : Type*} [LinearOrder α] (sc : SpecialCodes α) (splits : List α) (recs : List (RecM α Bool)) : Prop :=
  ∀ k ≤ splits.length, ∀ b : Bool, ∃ r ∈ recs, r.y = some b ∧
    ∃ v, r.x = some v ∧ ¬ IsSpecialValue sc (some v) ∧ InInterval splits k v

end OptBinning.Spec
