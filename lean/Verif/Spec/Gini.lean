import Mathlib.Data.Rat.Defs
import Mathlib.Order.Defs.LinearOrder
import Mathlib.Data.List.Basic

/-! # Concordant and discordant pairs of records (score, is event) -/
namespace OptBinning.Spec

variable {α : Type*} [LinearOrder α]

def scoredEvents (r : List (α × Bool)) : ℕ := r.countP fun x => x.2
def scoredNonevents (r : List (α × Bool)) : ℕ := r.countP fun x => !x.2

/-- Pairs of an event and a non-event with a smaller score. -/
def concordant (r : List (α × Bool)) : ℕ := (r.map fun b => r.countP fun a => a.2 && !b.2 && decide (b.1 < a.1)).sum

/-- Pairs of an event and a non-event with a larger score. -/
def discordant (r : List (α × Bool)) : ℕ := (r.map fun b => r.countP fun a => a.2 && !b.2 && decide (a.1 < b.1)).sum

end OptBinning.Spec
