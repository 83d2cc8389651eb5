import Mathlib.Data.List.Basic

/-! # Vocabulary for processes that treat variables one after the other -/
namespace OptBinning.Spec

/-- A loop over the variables `ns` that applies `f` to the object of each of them and stops at the first exception: `before` and `after` give the
objects before and after the loop.  Some variables (the first `k`) were treated without exception, the next one, if any, raised, and all
others are as before. -/
def RanUntil {Ω : Type*} (f : String → Ω → Ω × Option String) (ns : List String) (before after : String → Option Ω) (err : Option String) : Prop :=
  ∃ k ≤ ns.length,
    (∀ n ∈ ns.take k, ∃ o o', before n = some o ∧ f n o = (o', none) ∧ after n = some o') ∧
    (∀ n, n ∉ ns.take (k + 1) → after n = before n) ∧
    (err = none ↔ k = ns.length) ∧
    ∀ n, ns[k]? = some n → (before n = none ∧ after n = none ∧ err = some "KeyError") ∨
      ∃ o o' e, before n = some o ∧ f n o = (o', some e) ∧ after n = some o' ∧ err = some e

end OptBinning.Spec
