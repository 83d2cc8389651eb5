import Mathlib.Algebra.Order.Field.Rat
import Mathlib.Algebra.Order.Archimedean.Basic
import Mathlib.Algebra.Order.Floor.Ring
import Mathlib.Data.Finset.Card
import Mathlib.Data.Rat.Floor

/-!
# What a user expects of variable selection and of the transformation of a data set

The inputs are those of the documentation of `BinningProcess`: `selection_criteria` is a dictionary from metrics to
`{"min", "max", "strategy", "top"}`; `binning_transform_params` is a dictionary from variables to the arguments of
`transform` for this variable.
-/
namespace OptBinning

/-- The values of "strategy". -/
inductive Strategy | highest | lowest
  deriving DecidableEq

/-- The values of "top": a number of variables or a proportion. -/
inductive Top | count (k : ℤ) | frac (q : ℚ)
  deriving DecidableEq

/-- The dictionary given for one metric. -/
structure Criterion (V : Type*) where
  min : Option V := none
  max : Option V := none
  strategy : Option Strategy := none
  top : Option Top := none

/-- Arguments of `transform`: metric (`None` is the default of the binning object), values for special and missing. -/
structure TArgs (μ : Type*) where
  metric : Option String
  special : μ
  missing : μ
  deriving DecidableEq

/-- The dictionary given for one variable in `binning_transform_params`; `none` is an absent key. -/
structure VParams (μ : Type*) where
  metric : Option (Option String) := none
  special : Option μ := none
  missing : Option μ := none
  deriving DecidableEq

namespace Spec

/-- How many of `n` variables "top" asks for. -/
def topNumber (t : Top) (n : ℕ) : ℕ :=
  match t with
  | .count k => min n k.toNat
  | .frac q => min n ⌈(n : ℚ) * q⌉.toNat

variable {V : Type*} [LinearOrder V]

/-- The value lies between "min" and "max". -/
def InBounds (c : Criterion V) (x : V) : Prop := (∀ m ∈ c.min, m ≤ x) ∧ (∀ m ∈ c.max, x ≤ m)

/-- `x` is at least as good as `y`. -/
def AtLeastAsGood (s : Strategy) (x y : V) : Prop :=
  match s with
  | .highest => y ≤ x
  | .lowest => x ≤ y

open Classical in
/-- One criterion keeps the subset `T` of the variables `S`: those within the bounds, or the best ones of them. -/
def SelectStep (v : ℕ → V) (c : Criterion V) (S T : Finset ℕ) : Prop :=
  match c.strategy, c.top with
  | some s, some t =>
    T ⊆ S.filter (fun i => InBounds c (v i)) ∧ T.card = topNumber t (S.filter fun i => InBounds c (v i)).card ∧
      ∀ i ∈ T, ∀ j ∈ S.filter (fun i => InBounds c (v i)), j ∉ T → AtLeastAsGood s (v i) (v j)
  | _, _ => T = S.filter fun i => InBounds c (v i)

/-- The criteria are applied one after the other, in the order of the list of metrics. -/
def SelectChain (v : String → ℕ → V) (crit : String → Option (Criterion V)) : List String → Finset ℕ → Finset ℕ → Prop
  | [], S, T => T = S
  | m :: ms, S, T => ∃ U, (match crit m with | none => U = S | some c => SelectStep (v m) c S U) ∧ SelectChain v crit ms U T

/-- The mask `s` selects the variables `names` as asked for: all of them without criteria; otherwise those kept by the
criteria and the fixed ones.  `v m i` is metric `m` of variable `i`, `metrics` lists the metrics in their order of
precedence. -/
def Selected (names metrics : List String) (crit : Option (String → Option (Criterion V))) (fixed : List String)
    (v : String → ℕ → V) (s : List Bool) : Prop :=
  s.length = names.length ∧
  match crit with
  | none => ∀ b ∈ s, b = true
  | some c => ∃ T, SelectChain v c metrics (Finset.range names.length) T ∧
      ∀ i < names.length, (s[i]? = some true ↔ i ∈ T ∨ ∃ f ∈ fixed, names[i]? = some f)

/-- The arguments a variable should be transformed with: its own ones, otherwise those of the call. -/
def ownArgs {μ : Type*} (a : TArgs μ) (p : VParams μ) : TArgs μ :=
  ⟨p.metric.getD a.metric, p.special.getD a.special, p.missing.getD a.missing⟩

/-- The value of the last of the variables `ns` whose parameters give one, otherwise the one of the call. -/
def lastGiven {μ τ : Type*} (p : String → VParams μ) (key : VParams μ → Option τ) (ns : List String) (dflt : τ) : τ :=
  (ns.reverse.findSome? fun n => key (p n)).getD dflt

/-- A parameter given for a variable is given for all variables after it. -/
def NoLeak {μ : Type*} (p : String → VParams μ) (ns : List String) : Prop :=
  ns.Pairwise fun n m => ((p n).metric.isSome → (p m).metric.isSome) ∧
    ((p n).special.isSome → (p m).special.isSome) ∧ ((p n).missing.isSome → (p m).missing.isSome)

/-- Every parameter is given for all variables or for none. -/
def Uniform {μ : Type*} (p : String → VParams μ) (ns : List String) : Prop :=
  ∀ n ∈ ns, ∀ m ∈ ns, ((p n).metric.isSome → (p m).metric.isSome) ∧
    ((p n).special.isSome → (p m).special.isSome) ∧ ((p n).missing.isSome → (p m).missing.isSome)

/-- A permutation sorting the values (contract of `numpy.argsort`; equal values may come in any order). -/
def IsArgsort (vals : List V) (perm : List ℕ) : Prop :=
  perm.Perm (List.range vals.length) ∧ ∀ a b : ℕ, ∀ x y, a < b → (perm[a]?.bind (vals[·]?)) = some x →
    (perm[b]?.bind (vals[·]?)) = some y → x ≤ y

end Spec
end OptBinning
