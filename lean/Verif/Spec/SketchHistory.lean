import Mathlib.Data.List.Basic

/-! # Specification: which records each sketch of a distributed computation stands for -/
namespace OptBinning.Spec

/-- What a program does with sketches: create one, feed one with a chunk of records, merge the `j`-th into the `i`-th. -/
inductive SkOp (ρ : Type*)
  | new
  | add (i : ℕ) (recs : List ρ)
  | merge (i j : ℕ)

/-- The records every sketch stands for after one more operation; `none` marks a sketch that was merged into another one.  The
result is `none` if the operation uses such a sketch or one that does not exist, or merges two sketches whose records violate `ok`. -/
def owned {ρ : Type*} (ok : List ρ → List ρ → Bool) (s : List (Option (List ρ))) : SkOp ρ → Option (List (Option (List ρ)))
  | .new => some (s ++ [some []])
  | .add i recs =>
    match s[i]? with
    | some (some l) => some (s.set i (some (l ++ recs)))
    | _ => none
  | .merge i j =>
    if i = j then none else
    match s[i]?, s[j]? with
    | some (some a), some (some b) => if ok a b then some ((s.set i (some (a ++ b))).set j none) else none
    | _, _ => none

/-- The records every sketch stands for after a program. -/
def ownedAll {ρ : Type*} (ok : List ρ → List ρ → Bool) (ops : List (SkOp ρ)) : Option (List (Option (List ρ))) :=
  ops.foldlM (owned ok) []

end OptBinning.Spec
