import Verif.Spec.Params
import Verif.Spec.SketchArgs
import Verif.Model.SketchProcessArgs

/-!
# Specification: what the arguments of `BinningProcessSketch` mean for a variable (C119)
-/
namespace OptBinning.Spec

/-- The documented ranges (docstring of `BinningProcessSketch`). -/
structure ValidParamsPS (p : ParamsPS) : Prop where
  maxPrebins : 1 < p.maxPrebins
  minBins : PositiveIfGiven p.minBins
  maxBins : PositiveIfGiven p.maxBins
  bins : OrderedIfGiven p.minBins p.maxBins
  minBinSize : ∀ v, p.minBinSize = some v → NumIn v fun q => 0 < q ∧ q ≤ 1 / 2
  maxBinSize : ∀ v, p.maxBinSize = some v → NumIn v fun q => 0 < q ∧ q ≤ 1
  binSize : ∀ a b, p.minBinSize = some (.num a) → p.maxBinSize = some (.num b) → a ≤ b
  maxPvalue : ∀ v, p.maxPvalue = some v → NumIn v fun q => 0 < q ∧ q ≤ 1
  splitDigits : ∀ d, p.splitDigits = some d → 0 ≤ d ∧ d ≤ 8

/-- The name of the option of an item. -/
def skOptName : SketchOpt → String
  | .eps _ => "eps" | .K _ => "K" | .divergence _ => "divergence" | .maxPrebins _ => "max_n_prebins" | .minBins _ => "min_n_bins"
  | .maxBins _ => "max_n_bins" | .minBinSize _ => "min_bin_size" | .maxBinSize _ => "max_bin_size"
  | .minNonevent _ => "min_bin_n_nonevent" | .maxNonevent _ => "max_bin_n_nonevent" | .minEvent _ => "min_bin_n_event"
  | .maxEvent _ => "max_bin_n_event" | .trend _ => "monotonic_trend" | .minRateDiff _ => "min_event_rate_diff"
  | .maxPvalue _ => "max_pvalue" | .policy _ => "max_pvalue_policy" | .gamma _ => "gamma" | .catCutoff _ => "cat_cutoff"
  | .splitDigits _ => "split_digits" | .timeLimit _ => "time_limit" | .unknown n => n

/-- The option is one of `OptimalBinningSketch`. -/
def SketchOption : SketchOpt → Prop
  | .unknown _ => False
  | _ => True

/-- The value of an option in the dictionary of a variable, otherwise `dflt`. -/
def skChosen {β : Type*} (l : List SketchOpt) (sel : SketchOpt → Option β) (dflt : β) : β := (l.findSome? sel).getD dflt

/-- The options of the object of a variable: the dictionary of the variable, then the process, then the default of
`OptimalBinningSketch`.  `max_bin_size` of the process is not used. -/
def optionsSketch (P : ParamsPS) (l : List SketchOpt) : SketchArgs where
  base :=
  { divergence := skChosen l (fun | .divergence v => some v | _ => none) .iv
    maxPrebins := skChosen l (fun | .maxPrebins v => some v | _ => none) P.maxPrebins
    minBins := skChosen l (fun | .minBins v => some v | _ => none) P.minBins
    maxBins := skChosen l (fun | .maxBins v => some v | _ => none) P.maxBins
    minBinSize := skChosen l (fun | .minBinSize v => some v | _ => none) P.minBinSize
    maxBinSize := skChosen l (fun | .maxBinSize v => some v | _ => none) none
    minNonevent := skChosen l (fun | .minNonevent v => some v | _ => none) none
    maxNonevent := skChosen l (fun | .maxNonevent v => some v | _ => none) none
    minEvent := skChosen l (fun | .minEvent v => some v | _ => none) none
    maxEvent := skChosen l (fun | .maxEvent v => some v | _ => none) none
    trend := skChosen l (fun | .trend v => some v | _ => none) .auto
    minRateDiff := skChosen l (fun | .minRateDiff v => some v | _ => none) (.num 0)
    maxPvalue := skChosen l (fun | .maxPvalue v => some v | _ => none) P.maxPvalue
    policy := skChosen l (fun | .policy v => some v | _ => none) P.policy
    gamma := skChosen l (fun | .gamma v => some v | _ => none) (.num 0)
    splitDigits := skChosen l (fun | .splitDigits v => some v | _ => none) P.splitDigits
    timeLimit := skChosen l (fun | .timeLimit v => some v | _ => none) (.num 100) }
  eps := skChosen l (fun | .eps v => some v | _ => none) (.num (1 / 10000))
  K := skChosen l (fun | .K v => some v | _ => none) 25
  catCutoff := skChosen l (fun | .catCutoff v => some v | _ => none) none

section
variable {α V : Type*}

/-- The records of variable `n` in the chunks given to `add`: its column (if the chunk has one) with the target, in this order. -/
def recordsFor (n : String) : List (SkProcOp (SketchVar α) (Option α) (Option Bool) V) → List (Rec α)
  | [] => []
  | .add c :: ops => (match PDict.get c.cols n with | some x => recordsOf x c.y | none => []) ++ recordsFor n ops
  | .merge _ :: ops => recordsFor n ops
  | .solve :: ops => recordsFor n ops

/-- Number of calls of `solve`. -/
def solveCalls : List (SkProcOp (SketchVar α) (Option α) (Option Bool) V) → ℕ
  | [] => 0
  | .solve :: ops => solveCalls ops + 1
  | _ :: ops => solveCalls ops

/-- The calls a single object for variable `n` would receive: `add` with its column of every chunk that has one, and `solve`; the solver
answers the `k`-th call of `solve` of the variable as in `ext k`. -/
def sketchOps (ext : ℕ → ExtSolver) (n : String) : ℕ → List (SkProcOp (SketchVar α) (Option α) (Option Bool) V) → List (SketchOp α)
  | _, [] => []
  | k, .add c :: ops => (match PDict.get c.cols n with | some x => [.add (recordsOf x c.y)] | none => []) ++ sketchOps ext n k ops
  | k, .merge _ :: ops => sketchOps ext n k ops
  | k, .solve :: ops => .solve (ext k) :: sketchOps ext n (k + 1) ops

end
end OptBinning.Spec
