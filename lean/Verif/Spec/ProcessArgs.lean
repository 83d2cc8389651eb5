import Verif.Spec.Params
import Verif.Spec.ParamsC
import Verif.Spec.ParamsM
import Verif.Model.ProcessArgs

/-!
# Specification: what the arguments of `BinningProcess` mean for a variable (C116)
-/
namespace OptBinning.Spec

/-- The documented ranges (docstring of `BinningProcess`). -/
structure ValidParamsP (p : ParamsP) : Prop where
  maxPrebins : 1 < p.maxPrebins
  minPrebinSize : NumIn p.minPrebinSize fun q => 0 < q ∧ q ≤ 1 / 2
  minBins : PositiveIfGiven p.minBins
  maxBins : PositiveIfGiven p.maxBins
  bins : OrderedIfGiven p.minBins p.maxBins
  minBinSize : ∀ v, p.minBinSize = some v → NumIn v fun q => 0 < q ∧ q ≤ 1 / 2
  maxBinSize : ∀ v, p.maxBinSize = some v → NumIn v fun q => 0 < q ∧ q ≤ 1
  binSize : ∀ a b, p.minBinSize = some (.num a) → p.maxBinSize = some (.num b) → a ≤ b
  maxPvalue : ∀ v, p.maxPvalue = some v → NumIn v fun q => 0 < q ∧ q ≤ 1
  splitDigits : ∀ d, p.splitDigits = some d → 0 ≤ d ∧ d ≤ 8

/-- The name of the option of an item. -/
def optName : OptSet → String
  | .divergence _ => "divergence" | .maxPrebins _ => "max_n_prebins" | .minPrebinSize _ => "min_prebin_size"
  | .minBins _ => "min_n_bins" | .maxBins _ => "max_n_bins" | .minBinSize _ => "min_bin_size" | .maxBinSize _ => "max_bin_size"
  | .minNonevent _ => "min_bin_n_nonevent" | .maxNonevent _ => "max_bin_n_nonevent" | .minEvent _ => "min_bin_n_event"
  | .maxEvent _ => "max_bin_n_event" | .trend _ => "monotonic_trend" | .trends _ => "monotonic_trend"
  | .minRateDiff _ => "min_event_rate_diff" | .minMeanDiff _ => "min_mean_diff" | .maxPvalue _ => "max_pvalue"
  | .policy _ => "max_pvalue_policy" | .gamma _ => "gamma" | .splitDigits _ => "split_digits" | .timeLimit _ => "time_limit"
  | .unknown n => n

/-- The value of an option in the dictionary of a variable, otherwise `dflt`. -/
def chosen {β : Type*} (l : List OptSet) (sel : OptSet → Option β) (dflt : β) : β := (l.findSome? sel).getD dflt

/-- The options of the object of a variable with binary target: the dictionary of the variable, then the process, then the
default of `OptimalBinning`.  `max_bin_size` of the process is not used. -/
def optionsBinary (P : ParamsP) (l : List OptSet) : Params where
  divergence := chosen l (fun | .divergence v => some v | _ => none) .iv
  maxPrebins := chosen l (fun | .maxPrebins v => some v | _ => none) P.maxPrebins
  minPrebinSize := chosen l (fun | .minPrebinSize v => some v | _ => none) P.minPrebinSize
  minBins := chosen l (fun | .minBins v => some v | _ => none) P.minBins
  maxBins := chosen l (fun | .maxBins v => some v | _ => none) P.maxBins
  minBinSize := chosen l (fun | .minBinSize v => some v | _ => none) P.minBinSize
  maxBinSize := chosen l (fun | .maxBinSize v => some v | _ => none) none
  minNonevent := chosen l (fun | .minNonevent v => some v | _ => none) none
  maxNonevent := chosen l (fun | .maxNonevent v => some v | _ => none) none
  minEvent := chosen l (fun | .minEvent v => some v | _ => none) none
  maxEvent := chosen l (fun | .maxEvent v => some v | _ => none) none
  trend := chosen l (fun | .trend v => some v | _ => none) .auto
  minRateDiff := chosen l (fun | .minRateDiff v => some v | _ => none) (.num 0)
  maxPvalue := chosen l (fun | .maxPvalue v => some v | _ => none) P.maxPvalue
  policy := chosen l (fun | .policy v => some v | _ => none) P.policy
  gamma := chosen l (fun | .gamma v => some v | _ => none) (.num 0)
  splitDigits := chosen l (fun | .splitDigits v => some v | _ => none) P.splitDigits
  timeLimit := chosen l (fun | .timeLimit v => some v | _ => none) (.num 100)

/-- The options of the object of a variable with continuous target. -/
def optionsContinuous (P : ParamsP) (l : List OptSet) : ParamsC where
  maxPrebins := chosen l (fun | .maxPrebins v => some v | _ => none) P.maxPrebins
  minPrebinSize := chosen l (fun | .minPrebinSize v => some v | _ => none) P.minPrebinSize
  minBins := chosen l (fun | .minBins v => some v | _ => none) P.minBins
  maxBins := chosen l (fun | .maxBins v => some v | _ => none) P.maxBins
  minBinSize := chosen l (fun | .minBinSize v => some v | _ => none) P.minBinSize
  maxBinSize := chosen l (fun | .maxBinSize v => some v | _ => none) none
  trend := chosen l (fun | .trend v => some v | _ => none) .auto
  minMeanDiff := chosen l (fun | .minMeanDiff v => some v | _ => none) (.num 0)
  maxPvalue := chosen l (fun | .maxPvalue v => some v | _ => none) P.maxPvalue
  policy := chosen l (fun | .policy v => some v | _ => none) P.policy
  gamma := chosen l (fun | .gamma v => some v | _ => none) (.num 0)
  splitDigits := chosen l (fun | .splitDigits v => some v | _ => none) P.splitDigits
  timeLimit := chosen l (fun | .timeLimit v => some v | _ => none) (.num 100)

/-- The options of the object of a variable with multiclass target. -/
def optionsMulticlass (P : ParamsP) (l : List OptSet) : ParamsM where
  maxPrebins := chosen l (fun | .maxPrebins v => some v | _ => none) P.maxPrebins
  minPrebinSize := chosen l (fun | .minPrebinSize v => some v | _ => none) P.minPrebinSize
  minBins := chosen l (fun | .minBins v => some v | _ => none) P.minBins
  maxBins := chosen l (fun | .maxBins v => some v | _ => none) P.maxBins
  minBinSize := chosen l (fun | .minBinSize v => some v | _ => none) P.minBinSize
  maxBinSize := chosen l (fun | .maxBinSize v => some v | _ => none) none
  trend := chosen l (fun | .trend .none => some .none | .trend v => some (.str v) | .trends v => some (.list v) | _ => none)
    (.str .auto)
  minRateDiff := chosen l (fun | .minRateDiff v => some v | _ => none) (.num 0)
  maxPvalue := chosen l (fun | .maxPvalue v => some v | _ => none) P.maxPvalue
  policy := chosen l (fun | .policy v => some v | _ => none) P.policy
  splitDigits := chosen l (fun | .splitDigits v => some v | _ => none) P.splitDigits
  timeLimit := chosen l (fun | .timeLimit v => some v | _ => none) (.num 100)

/-- Options of `OptimalBinning` (with a value it accepts). -/
def BinaryOption : OptSet → Prop
  | .minMeanDiff _ | .trends _ | .unknown _ => False
  | _ => True

/-- Options of `ContinuousOptimalBinning`. -/
def ContinuousOption : OptSet → Prop
  | .divergence _ | .minNonevent _ | .maxNonevent _ | .minEvent _ | .maxEvent _ | .minRateDiff _ | .trends _ | .unknown _ => False
  | _ => True

/-- Options of `MulticlassOptimalBinning`. -/
def MulticlassOption : OptSet → Prop
  | .divergence _ | .minNonevent _ | .maxNonevent _ | .minEvent _ | .maxEvent _ | .minMeanDiff _ | .gamma _ | .unknown _ => False
  | _ => True

end OptBinning.Spec
