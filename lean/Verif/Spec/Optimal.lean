import Verif.Spec.Admissible
import Verif.Spec.Objective

/-! # Specification: an ascending or descending trend without other limits than `max_n_bins` (C18) -/
namespace OptBinning.Spec

/-- The only requirements are a monotone trend and a maximum number of bins; no regularisation. -/
structure TrendAndMaxBins (o : Opts) : Prop where
  trend : o.trend = .ascending ∨ o.trend = .descending
  minBins : o.minBins = none
  minSize : o.minSize = none
  maxSize : o.maxSize = none
  minEvent : o.minEvent = none
  maxEvent : o.maxEvent = none
  minNonevent : o.minNonevent = none
  maxNonevent : o.maxNonevent = none
  fixed : o.fixed = none
  gamma : o.gamma = false

end OptBinning.Spec
