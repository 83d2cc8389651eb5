import Verif.Model.Params
import Verif.Model.Cart2D

/-!
# Model of the constructor arguments of `OptimalBinning2D` and `ContinuousOptimalBinning2D`
(binning_2d.py:34-208, 813-898; continuous_binning_2d.py:31-161, 739-818)

Floats are rationals with NaN and infinities (`XQ`); products with the number of samples are exact.  Checks of Python types, of
names, of the special codes, `n_jobs` and `verbose` are not modelled, nor is `dtype` (part of the data here).
-/
namespace OptBinning

variable {α β : Type} [DecidableEq α] [DecidableEq β]

/-- Constructor arguments common to both classes (binning_2d.py:351-361, continuous_binning_2d.py:286-294) with their defaults. -/
structure Params2D where
  prebinning : String := "cart"
  strategy : String := "grid"
  solver : String := "cp"
  maxPrebinsX : ℤ := 5
  maxPrebinsY : ℤ := 5
  minPrebinSizeX : XQ := .num (1 / 20)
  minPrebinSizeY : XQ := .num (1 / 20)
  minBins : Option ℤ := none
  maxBins : Option ℤ := none
  minBinSize : Option XQ := none
  maxBinSize : Option XQ := none
  trendX : Option String := none
  trendY : Option String := none
  gamma : XQ := .num 0
  splitDigits : Option ℤ := none
  timeLimit : XQ := .num 100

/-- Those of `OptimalBinning2D` only. -/
structure Params2DB extends Params2D where
  divergence : String := "iv"
  minNonevent : Option ℤ := none
  maxNonevent : Option ℤ := none
  minEvent : Option ℤ := none
  maxEvent : Option ℤ := none
  minRateDiffX : XQ := .num 0
  minRateDiffY : XQ := .num 0

/-- Those of `ContinuousOptimalBinning2D` only; every number is accepted (continuous_binning_2d.py:127-133), here finite floats. -/
structure Params2DC extends Params2D where
  minMeanDiffX : ℚ := 0
  minMeanDiffY : ℚ := 0

/-- `if trend is not None: if trend not in ("ascending", "descending")` (binning_2d.py:162-170). -/
def badTrend2D (t : Option String) : Bool := t.any fun s => !(["ascending", "descending"].contains s)

/-- The checks common to both classes (binning_2d.py:58-124, 162-170, 182-183, 193-197, 203-205; continuous_binning_2d.py:53-125,
135-136, 146-150, 156-158). -/
def check2D (p : Params2D) : Except String Unit :=
  if !(["cart", "mdlp", "quantile", "uniform"].contains p.prebinning) then .error "ValueError"
  else if !(["grid", "cart"].contains p.strategy) then .error "ValueError"
  else if !(["cp", "mip"].contains p.solver) then .error "ValueError"
  else if p.maxPrebinsX ≤ 1 then .error "ValueError"
  else if p.maxPrebinsY ≤ 1 then .error "ValueError"
  else if !(p.minPrebinSizeX.above 0 && p.minPrebinSizeX.atMost (1 / 2)) then .error "ValueError"
  else if !(p.minPrebinSizeY.above 0 && p.minPrebinSizeY.atMost (1 / 2)) then .error "ValueError"
  else if badCount p.minBins then .error "ValueError"
  else if badCount p.maxBins then .error "ValueError"
  else if badOrder p.minBins p.maxBins then .error "ValueError"
  else if p.minBinSize.any fun v => !(v.above 0 && v.atMost (1 / 2)) then .error "ValueError"
  else if p.maxBinSize.any fun v => !(v.above 0 && v.atMost 1) then .error "ValueError"
  else if p.minBinSize.any fun v => p.maxBinSize.any fun w => v.greater w then .error "ValueError"
  else if badTrend2D p.trendX then .error "ValueError"
  else if badTrend2D p.trendY then .error "ValueError"
  else if p.gamma.below 0 then .error "ValueError"
  else if p.splitDigits.any fun d => !(decide (0 ≤ d) && decide (d ≤ 8)) then .error "ValueError"
  else if p.timeLimit.below 0 then .error "ValueError"
  else .ok ()

/-- The checks of `OptimalBinning2D` only (binning_2d.py:71-73, 126-160, 172-180). -/
def check2DB (p : Params2DB) : Except String Unit :=
  if !(["iv", "js", "hellinger", "triangular"].contains p.divergence) then .error "ValueError"
  else if badCount p.minNonevent then .error "ValueError"
  else if badCount p.maxNonevent then .error "ValueError"
  else if badOrder p.minNonevent p.maxNonevent then .error "ValueError"
  else if badCount p.minEvent then .error "ValueError"
  else if badCount p.maxEvent then .error "ValueError"
  else if badOrder p.minEvent p.maxEvent then .error "ValueError"
  else if !(p.minRateDiffX.atLeast 0 && p.minRateDiffX.atMost 1) then .error "ValueError"
  else if !(p.minRateDiffY.atLeast 0 && p.minRateDiffY.atMost 1) then .error "ValueError"
  else check2D p.toParams2D

/-- A trend that passed the check. -/
def trendOf2D : Option String → Option Trend2D
  | some "ascending" => some .ascending
  | some "descending" => some .descending
  | _ => none

/-- model_data_2d.py:151-158: the divergence of a name that passed the check. -/
def divergenceOf : String → Divergence
  | "js" => .js
  | "hellinger" => .hellinger
  | "triangular" => .triangular
  | _ => .iv

/-- binning_2d.py:853-857, 862-866, 883-886: the options handed to `model_data` and the solver. -/
def Params2DB.opts (p : Params2DB) : Opts2D where
  minBins := p.minBins
  maxBins := p.maxBins
  minEvent := p.minEvent
  maxEvent := p.maxEvent
  minNonevent := p.minNonevent
  maxNonevent := p.maxNonevent
  trendX := trendOf2D p.trendX
  trendY := trendOf2D p.trendY
  minDiffX := p.minRateDiffX.value
  minDiffY := p.minRateDiffY.value

/-- continuous_binning_2d.py:776-790, 803-806. -/
def Params2DC.opts (p : Params2DC) : Opts2D where
  minBins := p.minBins
  maxBins := p.maxBins
  trendX := trendOf2D p.trendX
  trendY := trendOf2D p.trendY
  minDiffX := p.minMeanDiffX
  minDiffY := p.minMeanDiffY

/-- model_data_2d.py:160-161: `(c * scale).astype(int)` with `scale = int(1e6)` cuts off the fraction. -/
noncomputable def cutInt (v : ℝ) : ℤ := if 0 ≤ v * 1000000 then ⌊v * 1000000⌋ else ⌈v * 1000000⌉

/-- Data and external parts of a call of `fit`. -/
structure Ext2D (α β τ : Type) where
  dx : Dtype2 α τ
  dy : Dtype2 β τ
  scx : Option (List (Option α)) := none
  scy : Option (List (Option β)) := none
  prebinX : List (EQ × τ) → List EQ
  prebinY : List (EQ × τ) → List EQ
  tree : List (ℕ × ℕ × τ) → CartTree
  solverCP : Opts2D → Prog2D ℤ → Answer2D ℤ
  solverMIP : Opts2D → Prog2D ℝ → Answer2D ℝ
  init : ℕ → ℕ
  initA : ℕ → ℕ → ℕ
  recs : List (Rec2 α β τ)

/-- The problem for CP-SAT (binning_2d.py:850-857; cp_2d.py:50-52 for the regularisation). -/
noncomputable def Params2DB.jobCP (p : Params2DB) (e : Ext2D α β Bool) : CartJob2D α β ℤ where
  dx := e.dx
  dy := e.dy
  scx := e.scx
  scy := e.scy
  o := p.opts
  minBinSize := p.minBinSize.map XQ.value
  maxBinSize := p.maxBinSize.map XQ.value
  coef := fun a b => cutInt ((divergenceOf p.divergence).fn a b)
  gamma := decide (p.gamma ≠ .num 0)
  reg := fun t => ⌈1000000 * p.gamma.value / (t : ℚ)⌉
  prebinX := e.prebinX
  prebinY := e.prebinY
  solver := e.solverCP
  init := e.init
  recs := e.recs
  tree := e.tree
  initA := e.initA

/-- The problem for the MIP solver (binning_2d.py:859-866; mip_2d.py:48-50). -/
noncomputable def Params2DB.jobMIP (p : Params2DB) (e : Ext2D α β Bool) : CartJob2D α β ℝ where
  dx := e.dx
  dy := e.dy
  scx := e.scx
  scy := e.scy
  o := p.opts
  minBinSize := p.minBinSize.map XQ.value
  maxBinSize := p.maxBinSize.map XQ.value
  coef := fun a b => (divergenceOf p.divergence).fn a b
  gamma := decide (p.gamma ≠ .num 0)
  reg := fun t => ((p.gamma.value / (t : ℚ) : ℚ) : ℝ)
  prebinX := e.prebinX
  prebinY := e.prebinY
  solver := e.solverMIP
  init := e.init
  recs := e.recs
  tree := e.tree
  initA := e.initA

/-- `fit` for one solver: `strategy` (binning_2d.py:873-886), and the division by the number of records of all candidate
rectangles when `gamma` is not zero (cp_2d.py:50-52, mip_2d.py:48-50: `ZeroDivisionError` if there is no candidate). -/
noncomputable def runJob2D {R : Type} [CommRing R] [LinearOrder R] (strategy : String) (j : CartJob2D α β R) :
    Except String (Fitted2D α β) :=
  if strategy = "cart" then
    if j.gamma ∧ j.program.1 = [] then .error "ZeroDivisionError" else .ok j.fitCart
  else
    if j.gamma ∧ (binaryProgram j.opts j.prepared.m j.prepared.n j.prepared.nonevents j.prepared.events j.coef j.gamma j.reg).1 = [] then
      .error "ZeroDivisionError"
    else .ok j.toJob2D.fit

/-- `OptimalBinning2D(...).fit` (binning_2d.py:558-762).  A `gamma` which is NaN or infinite passes the check; what the solvers
make of it is not modelled. -/
noncomputable def fitArgs2D (p : Params2DB) (e : Ext2D α β Bool) : Except String (Fitted2D α β) :=
  match check2DB p with
  | .error m => .error m
  | .ok () =>
    match p.gamma with
    | .num _ => if p.solver = "cp" then runJob2D p.strategy (p.jobCP e) else runJob2D p.strategy (p.jobMIP e)
    | _ => .error "gamma not finite: not modelled"

/-- The problem for CP-SAT of a continuous target (continuous_binning_2d.py:776-782; the coefficient is the distance of the mean
of the rectangle from the mean of all, model_data_2d.py:251-260). -/
noncomputable def Params2DC.jobCP (p : Params2DC) (e : Ext2D α β ℚ) : CartJobC2D α β ℤ where
  dx := e.dx
  dy := e.dy
  scx := e.scx
  scy := e.scy
  o := p.opts
  minBinSize := p.minBinSize.map XQ.value
  maxBinSize := p.maxBinSize.map XQ.value
  coef := fun d => cutInt d
  gamma := decide (p.gamma ≠ .num 0)
  reg := fun t => ⌈1000000 * p.gamma.value / (t : ℚ)⌉
  prebinX := e.prebinX
  prebinY := e.prebinY
  solver := e.solverCP
  init := e.init
  recs := e.recs
  tree := e.tree
  initA := e.initA

/-- The problem for the MIP solver (continuous_binning_2d.py:784-790). -/
noncomputable def Params2DC.jobMIP (p : Params2DC) (e : Ext2D α β ℚ) : CartJobC2D α β ℝ where
  dx := e.dx
  dy := e.dy
  scx := e.scx
  scy := e.scy
  o := p.opts
  minBinSize := p.minBinSize.map XQ.value
  maxBinSize := p.maxBinSize.map XQ.value
  coef := fun d => (d : ℝ)
  gamma := decide (p.gamma ≠ .num 0)
  reg := fun t => ((p.gamma.value / (t : ℚ) : ℚ) : ℝ)
  prebinX := e.prebinX
  prebinY := e.prebinY
  solver := e.solverMIP
  init := e.init
  recs := e.recs
  tree := e.tree
  initA := e.initA

/-- The same as `runJob2D` for a continuous target (continuous_binning_2d.py:797-818). -/
noncomputable def runJobC2D {Q : Type} [CommRing Q] [LinearOrder Q] (strategy : String) (j : CartJobC2D α β Q) :
    Except String (FittedC2D α β) :=
  if strategy = "cart" then
    if j.gamma ∧ j.program.1 = [] then .error "ZeroDivisionError" else .ok j.fitCart
  else
    if j.gamma ∧ (continuousProgram j.opts j.prepared.m j.prepared.n j.prepared.records j.prepared.sums j.coef j.gamma j.reg).1 = [] then
      .error "ZeroDivisionError"
    else .ok j.toJobC2D.fit

/-- `ContinuousOptimalBinning2D(...).fit` (continuous_binning_2d.py:483-692). -/
noncomputable def fitArgs2DC (p : Params2DC) (e : Ext2D α β ℚ) : Except String (FittedC2D α β) :=
  match check2D p.toParams2D with
  | .error m => .error m
  | .ok () =>
    match p.gamma with
    | .num _ => if p.solver = "cp" then runJobC2D p.strategy (p.jobCP e) else runJobC2D p.strategy (p.jobMIP e)
    | _ => .error "gamma not finite: not modelled"

end OptBinning
