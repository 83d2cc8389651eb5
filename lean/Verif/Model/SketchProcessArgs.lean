import Verif.Model.ProcessArgs
import Verif.Model.ProcessStream
import Verif.Model.SketchArgs

/-!
# Model of the constructor arguments of `BinningProcessSketch` and of the options they give to every variable
(distributed/binning_process_sketch.py:32-120, 275-276, 315-343)

As in `Model/Params.lean`: floats are rationals with NaN and infinities; checks of Python types are not modelled; all variables are
numerical (`categorical_variables=None`).  An entry of `binning_fit_params` is a list of assignments of well-typed values.  `merge` of two
processes is not modelled here (see `Model/ProcessStream.lean`): it raises.
-/
namespace OptBinning

/-- Constructor arguments of `BinningProcessSketch` with numerical checks (binning_process_sketch.py:222-246). -/
structure ParamsPS where
  maxPrebins : ℤ := 20
  minBins : Option ℤ := none
  maxBins : Option ℤ := none
  minBinSize : Option XQ := none
  maxBinSize : Option XQ := none
  maxPvalue : Option XQ := none
  policy : Spec.Policy := .consecutive
  splitDigits : Option ℤ := none

/-- `_check_parameters` (binning_process_sketch.py:41-82, 105-109). -/
def checkParametersPS (p : ParamsPS) : Except String Unit :=
  if p.maxPrebins ≤ 1 then .error "ValueError"
  else if badCount p.minBins then .error "ValueError"
  else if badCount p.maxBins then .error "ValueError"
  else if badOrder p.minBins p.maxBins then .error "ValueError"
  else if p.minBinSize.any fun v => !(v.above 0 && v.atMost (1 / 2)) then .error "ValueError"
  else if p.maxBinSize.any fun v => !(v.above 0 && v.atMost 1) then .error "ValueError"
  else if p.minBinSize.any fun v => p.maxBinSize.any fun w => v.greater w then .error "ValueError"
  else if p.maxPvalue.any fun v => !(v.above 0 && v.atMost 1) then .error "ValueError"
  else if p.splitDigits.any fun d => !(decide (0 ≤ d) && decide (d ≤ 8)) then .error "ValueError"
  else .ok ()

/-- One item of the dictionary of a variable in `binning_fit_params`: a parameter of `OptimalBinningSketch` (binning_sketch.py:369-379)
with its value, or a name this class does not know (for example "min_prebin_size").  `name`, `dtype`, `sketch`, `solver`, `cat_unknown`,
`cat_heuristic`, `special_codes`, `mip_solver`, `verbose` are left out. -/
inductive SketchOpt
  | eps (v : XQ) | K (v : ℤ) | divergence (v : Divergence) | maxPrebins (v : ℤ) | minBins (v : Option ℤ) | maxBins (v : Option ℤ)
  | minBinSize (v : Option XQ) | maxBinSize (v : Option XQ) | minNonevent (v : Option ℤ) | maxNonevent (v : Option ℤ)
  | minEvent (v : Option ℤ) | maxEvent (v : Option ℤ) | trend (v : TrendArg) | minRateDiff (v : XQ) | maxPvalue (v : Option XQ)
  | policy (v : Spec.Policy) | gamma (v : XQ) | catCutoff (v : Option XQ) | splitDigits (v : Option ℤ) | timeLimit (v : XQ)
  | unknown (name : String)

/-- `setattr` for one parameter in `set_params` (binning_process_sketch.py:338); the values are not checked. -/
def SketchArgs.assign (a : SketchArgs) : SketchOpt → Except String SketchArgs
  | .eps v => .ok { a with eps := v }
  | .K v => .ok { a with K := v }
  | .divergence v => .ok { a with base := { a.base with divergence := v } }
  | .maxPrebins v => .ok { a with base := { a.base with maxPrebins := v } }
  | .minBins v => .ok { a with base := { a.base with minBins := v } }
  | .maxBins v => .ok { a with base := { a.base with maxBins := v } }
  | .minBinSize v => .ok { a with base := { a.base with minBinSize := v } }
  | .maxBinSize v => .ok { a with base := { a.base with maxBinSize := v } }
  | .minNonevent v => .ok { a with base := { a.base with minNonevent := v } }
  | .maxNonevent v => .ok { a with base := { a.base with maxNonevent := v } }
  | .minEvent v => .ok { a with base := { a.base with minEvent := v } }
  | .maxEvent v => .ok { a with base := { a.base with maxEvent := v } }
  | .trend v => .ok { a with base := { a.base with trend := v } }
  | .minRateDiff v => .ok { a with base := { a.base with minRateDiff := v } }
  | .maxPvalue v => .ok { a with base := { a.base with maxPvalue := v } }
  | .policy v => .ok { a with base := { a.base with policy := v } }
  | .gamma v => .ok { a with base := { a.base with gamma := v } }
  | .catCutoff v => .ok { a with catCutoff := v }
  | .splitDigits v => .ok { a with base := { a.base with splitDigits := v } }
  | .timeLimit v => .ok { a with base := { a.base with timeLimit := v } }
  | .unknown _ => .error "ValueError"

/-- The loop of `set_params` over the dictionary (binning_process_sketch.py:338). -/
def setSketch : List SketchOpt → SketchArgs → Except String SketchArgs
  | [], a => .ok a
  | o :: os, a =>
    match a.assign o with
    | .error e => .error e
    | .ok b => setSketch os b

/-- binning_process_sketch.py:322-331: the arguments of a new object, `max_bin_size` is not among them. -/
def ParamsPS.variable (P : ParamsPS) : SketchArgs :=
  { base := { maxPrebins := P.maxPrebins, minBins := P.minBins, maxBins := P.maxBins, minBinSize := P.minBinSize,
              maxPvalue := P.maxPvalue, policy := P.policy, splitDigits := P.splitDigits } }

/-- binning_process_sketch.py:333-336 `binning_fit_params.get(name, {})`. -/
def sketchParamsOf (fp : Option (PDict (List SketchOpt))) (name : String) : List SketchOpt := (fp.bind fun d => d.get name).getD []

/-- The object of a variable: its arguments after `set_params` and its state; `calls` counts the calls of `solve` (the solver may answer
differently every time). -/
structure SketchVar (α : Type*) where
  name : String
  args : SketchArgs
  obj : SketchObj α
  calls : ℕ := 0

section
variable {α V μ : Type*} [LinearOrder α]

/-- The checks of the numbers in `BSketch(...)` (bsketch.py:33-39): a number `eps` passes whatever its value (`and` in line 33). -/
def SketchArgs.badSketch (a : SketchArgs) : Bool := decide (a.K ≤ 0)

/-- binning_sketch.py:461-491 `add` with a column and a target: the first call builds the sketch (475-478), whose constructor checks
`K` again; different lengths are rejected (`split_data`, by numpy). -/
def SketchVar.add (sc : SpecialCodes α) (o : SketchVar α) (x : List (Option α)) (y : List (Option Bool)) : SketchVar α × Option String :=
  if o.obj.data.nAdd = 0 ∧ o.args.badSketch = true then (o, some "ValueError")
  else if x.length = y.length then
    match o.obj.add o.args sc (recordsOf x y) with
    | (.ok _, obj) => ({ o with obj := obj }, none)
    | (.error e, obj) => ({ o with obj := obj }, some e)
  else (o, some "ValueError")

/-- binning_sketch.py:570-647 `solve`. -/
noncomputable def SketchVar.solve (sc : SpecialCodes α) (hull : List ℚ → Option ℚ) (pv : ℕ → ℕ → ℕ → ℕ → ℝ) (ext : ℕ → ExtSolver) (o : SketchVar α) :
    SketchVar α × Option String :=
  match o.obj.solve o.args sc hull pv (ext o.calls) with
  | (.ok _, obj) => ({ o with obj := obj, calls := o.calls + 1 }, none)
  | (.error e, obj) => ({ o with obj := obj, calls := o.calls + 1 }, some e)

/-- What a variable depends on besides its options and data: special codes, solver, statistics read from its table and transformation of
a column. -/
structure SketchEnv (α V μ : Type*) where
  special : SpecialCodes α
  hull : List ℚ → Option ℚ
  pv : ℕ → ℕ → ℕ → ℕ → ℝ
  ext : String → ℕ → ExtSolver
  metrics : StreamFit α → Except String (String → V)
  tr : StreamFit α → TArgs μ → List (Option α) → Except String (List (OutCell V))

/-- The objects of the variables of a process (binning_process_sketch.py:315-341, 356, 466, 583): a new object is a default
`OptimalBinningSketch` with the arguments of the process (checked in its constructor, binning_sketch.py:459), on which `set_params` is called. -/
noncomputable def sketchVars (P : ParamsPS) (fp : Option (PDict (List SketchOpt))) (E : SketchEnv α V μ) :
    VarClass (SketchVar α) (Option α) (Option Bool) V μ where
  new n :=
    match checkSketch P.variable with
    | .error e => .error e
    | .ok _ =>
      match setSketch (sketchParamsOf fp n) P.variable with
      | .error e => .error e
      | .ok a => .ok { name := n, args := a, obj := .new a E.special }
  add := SketchVar.add E.special
  merge o _ := (o, some "not modelled")
  solve o := o.solve E.special E.hull E.pv (E.ext o.name)
  metrics o := match o.obj.result with | some f => E.metrics f | none => .error "NotSolvedError"
  transform o a x := match o.obj.result with | some f => E.tr f a x | none => .error "NotSolvedError"

variable [Field V] [LinearOrder V]

/-- `BinningProcessSketch(...)` and a history of calls (binning_process_sketch.py:275-276, 278-480). -/
noncomputable def runSketchProcess (P : ParamsPS) (fp : Option (PDict (List SketchOpt))) (E : SketchEnv α V μ) (cfg : SkProcCfg V μ)
    (ops : List (SkProcOp (SketchVar α) (Option α) (Option Bool) V)) : Except String (SkProc (SketchVar α) V) :=
  match checkParametersPS P with
  | .error e => .error e
  | .ok _ => .ok (SkProc.run (sketchVars P fp E) cfg ops)

end
end OptBinning
