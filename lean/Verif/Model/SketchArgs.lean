import Verif.Model.Params
import Verif.Model.CatStream
import Verif.Model.TransformRate

/-!
# Model of the constructor arguments of `OptimalBinningSketch` and of the state kept between calls
(binning/distributed/binning_sketch.py:42-221, 369-459, 493-531, 563-568, 570-647, 808-960)

Numerical variable, `sketch="gk"`.  As in `Model/Params.lean` floats are rationals with NaN and infinities; the checks of Python types
and of the arguments `name`, `dtype`, `sketch`, `solver`, `cat_unknown`, `special_codes`, `mip_solver`, `verbose` are not modelled.
Timings are not modelled.
-/
namespace OptBinning

/-- Constructor arguments (binning_sketch.py:369-379).  `base` holds those shared with `OptimalBinning`; its field `minPrebinSize` is
not an argument of this class and is not used. -/
structure SketchArgs where
  base : Params := {}
  eps : XQ := .num (1 / 10000)
  K : ℤ := 25
  catCutoff : Option XQ := none

/-- `_check_parameters` (binning_sketch.py:42-221), in the order of the source. -/
def checkSketch (a : SketchArgs) : Except String Unit :=
  if !(a.eps.atLeast 0 && a.eps.atMost 1) then .error "ValueError"
  else if a.K ≤ 0 then .error "ValueError"
  else if a.base.maxPrebins ≤ 1 then .error "ValueError"
  else if badCount a.base.minBins then .error "ValueError"
  else if badCount a.base.maxBins then .error "ValueError"
  else if badOrder a.base.minBins a.base.maxBins then .error "ValueError"
  else if a.base.minBinSize.any fun v => !(v.above 0 && v.atMost (1 / 2)) then .error "ValueError"
  else if a.base.maxBinSize.any fun v => !(v.above 0 && v.atMost 1) then .error "ValueError"
  else if a.base.minBinSize.any fun v => a.base.maxBinSize.any fun w => v.greater w then .error "ValueError"
  else if badCount a.base.minNonevent then .error "ValueError"
  else if badCount a.base.maxNonevent then .error "ValueError"
  else if badOrder a.base.minNonevent a.base.maxNonevent then .error "ValueError"
  else if badCount a.base.minEvent then .error "ValueError"
  else if badCount a.base.maxEvent then .error "ValueError"
  else if badOrder a.base.minEvent a.base.maxEvent then .error "ValueError"
  else if !(a.base.minRateDiff.atLeast 0 && a.base.minRateDiff.atMost 1) then .error "ValueError"
  else if a.base.maxPvalue.any fun v => !(v.above 0 && v.atMost 1) then .error "ValueError"
  else if a.base.gamma.below 0 then .error "ValueError"
  else if a.catCutoff.any fun v => !(v.above 0 && v.atMost 1) then .error "ValueError"
  else if a.base.splitDigits.any fun d => !(decide (0 ≤ d) && decide (d ≤ 8)) then .error "ValueError"
  else if a.base.timeLimit.below 0 then .error "ValueError"
  else .ok ()

/-- One entry of `_solve_stats` (binning_sketch.py:956-960).  The table is kept instead of the number computed from it (945-954),
see `SolveStat.value`. -/
structure SolveStat (α : Type*) where
  key : ℕ
  nAdd : ℕ
  nRecords : ℕ
  table : Fitted α

/-- binning_sketch.py:947-954: the total of the chosen divergence.  (The Gini index, the only value depending on `sort`, is not used.) -/
noncomputable def SolveStat.value {α : Type*} (d : Divergence) (s : SolveStat α) : ℝ :=
  let b := buildCore id (rowsOf s.table.nonevent s.table.event)
  match d with
  | .iv => b.tIv
  | .js => b.tJs
  | .hellinger => b.tHellinger
  | .triangular => b.tTriangular

/-- The attributes of an `OptimalBinningSketch` (binning_sketch.py:419-456): `flag` is `_flag_min_n_event_nonevent`, `result` the
attributes set by a completed optimisation (`_is_solved` is `result.isSome`), `optimizer` tells whether the attribute `_optimizer`
exists (it is not set by the constructor), `stats` is `_solve_stats` in order of insertion. -/
structure SketchObj (α : Type*) where
  data : Stream α
  flag : Bool := false
  result : Option (StreamFit α) := none
  optimizer : Bool := false
  nSolve : ℕ := 0
  stats : List (SolveStat α) := []

section
variable {α : Type*} [LinearOrder α]

/-- The arguments used by the sketches and the pre-binning (binning_sketch.py:477-478, 715, 750). -/
def SketchArgs.stream (a : SketchArgs) (sc : SpecialCodes α) : StreamCfg α where
  eps := a.eps.value
  sc := sc
  maxPrebins := a.base.maxPrebins.toNat
  keepPure := a.base.divergence.keepsPure

/-- A new object (binning_sketch.py:419-459). -/
def SketchObj.new (a : SketchArgs) (sc : SpecialCodes α) : SketchObj α := { data := .new (a.stream sc) }

/-- `OptimalBinningSketch(...)`. -/
def SketchObj.create (a : SketchArgs) (sc : SpecialCodes α) : Except String (SketchObj α) :=
  match checkSketch a with
  | .error e => .error e
  | .ok _ => .ok (.new a sc)

/-- `add(x, y)` (binning_sketch.py:461-491): the first call builds the sketches, whose constructor computes `1.0 / eps` (gk.py:55). -/
def SketchObj.add (a : SketchArgs) (sc : SpecialCodes α) (o : SketchObj α) (recs : List (Rec α)) : Except String Unit × SketchObj α :=
  if o.data.nAdd = 0 ∧ a.eps.value = 0 then (.error "ZeroDivisionError", o)
  else (.ok (), { o with data := o.data.add (a.stream sc) recs })

/-- `_bsketch.n` (bsketch.py:238-258): all records with a target. -/
def Stream.total (s : Stream α) : ℕ := (s.ne.count + s.missNe + s.specNe) + (s.e.count + s.missE + s.specE)

/-- `_compute_prebins` keeps a pre-bin of one class (binning_sketch.py:749-751). -/
def Stream.keepsPurePrebin (cfg : StreamCfg α) (s : Stream α) : Bool :=
  match s.mergeSketches cfg with
  | .error _ => false
  | .ok (all, s1) =>
    match all.quantiles (percentiles cfg.maxPrebins) with
    | .error _ => false
    | .ok splits => cfg.keepPure && (pureMask (s1.ne.counts splits) (s1.e.counts splits)).any id

/-- The external solver: its answer to the problem described by the options. -/
abbrev ExtSolver := SolverCfg → Solver

/-- The options handed to the solver (binning_sketch.py:827-923): as in `OptimalBinning` (binning.py:917-1021), the sizes being relative to
`_bsketch.n`; `split_digits` is not used.  The flag set by this very call is added in `Params.options`. -/
noncomputable def SketchObj.cfg (a : SketchArgs) (hull : List ℚ → Option ℚ) (pv : ℕ → ℕ → ℕ → ℕ → ℝ) (o : SketchObj α) : SolverCfg :=
  a.base.cfg hull o.flag pv o.data.total

/-- `solve()` (binning_sketch.py:570-647, 944-960): the value returned and the object afterwards.  `build()` of the table (945) raises
without a row of both classes, after the object was marked as solved (644). -/
noncomputable def SketchObj.solve (a : SketchArgs) (sc : SpecialCodes α) (hull : List ℚ → Option ℚ) (pv : ℕ → ℕ → ℕ → ℕ → ℝ)
    (ext : ExtSolver) (o : SketchObj α) : Except String (StreamFit α) × SketchObj α :=
  let r := o.data.solve (a.stream sc) (ext (o.cfg a hull pv))
  let o1 : SketchObj α := if o.data.nAdd = 0 then o
    else { o with data := r.2, flag := o.flag || o.data.keepsPurePrebin (a.stream sc) }
  match r.1 with
  | .error e => (.error e, o1)
  | .ok f =>
    let o2 : SketchObj α := { o1 with
      result := some f, optimizer := o.optimizer || decide (1 < f.nPrebins), nSolve := o.nSolve + 1 }
    if (rowsOf f.table.nonevent f.table.event).any Spec.Row.mixed then
      (.ok f, { o2 with stats := o2.stats ++ [⟨o2.nSolve, o2.data.nAdd, o2.data.total, f.table⟩] })
    else (.error "ValueError", o2)

/-- `information()` with a valid `print_level` (binning_sketch.py:502-531): 511 reads `_optimizer`. -/
def SketchObj.information (o : SketchObj α) : Except String Unit :=
  if o.result.isNone then .error "NotFittedError"
  else if o.optimizer then .ok () else .error "AttributeError"

/-- The data drawn by `plot_progress()` (binning_sketch.py:563-568, plots.py:12-16); a frame without rows has no column `n_add`. -/
def SketchObj.progress (o : SketchObj α) : Except String (List (SolveStat α)) :=
  if o.result.isNone then .error "NotFittedError"
  else if o.stats.isEmpty then .error "AttributeError" else .ok o.stats

/-- The property `binning_table` (binning_sketch.py:962-974). -/
def SketchObj.table (o : SketchObj α) : Except String (Fitted α) :=
  match o.result with
  | none => .error "NotFittedError"
  | some f => .ok f.table

/-- Calls on an object; the external solver may answer differently in every call. -/
inductive SketchOp (α : Type*)
  | add (recs : List (Rec α))
  | solve (ext : ExtSolver)

/-- The object after a call. -/
noncomputable def SketchObj.step (a : SketchArgs) (sc : SpecialCodes α) (hull : List ℚ → Option ℚ) (pv : ℕ → ℕ → ℕ → ℕ → ℝ)
    (o : SketchObj α) : SketchOp α → SketchObj α
  | .add recs => (o.add a sc recs).2
  | .solve ext => (o.solve a sc hull pv ext).2

/-- The object after a history of calls. -/
noncomputable def SketchObj.run (a : SketchArgs) (sc : SpecialCodes α) (hull : List ℚ → Option ℚ) (pv : ℕ → ℕ → ℕ → ℕ → ℝ)
    (ops : List (SketchOp α)) : SketchObj α := ops.foldl (SketchObj.step a sc hull pv) (.new a sc)

end

/-- binning_sketch.py:570-647, 944-945 `solve()` of a categorical object with the streaming statistics: `build()` raises without a row
of both classes. -/
def CWorld.solveCall {κ : Type} [LinearOrder κ] (cfg : CatStreamCfg) (solver : Solver) (w : CWorld κ) (i : ℕ) : Except String (CatStreamFit κ) :=
  match w.solve cfg solver i with
  | .error e => .error e
  | .ok f => if (rowsOf f.table.nonevent f.table.event).any Spec.Row.mixed then .ok f else .error "ValueError"

end OptBinning
