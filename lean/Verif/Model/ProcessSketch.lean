import Verif.Model.Process

/-!
# Model of `BinningProcessSketch` (`binning/distributed/binning_process_sketch.py`)

An `OptimalBinningSketch` is represented by its state and its methods (`VarClass`); every method returns the state afterwards and the exception
it raised, if any.  The state of the process after a call that raises is part of the model.

Not modelled: the checks of argument types, timings and printing, the dtype, status and number of bins shown by `summary`, data frames with
repeated column names, the sharing of sketches after `merge` (`Model/BSketch.lean`).
-/
namespace OptBinning
variable {Ω χ υ V μ : Type*}

/-- The methods of the objects of single variables, as used by the process.  `new` is the constructor with the options of the process followed
by `set_params` with `binning_fit_params` of the variable (binning_process_sketch.py:316-338). -/
structure VarClass (Ω χ υ V μ : Type*) where
  new : String → Except String Ω
  add : Ω → List χ → List υ → Ω × Option String
  merge : Ω → Ω → Ω × Option String
  solve : Ω → Ω × Option String
  metrics : Ω → Except String (String → V)
  transform : Ω → TArgs μ → List χ → Except String (List (OutCell V))

/-- Constructor arguments of the process (binning_process_sketch.py:220-226) that are not passed to the single objects. -/
structure SkProcCfg (V μ : Type*) where
  names : List String
  criteria : Option (PDict (Criterion V)) := none
  tparams : Option (PDict (VParams μ)) := none

/-- The attributes of the process (binning_process_sketch.py:251-273); `samples` is 0 if `_n_samples` is `None`. -/
structure SkProc (Ω V : Type*) where
  started : Bool := false
  solved : Bool := false
  samples : ℕ := 0
  nAdd : ℕ := 0
  nSolve : ℕ := 0
  objs : PDict Ω := []
  stats : PDict (String → V) := []
  support : List Bool := []

/-- A chunk of data: the columns of the data frame, the target, and `X.shape[0]`. -/
structure Chunk (χ υ : Type*) where
  cols : List (String × List χ)
  y : List υ
  rows : ℕ

section
variable [Field V] [LinearOrder V]

/-- binning_process_sketch.py:315-341: new objects for all variables. -/
def initObjs (K : VarClass Ω χ υ V μ) : List String → PDict Ω → PDict Ω × Option String
  | [], d => (d, none)
  | n :: ns, d =>
    match K.new n with
    | .error e => (d, some e)
    | .ok o => initObjs K ns (d.set n o)

/-- binning_process_sketch.py:351-356: the columns of the data frame one after the other; other columns are ignored. -/
def addCols (K : VarClass Ω χ υ V μ) (names : List String) (y : List υ) : List (String × List χ) → PDict Ω → PDict Ω × Option String
  | [], d => (d, none)
  | (n, x) :: cs, d =>
    if names.contains n then
      match d.get n with
      | none => (d, some "KeyError")
      | some o =>
        match K.add o x y with
        | (o', some e) => (d.set n o', some e)
        | (o', none) => addCols K names y cs (d.set n o')
    else addCols K names y cs d

/-- binning_process_sketch.py:296-343: what `add` does before the data. -/
def SkProc.start (K : VarClass Ω χ υ V μ) (cfg : SkProcCfg V μ) (p : SkProc Ω V) : SkProc Ω V × Option String :=
  if p.started then (p, none)
  else if (cfg.criteria.all fun c => checkCriteria .binary c) = false then ({ p with samples := 0 }, some "ValueError: selection_criteria")
  else
    match initObjs K cfg.names p.objs with
    | (d, some e) => ({ p with samples := 0, objs := d }, some e)
    | (d, none) => ({ p with samples := 0, objs := d, started := true }, none)

/-- binning_process_sketch.py:278-367 `add`. -/
def SkProc.add (K : VarClass Ω χ υ V μ) (cfg : SkProcCfg V μ) (p : SkProc Ω V) (c : Chunk χ υ) : SkProc Ω V × Option String :=
  match p.start K cfg with
  | (p', some e) => (p', some e)
  | (p', none) =>
    match addCols K cfg.names c.y c.cols p'.objs with
    | (d, some e) => ({ p' with objs := d }, some e)
    | (d, none) => ({ p' with objs := d, samples := p'.samples + c.rows, nAdd := p'.nAdd + 1 }, none)

/-- binning_process_sketch.py:426-428: the variables one after the other. -/
def mergeObjs (K : VarClass Ω χ υ V μ) (other : PDict Ω) : List String → PDict Ω → PDict Ω × Option String
  | [], d => (d, none)
  | n :: ns, d =>
    match d.get n, other.get n with
    | some a, some b =>
      match K.merge a b with
      | (a', some e) => (d.set n a', some e)
      | (a', none) => mergeObjs K other ns (d.set n a')
    | _, _ => (d, some "KeyError")

/-- binning_process_sketch.py:415-431 `merge`, for a process with the same parameters. -/
def SkProc.merge (K : VarClass Ω χ υ V μ) (cfg : SkProcCfg V μ) (p : SkProc Ω V) (q : SkProc Ω V) : SkProc Ω V × Option String :=
  match mergeObjs K q.objs cfg.names p.objs with
  | (d, e) => ({ p with objs := d }, e)

/-- binning_process_sketch.py:462-466: the variables one after the other. -/
def solveObjs (K : VarClass Ω χ υ V μ) : List String → PDict Ω → PDict Ω × Option String
  | [], d => (d, none)
  | n :: ns, d =>
    match d.get n with
    | none => (d, some "KeyError")
    | some o =>
      match K.solve o with
      | (o', some e) => (d.set n o', some e)
      | (o', none) => solveObjs K ns (d.set n o')

/-- binning_process.py:397-433: the statistics of the variables one after the other. -/
def statsObjs (K : VarClass Ω χ υ V μ) (d : PDict Ω) : List String → PDict (String → V) → PDict (String → V) × Option String
  | [], st => (st, none)
  | n :: ns, st =>
    match d.get n with
    | none => (st, some "KeyError")
    | some o =>
      match K.metrics o with
      | .error e => (st, some e)
      | .ok m => statsObjs K d ns (st.set n m)

/-- binning_process_sketch.py:447-480 `solve`, binning_process.py:350-435: with `selection_criteria` line 392 reads the attribute
`fixed_variables`, which this class does not have (the support left behind then is not modelled). -/
def SkProc.solve (K : VarClass Ω χ υ V μ) (cfg : SkProcCfg V μ) (p : SkProc Ω V) : SkProc Ω V × Option String :=
  if p.nAdd = 0 then (p, some "NotDataAddedError")
  else
    match solveObjs K cfg.names p.objs with
    | (d, some e) => ({ p with objs := d }, some e)
    | (d, none) =>
      match statsObjs K d cfg.names p.stats with
      | (st, some e) => ({ p with objs := d, stats := st }, some e)
      | (st, none) =>
        if cfg.criteria.isSome then ({ p with objs := d, stats := st }, some "AttributeError: fixed_variables")
        else ({ p with objs := d, stats := st, support := List.replicate cfg.names.length true, nSolve := p.nSolve + 1, solved := true }, none)

/-- The calls that change a process. -/
inductive SkProcOp (Ω χ υ V : Type*)
  | add (c : Chunk χ υ)
  | merge (q : SkProc Ω V)
  | solve

/-- One call. -/
def SkProc.step (K : VarClass Ω χ υ V μ) (cfg : SkProcCfg V μ) (p : SkProc Ω V) : SkProcOp Ω χ υ V → SkProc Ω V × Option String
  | .add c => p.add K cfg c
  | .merge q => p.merge K cfg q
  | .solve => p.solve K cfg

/-- A history of calls; exceptions are caught by the caller. -/
def SkProc.run (K : VarClass Ω χ υ V μ) (cfg : SkProcCfg V μ) (ops : List (SkProcOp Ω χ υ V)) : SkProc Ω V :=
  ops.foldl (fun p o => (p.step K cfg o).1) {}

/-- binning_process_sketch.py:636-642 `get_support(names=True)`. -/
def SkProc.selected (cfg : SkProcCfg V μ) (p : SkProc Ω V) : List String :=
  ((List.range p.support.length).filter fun i => p.support.getD i false).map fun i => cfg.names.getD i ""

/-- binning_process_sketch.py:562-581: the arguments for one variable; the local variables `metric_special` and `metric_missing` are overwritten,
`metric` is not. -/
def skArgs (tp : Option (PDict (VParams μ))) (metric : String) (n : String) (sp mi : μ) : TArgs μ :=
  let p := paramsOf tp n
  ⟨p.metric.getD (some metric), p.special.getD sp, p.missing.getD mi⟩

/-- binning_process_sketch.py:558-583: the loop over the selected variables; the result is an array of floats. -/
def SkProc.transformCols [FloorRing V] (K : VarClass Ω χ υ V μ) (cfg : SkProcCfg V μ) (p : SkProc Ω V) (X : List (String × List χ)) (metric : String) :
    List String → μ → μ → Except String (List (List (OutCell V)))
  | [], _, _ => .ok []
  | n :: ns, sp, mi =>
    match p.objs.get n, PDict.get X n with
    | some o, some x =>
      let a := skArgs cfg.tparams metric n sp mi
      match K.transform o a x with
      | .error e => .error e
      | .ok c =>
        match procCol none c with
        | .error e => .error e
        | .ok c' =>
          match p.transformCols K cfg X metric ns a.special a.missing with
          | .error e => .error e
          | .ok cs => .ok (c' :: cs)
    | _, _ => .error "KeyError"

/-- binning_process_sketch.py:482-585 `transform` of a data frame: the names and the columns of the result. -/
def SkProc.transform [FloorRing V] (K : VarClass Ω χ υ V μ) (cfg : SkProcCfg V μ) (p : SkProc Ω V) (X : List (String × List χ)) (metric : String) (sp mi : μ) :
    Except String (List String × List (List (OutCell V))) :=
  if p.solved = false then .error "NotSolvedError"
  else if metric ≠ "event_rate" ∧ metric ≠ "woe" then .error "ValueError: Invalid value for metric."
  else if p.support.any id = false then .ok ([], [])
  else if ((p.selected cfg).all fun n => (PDict.get X n).isSome) = false then .error "ValueError: Selected variable must be a column"
  else
    match p.transformCols K cfg X metric (p.selected cfg) sp mi with
    | .error e => .error e
    | .ok cs => .ok (p.selected cfg, cs)

end
end OptBinning
