import Verif.Model.ProcessSketch
import Verif.Model.Stream

/-! # `BinningProcessSketch` with numerical variables

The objects are those of `Model/Stream.lean`.  The statistics of a table and the transformation of a column are parameters. -/
namespace OptBinning
variable {α V μ : Type*} [LinearOrder α]

/-- An `OptimalBinningSketch` of a numerical variable: its options, the answers of the solver, the data and the last result. -/
structure StreamVar (α : Type*) where
  cfg : StreamCfg α
  solver : Solver
  s : Stream α
  fit : Option (StreamFit α) := none

/-- The records of a column. -/
def recordsOf (x : List (Option α)) (y : List (Option Bool)) : List (Rec α) := (x.zip y).map fun p => ⟨p.1, p.2, 1⟩

/-- binning_sketch.py:461-491 `add`: a column and a target of different lengths are rejected (`split_data`, by numpy).  The empty sketch that a rejected first
call leaves behind is not distinguished from none. -/
def StreamVar.add (o : StreamVar α) (x : List (Option α)) (y : List (Option Bool)) : StreamVar α × Option String :=
  if x.length = y.length then ({ o with s := o.s.add o.cfg (recordsOf x y) }, none) else (o, some "ValueError")

/-- binning_sketch.py:533-547 `merge`; a call that raises leaves the object as it is. -/
def StreamVar.merge (o q : StreamVar α) : StreamVar α × Option String :=
  match o.s.merge q.s with
  | .ok s => ({ o with s := s }, none)
  | .error e => (o, some e)

/-- binning_sketch.py:570-647 `solve`. -/
def StreamVar.solve (o : StreamVar α) : StreamVar α × Option String :=
  match o.s.solve o.cfg o.solver with
  | (.ok f, s) => ({ o with s := s, fit := some f }, none)
  | (.error e, s) => ({ o with s := s }, some e)

/-- The objects of a process with numerical variables: `cfgOf` and `solverOf` are the options and the solver of the variables
(binning_process_sketch.py:322-338), `metrics` reads the statistics of a table and `tr` transforms a column with it. -/
def streamClass (cfgOf : String → StreamCfg α) (solverOf : String → Solver) (metrics : StreamFit α → Except String (String → V))
    (tr : StreamFit α → TArgs μ → List (Option α) → Except String (List (OutCell V))) : VarClass (StreamVar α) (Option α) (Option Bool) V μ where
  new n := .ok { cfg := cfgOf n, solver := solverOf n, s := .new (cfgOf n) }
  add := StreamVar.add
  merge := StreamVar.merge
  solve := StreamVar.solve
  metrics o := match o.fit with | some f => metrics f | none => .error "NotSolvedError"
  transform o a x := match o.fit with | some f => tr f a x | none => .error "NotSolvedError"

end OptBinning
