import Verif.Model.Params

/-!
# Model of the choice of the solver and of the data handed over by `model_data` (`binning.py`, `cp.py`, `mip.py`, `ls.py`)

`model_data` returns a tuple whose length depends on `return_nonevent_event`; every `build_model` unpacks it into named
variables.  Python raises `ValueError` when the number of variables differs from the length of the tuple.
-/
namespace OptBinning

/-- `solver` (binning.py:62-64). -/
inductive SolverName | cp | mip | ls
  deriving DecidableEq, Repr

/-- The components of the tuple returned by `model_data` (model_data.py:171-174). -/
inductive Component | rates | divergences | nonevents | events | pvalueViolations | minDiffViolations
  deriving DecidableEq, Repr

/-- model_data.py:171-174: what is returned. -/
def modelDataTuple (returnCounts : Bool) : List Component :=
  if returnCounts then [.rates, .divergences, .nonevents, .events, .pvalueViolations]
  else [.rates, .divergences, .pvalueViolations, .minDiffViolations]

/-- The argument `return_nonevent_event` of the call: cp.py:54-57 and mip.py:50-53 leave the default `False`; ls.py:52-54
passes `True`. -/
def returnsCounts : SolverName → Bool
  | .ls => true
  | _ => false

/-- The variables on the left of the assignment; `none` is `_`.  cp.py:54-55, mip.py:50-51: four names; ls.py:52:
`D, V, NE, E, _, _`. -/
def targets : SolverName → List (Option Component)
  | .ls => [some .rates, some .divergences, some .nonevents, some .events, none, none]
  | _ => [some .rates, some .divergences, some .pvalueViolations, some .minDiffViolations]

/-- Python's unpacking `a, b, ... = tuple`. -/
def unpack (names : List (Option Component)) (values : List Component) : Except String (List (Option Component × Component)) :=
  if names.length = values.length then .ok (names.zip values) else .error "ValueError"

/-- The first statement of `build_model` (cp.py:54-57, mip.py:50-53, ls.py:52-54): the data reach the variables, or an exception. -/
def buildModelData (s : SolverName) : Except String (List (Option Component × Component)) :=
  unpack (targets s) (modelDataTuple (returnsCounts s))

section
variable {α : Type*} [LinearOrder α]

/-- `_fit_optimizer` (binning.py:898-1043) with the choice of the solver (991-1015) and the exceptions of `build_model`
(1020-1021); the test of 904 comes before. -/
def fitOptimizerS (name : SolverName) (catUser : Bool) (solver : Solver) (splits : List α) (nev ev : List ℕ) :
    Except String (OptimizerResult α) :=
  if nev.length ≤ 1 then .ok ⟨"OPTIMAL", splits, List.replicate splits.length false⟩
  else
    match buildModelData name with
    | .error e => .error e
    | .ok _ =>
      let r := solve nev.length (solver nev ev)
      .ok ⟨r.1, select splits (if catUser then r.2 else r.2.dropLast), r.2⟩

/-- `fitCore` (binning.py:804-860) with the choice of the solver. -/
def fitCoreS (name : SolverName) (cfg : PrebinCfg) (solver : Solver) (clean : List (Rec α)) (others : Bool → Option ℕ)
    (special : Bool → List ℕ) (missing : Bool → ℕ) (st : PrebinState α) (splits : List α) :
    Except String (PrebinState α × Fitted α) := do
  let pb ← computePrebins cfg clean st splits
  let r ← fitOptimizerS name cfg.catUser solver pb.splits pb.nonevent pb.event
  let col (event : Bool) (counts : List ℕ) : List ℕ :=
    binInfo r.solution
      (if pb.splits.length = 0 then [truncWeight (clean.filter fun q => q.isEvent == event)] else counts)
      (others event) (special event) (missing event)
  pure (pb.st, ⟨r.status, r.splits, col false pb.nonevent, col true pb.event⟩)

/-- `OptimalBinning(solver=name, ...).fit(x, y)` of a numerical variable (binning.py:700-877), without `user_splits`. -/
def fitSolver (name : SolverName) (p : Params) (sc : SpecialCodes α) (so : SplitOpts α) (prebin : List (Rec α) → List α)
    (solver : Solver) (recs : List (Rec α)) : Except String (Fitted α) := do
  let s ← match checkParameters p with
    | .error e => throw e
    | .ok _ => pure (splitData sc so recs)
  let r ← fitCoreS name { keepPure := p.divergence.keepsPure, catUser := false } solver s.clean (fun _ => none) (specialCounts sc s.special)
    (fun event => truncWeight (s.missing.filter fun q => q.isEvent == event)) {} (prebin s.clean)
  pure r.2

end

end OptBinning
