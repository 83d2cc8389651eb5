import Verif.Model.BSketch

/-! # Model of `OptimalBinningSketch` for a numerical variable (`binning/distributed/binning_sketch.py`, `sketch="gk"`)

One object with its own `BSketch`; objects built elsewhere can be merged into it and are not used afterwards (sharing after a merge is
modelled in `Model/BSketch.lean`).  Timings, `information` and the streaming statistics are not modelled, nor is the validation of
arguments. -/
namespace OptBinning
variable {α : Type*} [LinearOrder α]

/-- The constructor arguments that matter (binning_sketch.py:369-379); `keepPure` is `divergence in ("hellinger", "triangular")`. -/
structure StreamCfg (α : Type*) where
  eps : ℚ
  sc : SpecialCodes α
  maxPrebins : ℕ
  keepPure : Bool := false

/-- The data held by the object: the attributes of its `BSketch` (bsketch.py:93-100) and `_n_add` (binning_sketch.py:442).  The `BSketch`
exists as soon as `_n_add > 0` (475-486). -/
structure Stream (α : Type*) where
  e : GK α
  ne : GK α
  missE : ℕ := 0
  missNe : ℕ := 0
  specE : ℕ := 0
  specNe : ℕ := 0
  nAdd : ℕ := 0
deriving DecidableEq, Repr

/-- binning_sketch.py:433-442, bsketch.py:98-100: a new object. -/
def Stream.new (cfg : StreamCfg α) : Stream α := { e := { eps := cfg.eps }, ne := { eps := cfg.eps } }

/-- binning_sketch.py:461-491 `add(x, y)`, bsketch.py:105-146. -/
def Stream.add (cfg : StreamCfg α) (s : Stream α) (recs : List (Rec α)) : Stream α :=
  let d := splitData cfg.sc {} recs
  { e := s.e.addAll (cleanValues true d.clean)
    ne := s.ne.addAll (cleanValues false d.clean)
    missE := s.missE + d.missing.countP (fun r => r.y == some true)
    missNe := s.missNe + d.missing.countP (fun r => r.y == some false)
    specE := s.specE + d.special.countP (fun r => r.y == some true)
    specNe := s.specNe + d.special.countP (fun r => r.y == some false)
    nAdd := s.nAdd + 1 }

/-- bsketch.py:208-218 `merge_sketches()`: the new sketch, and the object afterwards (the two calls of `merge` compress their argument,
gk.py:98). -/
def Stream.mergeSketches (cfg : StreamCfg α) (s : Stream α) : Except String (GK α × Stream α) := do
  let r1 ← GK.merge { eps := cfg.eps } s.e
  let r2 ← r1.1.merge s.ne
  pure (r2.1, { s with e := r1.2, ne := r2.2 })

/-- binning_sketch.py:715 `np.linspace(0, 1, max_n_prebins + 1)[1:-1]`. -/
def percentiles (m : ℕ) : List ℚ := (List.range (m - 1)).map fun i => ((i + 1 : ℕ) : ℚ) / (m : ℚ)

/-- binning_sketch.py:717-718: the calls of `quantile` one after the other. -/
def GK.quantiles (k : GK α) : List ℚ → Except String (List α)
  | [] => .ok []
  | q :: qs =>
    match k.quantile q with
    | .error m => .error m
    | .ok (_, none) => .error "infinite"
    | .ok (k', some v) =>
      match k'.quantiles qs with
      | .error m => .error m
      | .ok vs => .ok (v :: vs)

/-- Value of `_compute_prebins`: `refinements` is the value that `_n_refinements` has afterwards, `pure` tells whether
`_flag_min_n_event_nonevent` was set. -/
structure StreamPrebins (α : Type*) where
  splits : List α
  nonevent : List ℕ
  event : List ℕ
  refinements : ℕ
  pure : Bool

/-- One column of `bins(splits)` (bsketch.py:148-174) as an array of counts. -/
def GK.counts (k : GK α) (splits : List α) : List ℕ := (k.bins splits).map Int.toNat


/-- binning_sketch.py:743-761 `_compute_prebins(splits)`.  With a single bin `mask_remove[-2]` (756) does not exist.
If a class has no record in the pre-bins and there is more than one, the solver is called with shares 0/0 (model_data.py:128-129): NaN,
which `check_array` refuses (metrics.py:17-18, called from 922 of binning_sketch.py); this failure of the same call of `solve` is modelled here.  (Rates of pre-bins without any record, possible with `keepPure`
only, are NaN in numpy and 0 in the model.) -/
def streamPrebins (keepPure : Bool) (e ne : GK α) (splits : List α) : Except String (StreamPrebins α) :=
  let nev := ne.counts splits
  let ev := e.counts splits
  if _hany : (pureMask nev ev).any id = true then
    if keepPure then
      if splits.length ≠ 0 ∧ (nev.sum = 0 ∨ ev.sum = 0) then .error "ValueError" else .ok ⟨splits, nev, ev, 0, true⟩
    else if _hn : splits.length = 0 then .error "IndexError"
    else streamPrebins keepPure e ne (select splits ((maskSplits false (pureMask nev ev)).map (!·)))
  else .ok ⟨splits, nev, ev, 0, false⟩
termination_by splits.length
decreasing_by
  have h := maskSplits_any (c := false) (rm := pureMask nev ev) (n := splits.length) (by omega)
    (by simp [pureMask, nev, ev, GK.counts, GK.bins]) _hany
  exact length_select_lt h.1 h.2

/-- The result of `solve`: the binning table and the number of pre-bins (`information()` reports it). -/
structure StreamFit (α : Type*) where
  table : Fitted α
  nPrebins : ℕ
  refinements : ℕ

/-- binning_sketch.py:614-622 for one class: `counts` are the pre-bin counts, `total` is the number of all records of the class in the
sketch (with missing and special ones, bsketch.py:238-258). -/
def streamColumn (r : OptimizerResult α) (nsplits : ℕ) (counts : List ℕ) (total spec miss : ℕ) : List ℕ :=
  binInfo r.solution (if nsplits = 0 then [total] else counts) none [spec] miss

/-- binning_sketch.py:570-647 `solve()`: the result, and the object afterwards (also if the call raises). -/
def Stream.solve (cfg : StreamCfg α) (solver : Solver) (s : Stream α) : Except String (StreamFit α) × Stream α :=
  if s.nAdd = 0 then (.error "NotFittedError", s)
  else
    match s.mergeSketches cfg with
    | .error m => (.error m, s)
    | .ok (all, s1) =>
      match all.quantiles (percentiles cfg.maxPrebins) with
      | .error m => (.error m, s1)
      | .ok splits =>
        let s2 : Stream α := { s1 with e := s1.e.flush, ne := s1.ne.flush }
        match streamPrebins cfg.keepPure s1.e s1.ne splits with
        | .error m => (.error m, s2)
        | .ok pb =>
          let r := fitOptimizer false solver pb.splits pb.nonevent pb.event
          (.ok { table := ⟨r.status, r.splits,
                    streamColumn r pb.splits.length pb.nonevent (s.ne.count + s.missNe + s.specNe) s.specNe s.missNe,
                    streamColumn r pb.splits.length pb.event (s.e.count + s.missE + s.specE) s.specE s.missE⟩
                 nPrebins := pb.splits.length + 1
                 refinements := pb.refinements }, s2)

/-- The calls on one object; the solver may answer differently in every call. -/
inductive StreamOp (α : Type*)
  | add (recs : List (Rec α))
  | solve (solver : Solver)

/-- Effect of a call on the object. -/
def Stream.step (cfg : StreamCfg α) (s : Stream α) : StreamOp α → Stream α
  | .add recs => s.add cfg recs
  | .solve solver => (s.solve cfg solver).2

/-- A history of calls on a new object. -/
def Stream.run (cfg : StreamCfg α) (ops : List (StreamOp α)) : Stream α := ops.foldl (Stream.step cfg) (.new cfg)

/-- The records given to `add` in a history. -/
def streamed (ops : List (StreamOp α)) : List (Rec α) := ops.flatMap fun | .add recs => recs | .solve _ => []

/-- binning_sketch.py:533-547 `merge(optbsketch)` for equal parameters, bsketch.py:176-228: the object afterwards.  An object without data
has no `BSketch` (`None`). -/
def Stream.merge (a b : Stream α) : Except String (Stream α) :=
  if a.nAdd = 0 ∨ b.nAdd = 0 then .error "AttributeError"
  else if b.e.count = 0 ∧ b.ne.count = 0 then .ok a
  else if a.e.count = 0 ∧ a.ne.count = 0 then .ok { b with nAdd := a.nAdd }
  else
    match a.e.merge b.e, a.ne.merge b.ne with
    | .ok re, .ok rn => .ok
      { e := re.1
        ne := rn.1
        missE := a.missE + b.missE
        missNe := a.missNe + b.missNe
        specE := a.specE + b.specE
        specNe := a.specNe + b.specNe
        nAdd := a.nAdd }
    | .error m, _ => .error m
    | _, .error m => .error m

/-- Calls on an object that also collects objects built elsewhere with the same parameters. -/
inductive StreamMOp (α : Type*)
  | op (o : StreamOp α)
  | merge (ops : List (StreamOp α))

/-- Effect of such a call (a call that raises leaves the object as it is). -/
def Stream.mergeStep (cfg : StreamCfg α) (s : Stream α) : StreamMOp α → Stream α
  | .op o => s.step cfg o
  | .merge ops => match s.merge (Stream.run cfg ops) with | .ok r => r | .error _ => s

/-- A history of calls and merges on a new object. -/
def Stream.runMerge (cfg : StreamCfg α) (ops : List (StreamMOp α)) : Stream α := ops.foldl (Stream.mergeStep cfg) (.new cfg)

end OptBinning
