import Verif.Spec.Process
import Mathlib.Data.List.SplitLengths
import Mathlib.Data.List.GetD

/-!
# Model of `BinningProcess` (`binning/binning_process.py`)

A binning object is represented by what the process observes of it: its name, its class, the metrics of its binning table
and its `transform`, which acts on the records one by one (as in the models of `transform` in `Model/Fit.lean`,
`Model/TransformRate.lean`, …).  Python dictionaries are association lists in insertion order.

Not modelled: the checks of argument types (`_check_parameters`), the state of the object after a call that raises, NaN
values of metrics, timings and printing, the dtype, status and number of bins shown by `summary`.
-/
namespace OptBinning
open Spec

/-- A Python dictionary with string keys, in insertion order. -/
abbrev PDict (β : Type*) := List (String × β)

/-- `d.get(k)`. -/
def PDict.get {β : Type*} (d : PDict β) (k : String) : Option β := (d.find? fun p => p.1 == k).map Prod.snd

/-- `d[k] = v`: the position of an existing key does not change. -/
def PDict.set {β : Type*} : PDict β → String → β → PDict β
  | [], k, v => [(k, v)]
  | p :: d, k, v => if p.1 == k then (k, v) :: d else p :: PDict.set d k v

/-- `d.keys()`. -/
def PDict.keys {β : Type*} (d : PDict β) : List String := d.map Prod.fst

/-- Type of the target (`type_of_target`, binning_process.py:1067). -/
inductive TargetType | binary | multiclass | continuous
  deriving DecidableEq

/-- binning_process.py:37-55 `_METRICS[target]["metrics"]`. -/
def targetMetrics : TargetType → List String
  | .binary => ["iv", "js", "gini", "quality_score"]
  | .multiclass => ["js", "quality_score"]
  | .continuous => ["woe", "quality_score"]

/-- Classes of binning objects (binning_process.py:58-62). -/
inductive ObjKind | optimal | continuous | multiclass | piecewise | continuousPiecewise
  deriving DecidableEq

section
variable {χ V μ : Type*} [Field V] [LinearOrder V]

/-- A cell of a transformed data set. -/
inductive OutCell (V : Type*) | num (v : V) | str (s : String)
  deriving DecidableEq

/-- A fitted binning object, as seen by the process. -/
structure BinObj (χ V μ : Type*) where
  name : String
  kind : ObjKind
  metric : String → V
  transform : TArgs μ → χ → OutCell V

/-- Constructor arguments of `BinningProcess` used after the fit of the single variables. -/
structure ProcCfg (V μ : Type*) where
  names : List String
  criteria : Option (PDict (Criterion V)) := none
  fixed : Option (List String) := none
  tparams : Option (PDict (VParams μ)) := none

/-! ### selection -/

/-- binning_process.py:40-53: the largest accepted value of "max"; `none` is infinity. -/
def metricMax (m : String) : Option V := if m = "gini" ∨ m = "quality_score" then some 1 else none

/-- The checks for one metric (binning_process.py:172-198); other keys are rejected with a `KeyError`. -/
def checkCriterion (m : String) (c : Criterion V) : Bool :=
  (c.min.all fun v => decide (0 ≤ v)) && (c.max.all fun v => (metricMax m).all fun r : V => decide (v ≤ r)) &&
  (match c.top with
   | some (.count k) => decide (1 ≤ k)
   | some (.frac q) => decide (0 < q ∧ q < 1)
   | none => true)

/-- binning_process.py:160-198 `_check_selection_criteria`. -/
def checkCriteria (t : TargetType) (crit : PDict (Criterion V)) : Bool :=
  crit.all fun p => (targetMetrics t).contains p.1 && checkCriterion p.1 p.2

/-- binning_process.py:378-381: `n_selected`. -/
def nSelected (top : Top) (nValid : ℕ) : ℕ :=
  match top with
  | .count k => (min (nValid : ℤ) k).toNat
  | .frac q => (min (nValid : ℤ) ⌈(nValid : ℚ) * q⌉).toNat

/-- binning_process.py:383-386: the positions, the best ones first. -/
def argOrder (argsort : List V → List ℕ) : Strategy → List V → List ℕ
  | .highest, mv => argsort (mv.map fun v => -v)
  | .lowest, mv => argsort mv

/-- binning_process.py:366-389: one metric.  `argsort` is `numpy.argsort`. -/
def selectMetric (argsort : List V → List ℕ) (c : Criterion V) (vals : List V) (support : List Bool) : List Bool :=
  let s1 := match c.min with
    | some m => List.zipWith (fun b v => b && decide (v ≥ m)) support vals
    | none => support
  let s2 := match c.max with
    | some m => List.zipWith (fun b v => b && decide (v ≤ m)) s1 vals
    | none => s1
  match c.strategy, c.top with
  | some s, some t =>
    let valid := (List.range s2.length).filter fun i => s2.getD i false
    let mv := valid.map fun i => vals.getD i 0
    let mask := (argOrder argsort s mv).take (nSelected t mv.length)
    let chosen := mask.map fun k => valid.getD k 0
    (List.range s2.length).map fun i => s2.getD i false && chosen.contains i
  | _, _ => s2

/-- binning_process.py:361-389: all metrics, in the order of `_METRICS`. -/
def selectMetrics (argsort : List V → List ℕ) (crit : PDict (Criterion V)) (rows : List (String → V)) :
    List String → List Bool → List Bool
  | [], support => support
  | m :: ms, support =>
    selectMetrics argsort crit rows ms
      (match crit.get m with
       | some c => selectMetric argsort c (rows.map fun r => r m) support
       | none => support)

/-- binning_process.py:391-395: fixed variables. -/
def fixVariables (names : List String) : List String → List Bool → Except String (List Bool)
  | [], support => .ok support
  | f :: fs, support =>
    if names.contains f then fixVariables names fs (support.set (names.idxOf f) true)
    else .error "ValueError: not in list"

/-- binning_process.py:350-395 `_support_selection_criteria`; `stats` is `_variable_stats`, whose rows become the
rows of the data frame of line 359.  A column of another length than `_n_variables` does not broadcast (simplified: numpy
broadcasts a column of length one, which needs repeated variable names). -/
def supportOf (argsort : List V → List ℕ) (cfg : ProcCfg V μ) (t : TargetType) (stats : PDict (String → V)) :
    Except String (List Bool) :=
  match cfg.criteria with
  | none => .ok (List.replicate cfg.names.length true)
  | some crit =>
    if crit.any (fun p => (targetMetrics t).contains p.1) && stats.length != cfg.names.length then
      .error "ValueError: operands could not be broadcast together"
    else
      let s := selectMetrics argsort crit (stats.map Prod.snd) (targetMetrics t) (List.replicate cfg.names.length true)
      match cfg.fixed with
      | none => .ok s
      | some fs => fixVariables cfg.names fs s

/-! ### the object and its methods -/

/-- Attributes of a fitted `BinningProcess`. -/
structure ProcState (χ V μ : Type*) where
  target : TargetType
  binned : PDict (BinObj χ V μ)
  stats : PDict (String → V)
  support : List Bool
  updated : Bool

/-- binning_process.py:397-433: the statistics of all variables.  An object of class `ContinuousOptimalPWBinning` has no
attribute `dtype` (403). -/
def computeStats (binned : PDict (BinObj χ V μ)) : List String → PDict (String → V) → Except String (PDict (String → V))
  | [], stats => .ok stats
  | n :: ns, stats =>
    match binned.get n with
    | none => .error "KeyError"
    | some ob =>
      if ob.kind = .continuousPiecewise then .error "AttributeError: no attribute 'dtype'"
      else computeStats binned ns (stats.set n ob.metric)

/-- binning_process.py:397-435 `_binning_selection_criteria`. -/
def selectionCriteria (argsort : List V → List ℕ) (cfg : ProcCfg V μ) (st : ProcState χ V μ) :
    Except String (ProcState χ V μ) :=
  match computeStats st.binned cfg.names st.stats with
  | .error e => .error e
  | .ok stats =>
    match supportOf argsort cfg st.target stats with
    | .error e => .error e
    | .ok s => .ok { st with stats := stats, support := s }

/-- Input data: a numpy array (columns by position) or a data frame (columns by name). -/
inductive Frame (χ : Type*) | array (cols : List (List χ)) | df (cols : List (String × List χ))

/-- `X.shape[1]`. -/
def Frame.width : Frame χ → ℕ
  | .array cols => cols.length
  | .df cols => cols.length

/-- `X[:, i]` or `X[name]`. -/
def Frame.col : Frame χ → ℕ → String → Except String (List χ)
  | .array cols, i, _ => match cols[i]? with | some c => .ok c | none => .error "IndexError"
  | .df cols, _, n => match PDict.get cols n with | some c => .ok c | none => .error "KeyError"

/-- The options of the process passed to every binning object (binning_process.py:91-119, 1119-1125); the name and the
dtype are determined for each variable. -/
def passedOptions : List String :=
  ["max_n_prebins", "min_prebin_size", "min_n_bins", "max_n_bins", "min_bin_size", "max_pvalue", "max_pvalue_policy",
   "special_codes", "split_digits"]

/-- `d.update(e)`. -/
def PDict.update {β : Type*} (d e : PDict β) : PDict β := e.foldl (fun acc p => acc.set p.1 p.2) d

/-- binning_process.py:80-121: the options of the binning object of a variable.  `defaults` are the options of the class
with their default values, `proc` the options of the process, `fitParams` is `binning_fit_params`; `set_params` raises for
an unknown option. -/
def varOptions {ω : Type*} (defaults proc : PDict ω) (fitParams : Option (PDict (PDict ω))) (name : String) :
    Except String (PDict ω) :=
  let base := defaults.update (proc.filter fun p => passedOptions.contains p.1)
  let params := (fitParams.bind fun d => d.get name).getD []
  if params.all fun p => base.keys.contains p.1 then .ok (base.update params)
  else .error "ValueError: Invalid parameter for estimator"

/-- `_fit_variable` (binning_process.py:75-128) for the options, the target and the weights of the call. -/
abbrev FitVar (χ V μ : Type*) := String → List χ → Except String (BinObj χ V μ)

/-- binning_process.py:1113-1136: the loop over the variables, `i` being the position of the first name. -/
def fitSeq (fitVar : FitVar χ V μ) (X : Frame χ) : ℕ → List String → PDict (BinObj χ V μ) →
    Except String (PDict (BinObj χ V μ))
  | _, [], d => .ok d
  | i, n :: ns, d =>
    match X.col i n with
    | .error e => .error e
    | .ok x =>
      match fitVar n x with
      | .error e => .error e
      | .ok ob => fitSeq fitVar X (i + 1) ns (d.set n ob)

/-- `numpy.array_split(ids, k)` (binning_process.py:1139): `n % k` blocks of `n / k + 1` indices, then blocks of `n / k`
indices. -/
def arraySplit {β : Type*} (k : ℕ) (ids : List β) : List (List β) :=
  (List.replicate (ids.length % k) (ids.length / k + 1) ++ List.replicate (k - ids.length % k) (ids.length / k)).splitLengths
    ids

/-- `X[:, id_block]` or `X[names[id_block]]` (binning_process.py:1145, 1157). -/
def Frame.block : Frame χ → List ℕ → List String → Except String (Frame χ)
  | .array cols, ids, _ => .ok (.array (ids.filterMap (cols[·]?)))
  | .df cols, _, names => if names.all fun n => (PDict.get cols n).isSome
      then .ok (.df (names.filterMap fun n => (PDict.get cols n).map fun c => (n, c))) else .error "KeyError"

/-- binning_process.py:131-157 `_fit_block`: one task of the pool. -/
def fitBlock (fitVar : FitVar χ V μ) (X : Frame χ) (names : List String) (ids : List ℕ) :
    Except String (PDict (BinObj χ V μ)) :=
  match X.block ids (ids.map fun i => names.getD i "") with
  | .error e => .error e
  | .ok Xb => fitSeq fitVar Xb 0 (ids.map fun i => names.getD i "") []

/-- binning_process.py:1138-1169: the blocks are fitted in parallel and their results collected in the order of the blocks;
an exception in a block is raised (if several blocks raise, which one is raised is up to joblib; the model takes the first). -/
def fitPar (fitVar : FitVar χ V μ) (X : Frame χ) (names : List String) :
    List (List ℕ) → PDict (BinObj χ V μ) → Except String (PDict (BinObj χ V μ))
  | [], d => .ok d
  | b :: bs, d =>
    match fitBlock fitVar X names b with
    | .error e => .error e
    | .ok r => fitPar fitVar X names bs (d.update r)

/-- binning_process.py:1105-1169: all variables are fitted with `njobs` workers. -/
def fitVariables (njobs : ℕ) (fitVar : FitVar χ V μ) (X : Frame χ) (names : List String) (d : PDict (BinObj χ V μ)) :
    Except String (PDict (BinObj χ V μ)) :=
  if njobs = 1 then fitSeq fitVar X 0 names d
  else fitPar fitVar X names (arraySplit njobs (List.range names.length)) d

/-- Attributes before the first fit (binning_process.py:584-601). -/
def ProcState.fresh (t : TargetType) : ProcState χ V μ := ⟨t, [], [], [], false⟩

/-- binning_process.py:1053-1186 `_fit`, on an object in state `st`; `t` is the type of the target. -/
def procFit (argsort : List V → List ℕ) (cfg : ProcCfg V μ) (njobs : ℕ) (fitVar : FitVar χ V μ) (t : TargetType)
    (X : Frame χ) (st : ProcState χ V μ) : Except String (ProcState χ V μ) :=
  if (cfg.criteria.all fun c => checkCriteria t c) = false then .error "ValueError: selection_criteria"
  else if X.width ≠ cfg.names.length then
    .error "ValueError: The number of columns must be equal to the length of variable_names."
  else
    match fitVariables njobs fitVar X cfg.names st.binned with
    | .error e => .error e
    | .ok d => selectionCriteria argsort cfg { st with target := t, binned := d }

/-- binning_process.py:1188-1265 `_fit_disk`; `X` are the columns of the file, read one by one (without weights). -/
def procFitDisk (argsort : List V → List ℕ) (cfg : ProcCfg V μ) (fitVar : FitVar χ V μ) (t : TargetType)
    (file : List (String × List χ)) (st : ProcState χ V μ) : Except String (ProcState χ V μ) :=
  if (cfg.criteria.all fun c => checkCriteria t c) = false then .error "ValueError: selection_criteria"
  else if (cfg.fixed.all fun fs => fs.all fun f => cfg.names.contains f) = false then
    .error "ValueError: Variable to be fixed is not a valid variable name."
  else
    match fitSeq fitVar (.df file) 0 cfg.names st.binned with
    | .error e => .error e
    | .ok d => selectionCriteria argsort cfg { st with target := t, binned := d }

/-- binning_process.py:1312-1318: the target of the objects of a class. -/
def kindTarget : ObjKind → Option TargetType
  | .optimal => some .binary
  | .continuous => some .continuous
  | .multiclass => some .multiclass
  | _ => none

/-- binning_process.py:1267-1344 `_fit_from_dict` for fitted objects; an object without name has the name "".  An empty
dictionary raises at `types.pop()`. -/
def procFitDict (argsort : List V → List ℕ) (cfg : ProcCfg V μ) (objs : PDict (BinObj χ V μ)) (st : ProcState χ V μ) :
    Except String (ProcState χ V μ) :=
  if (objs.keys.all (cfg.names.contains ·) && cfg.names.all (objs.keys.contains ·)) = false then
    .error "ValueError: dict_optb keys and variable names must coincide."
  else
    match objs with
    | [] => .error "KeyError: 'pop from an empty set'"
    | (_, ob) :: _ =>
      match kindTarget ob.kind with
      | none => .error "TypeError"
      | some t =>
        if (objs.all fun p => decide (p.2.kind = ob.kind)) = false then
          .error "TypeError: All binning objects must be of the same class."
        else if (objs.all fun p => decide (p.2.name = "" ∨ p.2.name = p.1)) = false then
          .error "ValueError: If object has a name those must coincide."
        else if (cfg.criteria.all fun c => checkCriteria t c) = false then .error "ValueError: selection_criteria"
        else selectionCriteria argsort cfg { st with target := t, binned := st.binned.update objs }

/-- binning_process.py:986-1002: the classes accepted for a target. -/
def kindAccepted : TargetType → ObjKind → Bool
  | .binary, k => k == .optimal || k == .piecewise
  | .continuous, k => k == .continuous || k == .continuousPiecewise
  | .multiclass, k => k == .multiclass

/-- binning_process.py:960-1013 `update_binned_variable`; an object without name has the name "". -/
def updateVariable (cfg : ProcCfg V μ) (st : ProcState χ V μ) (name : String) (ob : BinObj χ V μ) :
    Except String (ProcState χ V μ) :=
  if cfg.names.contains name = false then .error "ValueError: name does not match a binned variable."
  else if kindAccepted st.target ob.kind = false then .error "TypeError"
  else
    match st.binned.get name with
    | none => .error "KeyError"
    | some old =>
      if old.name ≠ "" ∧ old.name ≠ ob.name then .error "ValueError: Update object name must match old object name"
      else if ob.name ≠ "" ∧ name ≠ ob.name then .error "ValueError: name and object name must coincide."
      else .ok { st with binned := st.binned.set name ob, updated := true }

/-- binning_process.py:916-939 `summary`: the new state and the columns "name" and "selected". -/
def procSummary (argsort : List V → List ℕ) (cfg : ProcCfg V μ) (st : ProcState χ V μ) :
    Except String (ProcState χ V μ × List (String × Bool)) :=
  match (if st.updated then (selectionCriteria argsort cfg st).map fun s => { s with updated := false } else .ok st) with
  | .error e => .error e
  | .ok s =>
    if s.stats.length ≠ s.support.length then .error "ValueError: Length of values does not match length of index"
    else .ok (s, s.stats.keys.zip s.support)

/-- binning_process.py:1046-1047 `get_support(indices=True)`. -/
def ProcState.indices (st : ProcState χ V μ) : List ℕ :=
  (List.range st.support.length).filter fun i => st.support.getD i false

/-- binning_process.py:1048-1049 `get_support(names=True)`. -/
def ProcState.selectedNames (cfg : ProcCfg V μ) (st : ProcState χ V μ) : List String :=
  st.indices.map fun i => cfg.names.getD i ""

/-- Metric `m` of the binning object of variable number `i` (0 if there is none): what the criteria are compared with. -/
def metricValue (names : List String) (binned : PDict (BinObj χ V μ)) (m : String) (i : ℕ) : V :=
  ((names[i]?.bind fun n => binned.get n).map fun ob => ob.metric m).getD 0

/-! ### transform -/

/-- The parameters given for a variable (binning_process.py:1425-1427, 1523-1525). -/
def paramsOf (tp : Option (PDict (VParams μ))) (n : String) : VParams μ := (tp.bind fun d => d.get n).getD {}

/-- binning_process.py:1425-1431: the arguments for one variable; the local variables `metric`, `metric_special` and
`metric_missing` are overwritten. -/
def stepArgs (tp : Option (PDict (VParams μ))) (name : String) (a : TArgs μ) : TArgs μ :=
  match tp with
  | none => a
  | some d =>
    match d.get name with
    | none => a
    | some p => ⟨p.metric.getD a.metric, p.special.getD a.special, p.missing.getD a.missing⟩

/-- The arguments used for the variables `names`, one after the other (binning_process.py:1416-1440). -/
def argsSeq (tp : Option (PDict (VParams μ))) : List String → TArgs μ → List (TArgs μ)
  | [], _ => []
  | n :: ns, a => stepArgs tp n a :: argsSeq tp ns (stepArgs tp n a)

/-- The values of the local variables after the loop. -/
def argsEnd (tp : Option (PDict (VParams μ))) (names : List String) (a : TArgs μ) : TArgs μ :=
  names.foldl (fun a n => stepArgs tp n a) a

/-- binning_process.py:1385-1405, 1484-1503: the metric which decides about the type of the result. -/
def baseMetric (metric : Option String) (tp : Option (PDict (VParams μ))) (selected : List String) :
    Except String (Option String) :=
  match tp with
  | none => .ok metric
  | some d =>
    let ms := (if metric.isSome then [metric] else []) ++
      selected.map fun n => (((d.get n).bind VParams.metric).getD metric)
    if ms.dedup.length > 1 then
      if ms.contains (some "bins") then .error "ValueError: metric 'bins' cannot be mixed with numeric metrics."
      else .ok metric
    else .ok (ms.headD none)

/-- Truncation towards zero when a float is stored in an integer array. -/
def truncV [FloorRing V] (v : V) : ℤ := if 0 ≤ v then ⌊v⌋ else ⌈v⌉

/-- `X_transform[:, i] = …` for an array of integers, of objects or of floats (binning_process.py:1407-1414). -/
def procCell [FloorRing V] (base : Option String) : OutCell V → Except String (OutCell V)
  | .num v => if base = some "indices" then .ok (.num ((truncV v : ℤ) : V)) else .ok (.num v)
  | .str s => if base = some "bins" then .ok (.str s) else .error "ValueError: could not convert string to float"

/-- Stores a column; `mapM` stops at the first cell that cannot be stored. -/
def procCol [FloorRing V] (base : Option String) (c : List (OutCell V)) : Except String (List (OutCell V)) :=
  c.mapM (procCell base)

/-- binning_process.py:1416-1448: the loop over the selected variables `(index, arguments)`. -/
def transformCols [FloorRing V] (cfg : ProcCfg V μ) (st : ProcState χ V μ) (X : Frame χ) (base : Option String) :
    List (ℕ × TArgs μ) → Except String (List (List (OutCell V)))
  | [] => .ok []
  | (idx, a) :: l =>
    match st.binned.get (cfg.names.getD idx "") with
    | none => .error "KeyError"
    | some ob =>
      match X.col idx (cfg.names.getD idx "") with
      | .error e => .error e
      | .ok x =>
        match procCol base (x.map (ob.transform a)) with
        | .error e => .error e
        | .ok c =>
          match transformCols cfg st X base l with
          | .error e => .error e
          | .ok cs => .ok (c :: cs)

/-- A transformed data set: names of the columns (for data frames) and the columns. -/
structure TOut (V : Type*) where
  header : Option (List String)
  cols : List (List (OutCell V))

/-- binning_process.py:1371-1377, 1471-1476: the metrics not supported by piecewise objects. -/
def pwRejected (st : ProcState χ V μ) (metric : Option String) : Bool :=
  (metric == some "indices" || metric == some "bins") &&
    st.binned.any fun p => p.2.kind == .piecewise || p.2.kind == .continuousPiecewise

/-- The columns exist (binning_process.py:1362-1370). -/
def Frame.hasColumns (cfg : ProcCfg V μ) (st : ProcState χ V μ) : Frame χ → Bool
  | .array cols => cols.length == st.support.length
  | .df cols => (st.selectedNames cfg).all fun n => (PDict.get cols n).isSome

/-- binning_process.py:1450-1454: a data frame is returned for a data frame. -/
def Frame.header (names : List String) : Frame χ → Option (List String)
  | .array _ => none
  | .df _ => some names

/-- binning_process.py:1346-1454 `_transform`. -/
def procTransform [FloorRing V] (cfg : ProcCfg V μ) (st : ProcState χ V μ) (X : Frame χ) (a : TArgs μ) :
    Except String (TOut V) :=
  if st.indices = [] then .ok ⟨none, []⟩
  else if X.hasColumns cfg st = false then .error "ValueError"
  else if pwRejected st a.metric then .error "TypeError: not supported for piecewise optimal binning objects."
  else
    match baseMetric a.metric cfg.tparams (st.selectedNames cfg) with
    | .error e => .error e
    | .ok base =>
      match transformCols cfg st X base (st.indices.zip (argsSeq cfg.tparams (st.selectedNames cfg) a)) with
      | .error e => .error e
      | .ok cols =>
        .ok ⟨X.header (st.selectedNames cfg), cols⟩

/-! ### transform_disk -/

/-- The rows of a csv file: a record maps the names of the columns to values. -/
abbrev DiskRow (χ : Type*) := String → χ

/-- binning_process.py:1508-1548: one chunk; the result and the values of the local variables afterwards. -/
def diskChunk [FloorRing V] (cfg : ProcCfg V μ) (st : ProcState χ V μ) (base : Option String) (chunk : List (DiskRow χ))
    (a : TArgs μ) : Except String (List (List (OutCell V)) × TArgs μ) :=
  match transformCols cfg st (.df ((st.selectedNames cfg).map fun n => (n, chunk.map fun r => r n))) base
      (st.indices.zip (argsSeq cfg.tparams (st.selectedNames cfg) a)) with
  | .error e => .error e
  | .ok cols => .ok (cols, argsEnd cfg.tparams (st.selectedNames cfg) a)

/-- The rows of a table given by `n` rows and columns. -/
def rowsOfCols (n : ℕ) (cols : List (List (OutCell V))) : List (List (OutCell V)) :=
  (List.range n).map fun r => cols.map fun c => c.getD r (.str "")

/-- binning_process.py:1505-1548: the loop over the chunks, whose rows are appended to the file. -/
def diskLoop [FloorRing V] (cfg : ProcCfg V μ) (st : ProcState χ V μ) (base : Option String) :
    List (List (DiskRow χ)) → TArgs μ → Except String (List (List (OutCell V)))
  | [], _ => .ok []
  | ch :: chs, a =>
    match diskChunk cfg st base ch a with
    | .error e => .error e
    | .ok (cols, a') =>
      match diskLoop cfg st base chs a' with
      | .error e => .error e
      | .ok rows => .ok (rowsOfCols ch.length cols ++ rows)

/-- A csv file: its lines. -/
inductive DiskLine (V : Type*) | header (names : List String) | data (cells : List (OutCell V))

/-- binning_process.py:1456-1550 `_transform_disk`: `file` are the lines of the output file before the call (`mode='a'`),
`rows` the records of the input file, of which there is at least one; at least one variable is selected. -/
def procTransformDisk [FloorRing V] (cfg : ProcCfg V μ) (st : ProcState χ V μ) (columns : List String)
    (rows : List (DiskRow χ)) (chunksize : ℕ) (a : TArgs μ) (file : List (DiskLine V)) :
    Except String (List (DiskLine V)) :=
  if chunksize = 0 then .error "ValueError: chunksize must be a positive integer"
  else if pwRejected st a.metric then .error "TypeError: not supported for piecewise optimal binning objects."
  else
    match baseMetric a.metric cfg.tparams (st.selectedNames cfg) with
    | .error e => .error e
    | .ok base =>
      if ((st.selectedNames cfg).all fun n => columns.contains n) = false then .error "ValueError: Usecols do not match columns"
      else
        match diskLoop cfg st base (rows.toChunks chunksize) a with
        | .error e => .error e
        | .ok out => .ok (file ++ .header (st.selectedNames cfg) :: out.map .data)

end
end OptBinning
