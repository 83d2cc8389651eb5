import Mathlib.Data.Real.Basic
import Mathlib.Analysis.SpecialFunctions.Log.Basic
import Verif.Spec.Bins2D
import Verif.Model.Grid2D
import Verif.Model.Fit

/-!
# Model of `fit` and `transform` of `OptimalBinning2D` and `ContinuousOptimalBinning2D`
(`binning/multidimensional/`: `preprocessing_2d.py`, `binning_2d.py`, `continuous_binning_2d.py`,
`transformations_2d.py`), strategy `"grid"`
-/
namespace OptBinning

variable {α β τ : Type} [DecidableEq α] [DecidableEq β]

/-- preprocessing_2d.py:70-78, 90: `missing_mask`. -/
def Rec2.isMissing (r : Rec2 α β τ) : Bool := r.x.isNone || r.y.isNone || r.z.isNone

/-- preprocessing_2d.py:80-88 for one variable; transformations_2d.py:25-28. -/
def isCode (sc : Option (List (Option α))) (x : Option α) : Bool :=
  match sc with
  | some l => l.contains x
  | none => false

/-- preprocessing_2d.py:91 `special_mask`. -/
def Rec2.isSpecial (scx : Option (List (Option α))) (scy : Option (List (Option β))) (r : Rec2 α β τ) : Bool :=
  isCode scx r.x || isCode scy r.y

/-- preprocessing_2d.py:93-97: the clean records as triples. -/
def clean2D (scx : Option (List (Option α))) (scy : Option (List (Option β))) (recs : List (Rec2 α β τ)) :
    List (α × β × τ) :=
  recs.filterMap fun r =>
    if !r.isMissing && !r.isSpecial scx scy then
      match r.x, r.y, r.z with
      | some a, some b, some c => some (a, b, c)
      | _, _, _ => none
    else none

/-- The targets of the missing records (preprocessing_2d.py:99-101). -/
def missing2D (recs : List (Rec2 α β τ)) : List (Option τ) := (recs.filter Rec2.isMissing).map Rec2.z

/-- The targets of the special records (preprocessing_2d.py:103-105). -/
def special2D (scx : Option (List (Option α))) (scy : Option (List (Option β))) (recs : List (Rec2 α β τ)) :
    List (Option τ) := (recs.filter fun r => r.isSpecial scx scy).map Rec2.z

/-- `dtype_x`, `dtype_y`; `rank` is the external `groupby(x).mean().sort_values()` of `categorical_transform`. -/
inductive Dtype2 (α τ : Type)
  | numerical (val : α → EQ)
  | categorical (rank : List (α × τ) → List α)

/-- preprocessing_2d.py:107-115: the axis with the categories found in the clean records. -/
def Dtype2.axis (d : Dtype2 α τ) (clean : List (α × τ)) : Axis α :=
  match d with
  | .numerical val => .numerical val
  | .categorical rank => .categorical (rank clean)

/-- The number which stands for a clean value (preprocessing.py:24-29 for categories). -/
def Axis.code (ax : Axis α) (v : α) : EQ :=
  match ax with
  | .numerical val => val v
  | .categorical cats => fin (cats.idxOf v : ℕ)

/-- What `fit` has computed before the optimisation: the clean records, the axes and the split points of pre-binning. -/
structure Prepared2D (α β τ : Type) where
  clean : List (α × β × τ)
  axisX : Axis α
  axisY : Axis β
  splitsX : List EQ
  splitsY : List EQ

/-- binning_2d.py:579-625, continuous_binning_2d.py:504-550.  `prebinX`, `prebinY` are the external pre-binning
estimators. -/
def prepare2D (dx : Dtype2 α τ) (dy : Dtype2 β τ) (scx : Option (List (Option α))) (scy : Option (List (Option β)))
    (prebinX prebinY : List (EQ × τ) → List EQ) (recs : List (Rec2 α β τ)) : Prepared2D α β τ :=
  let clean := clean2D scx scy recs
  let ax := dx.axis (clean.map fun r => (r.1, r.2.2))
  let ay := dy.axis (clean.map fun r => (r.2.1, r.2.2))
  { clean := clean
    axisX := ax
    axisY := ay
    splitsX := prebinX (clean.map fun r => (ax.code r.1, r.2.2))
    splitsY := prebinY (clean.map fun r => (ay.code r.2.1, r.2.2)) }

/-- What is assumed of the external parts: pre-binning returns increasing finite split points, `categorical_transform`
lists every category of the clean records once, and no clean number is `inf`. -/
structure Prepared2D.WellFormed (p : Prepared2D α β τ) : Prop where
  splitsX : Spec.IsSplits p.splitsX
  splitsY : Spec.IsSplits p.splitsY
  axisX : Spec.IsAxis p.axisX
  axisY : Spec.IsAxis p.axisY
  known : ∀ r ∈ p.clean, Spec.Known p.axisX r.1 ∧ Spec.Known p.axisY r.2.1

/-- Column of the grid (`indices_x`) and row of the grid (`indices_y`), binning_2d.py:793-797. -/
def Prepared2D.col (p : Prepared2D α β τ) (u : α) : ℕ := digitize false p.splitsX (some (p.axisX.code u))
def Prepared2D.row (p : Prepared2D α β τ) (v : β) : ℕ := digitize false p.splitsY (some (p.axisY.code v))

/-- Shape of the matrices (binning_2d.py:799-800). -/
def Prepared2D.m (p : Prepared2D α β τ) : ℕ := p.splitsY.length + 1
def Prepared2D.n (p : Prepared2D α β τ) : ℕ := p.splitsX.length + 1

/-- binning_2d.py:802-809, continuous_binning_2d.py:726-735: the targets of the clean records of cell `(i, j)`. -/
def Prepared2D.cell (p : Prepared2D α β τ) (i j : ℕ) : List τ :=
  (p.clean.filter fun r => p.row r.2.1 == i && p.col r.1 == j).map fun r => r.2.2

/-- binning_2d.py:808 `NE`, 809 `E`. -/
def Prepared2D.nonevents (p : Prepared2D α β Bool) (i j : ℕ) : ℕ := (p.cell i j).countP fun z => !z
def Prepared2D.events (p : Prepared2D α β Bool) (i j : ℕ) : ℕ := (p.cell i j).countP fun z => z

/-- binning_2d.py:697-715 `P` (flat): `P[r] = i` for the selected rows in order; `init` is the content of `np.empty`. -/
def pMatrix (n : ℕ) (init : ℕ → ℕ) (sel : List Rect) (p : ℕ) : ℕ :=
  sel.zipIdx.foldl (fun v t => if (t.1.row n).contains p then t.2 else v) (init p)

/-- binning_2d.py:923-944 `_splits_xy_optimal`. -/
def splitsOptimal (m n : ℕ) (splitsX splitsY : List EQ) (P : ℕ → ℕ) (i : ℕ) : Box2 :=
  let binsX := [⊥] ++ splitsX ++ [⊤]
  let binsY := [⊥] ++ splitsY ++ [⊤]
  let cells := (List.range (m * n)).filter fun p => P p == i
  let posX := cells.map (· % n)
  let posY := cells.map (· / n)
  { xlo := binsX.getD (posX.min?.getD 0) ⊥
    xhi := binsX.getD (posX.max?.getD 0 + 1) ⊤
    ylo := binsY.getD (posY.min?.getD 0) ⊥
    yhi := binsY.getD (posY.max?.getD 0 + 1) ⊤ }

/-- A fitted object: `_splits_x_optimal`/`_splits_y_optimal` zipped, the columns of the binning table (one row per
bin, then special, then missing), the matrix `P` with its shape, and `_n_refinements`. -/
structure Fitted2D (α β : Type) where
  status : String
  axisX : Axis α
  axisY : Axis β
  boxes : List Box2
  nonevent : List ℕ
  event : List ℕ
  m : ℕ
  n : ℕ
  P : ℕ → ℕ
  refinements : ℕ

/-- binning_2d.py:819-828: fractions of the number of samples become numbers of records. -/
def absoluteSizes (o : Opts2D) (minBinSize maxBinSize : Option ℚ) (nSamples : ℕ) : Opts2D :=
  { o with minSize := minBinSize.map fun q => ⌈q * (nSamples : ℚ)⌉
           maxSize := maxBinSize.map fun q => ⌈q * (nSamples : ℚ)⌉ }

/-- The program of the binary case (binning_2d.py:627-629, 871-898 with model_data_2d.py:49-166): `coef p q` is the
objective coefficient of a rectangle with event share `p` and non-event share `q`. -/
def binaryProgram {R : Type*} (o : Opts2D) (m n : ℕ) (NE E : ℕ → ℕ → ℕ) (coef : ℚ → ℚ → R) (gamma : Bool)
    (reg : ℕ → R) : List Rect × Prog2D R :=
  let fe := ravel n E
  let fne := ravel n NE
  let cands := candidates m n (keepBinary o fne fe)
  let rows := cands.map (Rect.row n)
  let records := fun i => rectSum rows fe i + rectSum rows fne i
  let tE := ((List.range (m * n)).map fe).sum
  let tNE := ((List.range (m * n)).map fne).sum
  let c := fun i => coef ((rectSum rows fe i : ℕ) / (tE : ℚ)) ((rectSum rows fne i : ℕ) / (tNE : ℚ))
  (cands, program2D m n cands (rateOf rows fne fe) records c gamma
    (reg ((List.range cands.length).map records).sum))

/-- `OptimalBinning2D.fit` after preparation (binning_2d.py:627-762). -/
def fitPrepared2D {R : Type} [CommRing R] [LinearOrder R] (scx : Option (List (Option α))) (scy : Option (List (Option β)))
    (o : Opts2D) (coef : ℚ → ℚ → R) (gamma : Bool) (reg : ℕ → R) (solver : Prog2D R → Answer2D R)
    (init : ℕ → ℕ) (recs : List (Rec2 α β Bool)) (p : Prepared2D α β Bool) : Fitted2D α β :=
  let cp := binaryProgram o p.m p.n p.nonevents p.events coef gamma reg
  let ans := solver cp.2
  let sel := select cp.1 (ans.solution cp.1.length)
  let P := pMatrix p.n init sel
  { status := ans.status
    axisX := p.axisX
    axisY := p.axisY
    boxes := (List.range sel.length).map (splitsOptimal p.m p.n p.splitsX p.splitsY P)
    nonevent := sel.map (fun t => ((t.row p.n).map (ravel p.n p.nonevents)).sum) ++
      [(special2D scx scy recs).countP (· == some false), (missing2D recs).countP (· == some false)]
    event := sel.map (fun t => ((t.row p.n).map (ravel p.n p.events)).sum) ++
      [(special2D scx scy recs).countP (· != some false), (missing2D recs).countP (· != some false)]
    m := p.m
    n := p.n
    P := P
    refinements := (p.m * p.n * (p.m + 1) * (p.n + 1)) / 4 - cp.1.length }

/-- `OptimalBinning2D.fit` (binning_2d.py:558-762); `minBinSize`, `maxBinSize` are fractions of the number of records. -/
def fit2D {R : Type} [CommRing R] [LinearOrder R] (dx : Dtype2 α Bool) (dy : Dtype2 β Bool)
    (scx : Option (List (Option α))) (scy : Option (List (Option β))) (o : Opts2D) (minBinSize maxBinSize : Option ℚ)
    (coef : ℚ → ℚ → R) (gamma : Bool) (reg : ℕ → R) (prebinX prebinY : List (EQ × Bool) → List EQ)
    (solver : Opts2D → Prog2D R → Answer2D R) (init : ℕ → ℕ) (recs : List (Rec2 α β Bool)) : Fitted2D α β :=
  let o := absoluteSizes o minBinSize maxBinSize recs.length
  fitPrepared2D scx scy o coef gamma reg (solver o) init recs (prepare2D dx dy scx scy prebinX prebinY recs)

/-- All arguments of one call of `fit`, with the external parts. -/
structure Job2D (α β R : Type) where
  dx : Dtype2 α Bool
  dy : Dtype2 β Bool
  scx : Option (List (Option α)) := none
  scy : Option (List (Option β)) := none
  o : Opts2D
  minBinSize : Option ℚ := none
  maxBinSize : Option ℚ := none
  coef : ℚ → ℚ → R
  gamma : Bool := false
  reg : ℕ → R
  prebinX : List (EQ × Bool) → List EQ
  prebinY : List (EQ × Bool) → List EQ
  solver : Opts2D → Prog2D R → Answer2D R
  init : ℕ → ℕ
  recs : List (Rec2 α β Bool)

def Job2D.fit {R : Type} [CommRing R] [LinearOrder R] (j : Job2D α β R) : Fitted2D α β :=
  fit2D j.dx j.dy j.scx j.scy j.o j.minBinSize j.maxBinSize j.coef j.gamma j.reg j.prebinX j.prebinY j.solver j.init j.recs

def Job2D.prepared {R : Type} (j : Job2D α β R) : Prepared2D α β Bool :=
  prepare2D j.dx j.dy j.scx j.scy j.prebinX j.prebinY j.recs

/-- The options with absolute sizes. -/
def Job2D.opts {R : Type} (j : Job2D α β R) : Opts2D := absoluteSizes j.o j.minBinSize j.maxBinSize j.recs.length

/-- The external parts behave as documented, and the solver found a solution. -/
structure Job2D.Succeeds {R : Type} [CommRing R] [LinearOrder R] (j : Job2D α β R) : Prop where
  wellFormed : j.prepared.WellFormed
  solver : ∀ p, (j.solver j.opts p).Valid j.opts p
  status : j.fit.status = "OPTIMAL" ∨ j.fit.status = "FEASIBLE"

/-- binning_statistics_2d.py:41-46 `_bin_fmt_categorical` (also the property `splits`). -/
def binCategories (cats : List α) (lo hi : EQ) : List α :=
  (cats.zipIdx.filter fun p => digitize false [lo, hi] (some (fin (p.2 : ℕ))) == 1).map Prod.fst

/-- transformations_2d.py:75-83 `mask_x`, `mask_y` at one clean value. -/
def Axis.inMask (ax : Axis α) (lo hi : EQ) (v : α) : Bool :=
  match ax with
  | .numerical val => decide (lo ≤ val v) && decide (val v < hi)
  | .categorical cats => (binCategories cats lo hi).contains v

/-- transformations_2d.py:63-88 at one clean record; `dflt` is the initial content of `z_clean_transform`. -/
def transformClean2D {γ : Type} (ax : Axis α) (ay : Axis β) (boxes : List Box2) (mv : ℕ → γ) (dflt : γ) (u : α) (v : β) : γ :=
  boxes.zipIdx.foldl (fun w b => if ax.inMask b.1.xlo b.1.xhi u && ay.inMask b.1.ylo b.1.yhi v then mv b.2 else w) dflt

/-- `_apply_transform` (transformations_2d.py:58-105) at one record.  `ms`, `mm` are `none` for the value of the special /
missing row of the table (the first branch of 91-96, 98-103), otherwise the given number; `fill` is the initial content of
`z_transform`. -/
def transform2D {γ : Type} (ax : Axis α) (ay : Axis β) (boxes : List Box2) (scx : Option (List (Option α)))
    (scy : Option (List (Option β))) (mv : ℕ → γ) (fill dflt : γ) (ms mm : Option γ) (x : Option α) (y : Option β) : γ :=
  let missing := x.isNone || y.isNone
  let special := isCode scx x || isCode scy y
  let z := if !missing && !special then
      match x, y with
      | some u, some v => transformClean2D ax ay boxes mv dflt u v
      | _, _ => fill
    else fill
  let z := if (scx.any fun l => !l.isEmpty) || (scy.any fun l => !l.isEmpty) then
      if special then ms.getD (mv boxes.length) else z
    else z
  if missing then mm.getD (mv (boxes.length + 1)) else z

/-- `transform(x, y, metric="indices")` (transformations_2d.py:45-49: `z_transform` is filled with -1, but
`z_clean_transform` with 0). -/
def Fitted2D.indices (f : Fitted2D α β) (scx : Option (List (Option α))) (scy : Option (List (Option β)))
    (ms mm : Option ℤ) (x : Option α) (y : Option β) : ℤ :=
  transform2D f.axisX f.axisY f.boxes scx scy (fun i => (i : ℤ)) (-1) 0 ms mm x y

/-- transformations_2d.py:148-172 for `metric="event_rate"`, one row of the table. -/
def tableRate2D (nonevent event : List ℕ) (i : ℕ) : ℚ :=
  let e := event.getD i 0
  let ne := nonevent.getD i 0
  if 0 < e ∧ 0 < ne then (e : ℚ) / ((e + ne : ℕ) : ℚ) else 0

/-- `transform(x, y, metric="event_rate")`. -/
def Fitted2D.eventRate (f : Fitted2D α β) (scx : Option (List (Option α))) (scy : Option (List (Option β)))
    (ms mm : Option ℚ) (x : Option α) (y : Option β) : ℚ :=
  transform2D f.axisX f.axisY f.boxes scx scy (tableRate2D f.nonevent f.event) 0 0 ms mm x y

/-- transformations_2d.py:151-168 for `metric="woe"`, one row of the table. -/
noncomputable def tableWoe2D (nonevent event : List ℕ) (i : ℕ) : ℝ :=
  let e := event.getD i 0
  let ne := nonevent.getD i 0
  if 0 < e ∧ 0 < ne then
    Real.log (1 / (((tableRate2D nonevent event i : ℚ)) : ℝ) - 1) + Real.log ((event.sum : ℝ) / (nonevent.sum : ℝ))
  else 0

/-- `transform(x, y, metric="woe")`. -/
noncomputable def Fitted2D.woe (f : Fitted2D α β) (scx : Option (List (Option α))) (scy : Option (List (Option β)))
    (ms mm : Option ℝ) (x : Option α) (y : Option β) : ℝ :=
  transform2D f.axisX f.axisY f.boxes scx scy (tableWoe2D f.nonevent f.event) 0 0 ms mm x y

end OptBinning
