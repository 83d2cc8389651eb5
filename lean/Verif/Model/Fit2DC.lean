import Mathlib.Data.Rat.Floor
import Verif.Model.Fit2D
import Verif.Model.Continuous

/-!
# Model of `ContinuousOptimalBinning2D` (strategy `"grid"`) and of its table
(`binning/multidimensional/continuous_binning_2d.py`, `model_data_2d.py`, `transformations_2d.py`,
`binning_statistics_2d.py`)

The target is a rational number, `none` = NaN (which reaches `fit` only with `check_input=False`).  Standard deviations are
represented by their squares.
-/
namespace OptBinning

variable {α β : Type} [DecidableEq α] [DecidableEq β]

/-- continuous_binning_2d.py:733-735 `R`, `S`, `SS`. -/
def Prepared2D.records (p : Prepared2D α β ℚ) (i j : ℕ) : ℕ := (p.cell i j).length
def Prepared2D.sums (p : Prepared2D α β ℚ) (i j : ℕ) : ℚ := (p.cell i j).sum
def Prepared2D.squares (p : Prepared2D α β ℚ) (i j : ℕ) : ℚ := ((p.cell i j).map (· ^ 2)).sum

/-- One row of `ContinuousBinningTable2D`: `n_records`, `sums` and the square of `stds`. -/
structure Row2C where
  cnt : ℕ
  sum : Option ℚ
  var : Option ℚ
deriving DecidableEq

/-- model_data_2d.py:210-212, 240-242, 255-256 for one rectangle: `np.sqrt` of a negative number is NaN. -/
def rowOfRect (n : ℕ) (R : ℕ → ℕ → ℕ) (S SS : ℕ → ℕ → ℚ) (t : Rect) : Row2C :=
  let r := ((t.row n).map (ravel n R)).sum
  let s := ((t.row n).map (ravel n S)).sum
  let ss := ((t.row n).map (ravel n SS)).sum
  let v := ss / (r : ℚ) - (s / (r : ℚ)) ^ 2
  ⟨r, some s, if v < 0 then none else some v⟩

/-- continuous_binning_2d.py:698-711: the row of the special or of the missing records. -/
def rowOfTargets (z : List (Option ℚ)) : Row2C :=
  ⟨z.length, sumNaN z, if z.length = 0 then some 0 else (allKnown z).map npVar⟩

/-- The program of the continuous case (continuous_binning_2d.py:803-818 with model_data_2d.py:169-265): `coef d` is the
objective coefficient of a rectangle whose mean has distance `d` from the overall mean (`int(d * 1e6)` for CP, `d` for
MIP). -/
def continuousProgram {Q : Type*} (o : Opts2D) (m n : ℕ) (R : ℕ → ℕ → ℕ) (S : ℕ → ℕ → ℚ) (coef : ℚ → Q) (gamma : Bool)
    (reg : ℕ → Q) : List Rect × Prog2D Q :=
  let fr := ravel n R
  let fs := ravel n S
  let cands := candidates m n (keepContinuous o fr)
  let rows := cands.map (Rect.row n)
  let tMean := ((List.range (m * n)).map fs).sum / ((((List.range (m * n)).map fr).sum : ℕ) : ℚ)
  let c := fun i => coef |meanOf rows fr fs i - tMean|
  (cands, program2D m n cands (meanOf rows fr fs) (rectSum rows fr) c gamma
    (reg ((List.range cands.length).map (rectSum rows fr)).sum))

/-- A fitted object: `_splits_x_optimal`/`_splits_y_optimal` zipped, the matrix `P` with its shape, the rows of the table
(one per bin, then special, then missing) and `_n_refinements`. -/
structure FittedC2D (α β : Type) where
  status : String
  axisX : Axis α
  axisY : Axis β
  boxes : List Box2
  rows : List Row2C
  m : ℕ
  n : ℕ
  P : ℕ → ℕ
  refinements : ℕ

/-- `ContinuousOptimalBinning2D.fit` after preparation (continuous_binning_2d.py:552-692); `init` is the content of
`np.empty` (623). -/
def fitPreparedC2D {Q : Type} [CommRing Q] [LinearOrder Q] (scx : Option (List (Option α)))
    (scy : Option (List (Option β))) (o : Opts2D) (coef : ℚ → Q) (gamma : Bool) (reg : ℕ → Q)
    (solver : Prog2D Q → Answer2D Q) (init : ℕ → ℕ) (recs : List (Rec2 α β ℚ)) (p : Prepared2D α β ℚ) : FittedC2D α β :=
  let cp := continuousProgram o p.m p.n p.records p.sums coef gamma reg
  let ans := solver cp.2
  let sel := select cp.1 (ans.solution cp.1.length)
  let P := pMatrix p.n init sel
  { status := ans.status
    axisX := p.axisX
    axisY := p.axisY
    boxes := (List.range sel.length).map (splitsOptimal p.m p.n p.splitsX p.splitsY P)
    rows := sel.map (rowOfRect p.n p.records p.sums p.squares) ++
      [rowOfTargets (special2D scx scy recs), rowOfTargets (missing2D recs)]
    m := p.m
    n := p.n
    P := P
    refinements := (p.m * p.n * (p.m + 1) * (p.n + 1)) / 4 - cp.1.length }

/-- All arguments of one call of `ContinuousOptimalBinning2D.fit`, with the external parts. -/
structure JobC2D (α β Q : Type) where
  dx : Dtype2 α ℚ
  dy : Dtype2 β ℚ
  scx : Option (List (Option α)) := none
  scy : Option (List (Option β)) := none
  o : Opts2D
  minBinSize : Option ℚ := none
  maxBinSize : Option ℚ := none
  coef : ℚ → Q
  gamma : Bool := false
  reg : ℕ → Q
  prebinX : List (EQ × ℚ) → List EQ
  prebinY : List (EQ × ℚ) → List EQ
  solver : Opts2D → Prog2D Q → Answer2D Q
  init : ℕ → ℕ
  recs : List (Rec2 α β ℚ)

def JobC2D.prepared {Q : Type} (j : JobC2D α β Q) : Prepared2D α β ℚ :=
  prepare2D j.dx j.dy j.scx j.scy j.prebinX j.prebinY j.recs

/-- The options with absolute sizes (continuous_binning_2d.py:745-754). -/
def JobC2D.opts {Q : Type} (j : JobC2D α β Q) : Opts2D := absoluteSizes j.o j.minBinSize j.maxBinSize j.recs.length

/-- `ContinuousOptimalBinning2D.fit` (continuous_binning_2d.py:483-692). -/
def JobC2D.fit {Q : Type} [CommRing Q] [LinearOrder Q] (j : JobC2D α β Q) : FittedC2D α β :=
  fitPreparedC2D j.scx j.scy j.opts j.coef j.gamma j.reg (j.solver j.opts) j.init j.recs j.prepared

/-- The external parts behave as documented, and the solver found a solution. -/
structure JobC2D.Succeeds {Q : Type} [CommRing Q] [LinearOrder Q] (j : JobC2D α β Q) : Prop where
  wellFormed : j.prepared.WellFormed
  solver : ∀ p, (j.solver j.opts p).Valid j.opts p
  status : j.fit.status = "OPTIMAL" ∨ j.fit.status = "FEASIBLE"

/-! ### transform -/

/-- `transform(x, y, metric="indices")` (transformations_2d.py:236-243). -/
def FittedC2D.indices (f : FittedC2D α β) (scx : Option (List (Option α))) (scy : Option (List (Option β)))
    (ms mm : Option ℤ) (x : Option α) (y : Option β) : ℤ :=
  transform2D f.axisX f.axisY f.boxes scx scy (fun i => (i : ℤ)) (-1) 0 ms mm x y

/-- binning_statistics_2d.py:671-673, transformations_2d.py:231-233: the mean of a row, 0 for a row without records. -/
def Row2C.mean (r : Row2C) : Option ℚ := if 0 < r.cnt then r.sum.map (· / (r.cnt : ℚ)) else some 0

/-- `transform(x, y, metric="mean")` (transformations_2d.py:225-243); `ms`, `mm` are `none` for `"empirical"`.  Without
any `"empirical"` the last two rows are cut off. -/
def FittedC2D.mean (f : FittedC2D α β) (scx : Option (List (Option α))) (scy : Option (List (Option β)))
    (ms mm : Option ℚ) (x : Option α) (y : Option β) : Option ℚ :=
  let rows := if ms.isSome && mm.isSome then f.rows.take f.boxes.length else f.rows
  let value := rows.map Row2C.mean
  transform2D f.axisX f.axisY f.boxes scx scy (fun i => value.getD i none) (some 0) (some 0) (ms.map some) (mm.map some) x y

/-! ### the table (`ContinuousBinningTable2D.build`) -/

/-- binning_statistics_2d.py:666. -/
def tRecords2 (rows : List Row2C) : ℕ := (rows.map Row2C.cnt).sum
/-- binning_statistics_2d.py:667. -/
def tSum2 (rows : List Row2C) : ℚ := nansum (rows.map Row2C.sum)
/-- binning_statistics_2d.py:668. -/
def tMean2 (rows : List Row2C) : ℚ := tSum2 rows / ((tRecords2 rows : ℕ) : ℚ)
/-- binning_statistics_2d.py:669 "Count (%)". -/
def Row2C.share (rows : List Row2C) (r : Row2C) : ℚ := (r.cnt : ℚ) / ((tRecords2 rows : ℕ) : ℚ)
/-- binning_statistics_2d.py:676 "WoE". -/
def Row2C.woe (rows : List Row2C) (r : Row2C) : Option ℚ := r.mean.map (· - tMean2 rows)
/-- binning_statistics_2d.py:677 "IV". -/
def Row2C.iv (rows : List Row2C) (r : Row2C) : Option ℚ := (r.woe rows).map fun w => |w| * r.share rows
/-- binning_statistics_2d.py:678 `t_iv`. -/
def tIv2 (rows : List Row2C) : Option ℚ := sumNaN (rows.map fun r => r.iv rows)
/-- binning_statistics_2d.py:679 `t_woe`. -/
def tWoe2 (rows : List Row2C) : Option ℚ := sumNaN (rows.map fun r => (r.woe rows).map fun w => |w|)

/-! ### paths and pairs of bins -/

/-- `tuple(dict.fromkeys(l))`: the distinct elements in order of first occurrence. -/
def fromKeys {γ : Type*} [DecidableEq γ] (l : List γ) : List γ :=
  l.foldl (fun acc a => if a ∈ acc then acc else acc ++ [a]) []

/-- binning_statistics_2d.py:94-98 (101-105): the paths along the lines `line 0, …, line (k - 1)`. -/
def pathsOf (k : ℕ) (line : ℕ → List ℕ) : List (List ℕ) :=
  (List.range k).foldl (fun acc i => let path := fromKeys (line i); if path ∈ acc then acc else acc ++ [path]) []

/-- binning_statistics_2d.py:92-107 `get_paths`; `P` is the flat matrix of shape `(m, n)`. -/
def getPaths (m n : ℕ) (P : ℕ → ℕ) : List (List ℕ) × List (List ℕ) :=
  (pathsOf m fun i => (List.range n).map fun j => P (i * n + j), pathsOf n fun j => (List.range m).map fun i => P (i * n + j))

/-- The order of tuples of two numbers. -/
def pairLE (a b : ℕ × ℕ) : Bool := decide (a.1 < b.1 ∨ (a.1 = b.1 ∧ a.2 ≤ b.2))

/-- binning_statistics_2d.py:110-124 `get_pairs`: `pairs` is a set. -/
def getPairs (pathsX pathsY : List (List ℕ)) : List (ℕ × ℕ) :=
  let add := fun (s : List (ℕ × ℕ)) (path : List ℕ) => (path.dropLast.zip path.tail).foldl (fun s t => if t ∈ s then s else s ++ [t]) s
  let s := pathsX.foldl add []
  let s := pathsY.foldl add s
  s.mergeSort pairLE

/-- binning_statistics_2d.py:854-884: "Bin A", "Bin B" and the statistics of the test (`test` is the external
`ttest_ind_from_stats`) from mean, squared standard deviation and number of records of the two bins. -/
def FittedC2D.tests {γ : Type} (f : FittedC2D α β) (test : Option ℚ → Option ℚ → ℕ → Option ℚ → Option ℚ → ℕ → γ) :
    List (ℕ × ℕ × γ) :=
  let paths := getPaths f.m f.n f.P
  let row := fun i => (f.rows.take (f.rows.length - 2)).getD i ⟨0, none, none⟩
  (getPairs paths.1 paths.2).map fun t =>
    (t.1, t.2, test (row t.1).mean (row t.1).var (row t.1).cnt (row t.2).mean (row t.2).var (row t.2).cnt)

/-- binning_statistics_2d.py:485-522 (`BinningTable2D.analysis`): "Bin A", "Bin B" and the statistics of the test (`test` is
the external test of the 2×2 table `[[nonevents of A, nonevents of B], [events of A, events of B]]`). -/
def Fitted2D.tests {γ : Type} (f : Fitted2D α β) (test : ℕ → ℕ → ℕ → ℕ → γ) : List (ℕ × ℕ × γ) :=
  let paths := getPaths f.m f.n f.P
  let nev := fun i => (f.nonevent.take (f.nonevent.length - 2)).getD i 0
  let ev := fun i => (f.event.take (f.event.length - 2)).getD i 0
  (getPairs paths.1 paths.2).map fun t => (t.1, t.2, test (nev t.1) (nev t.2) (ev t.1) (ev t.2))

end OptBinning
