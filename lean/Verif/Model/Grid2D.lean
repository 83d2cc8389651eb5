import Mathlib.Data.Rat.Floor
import Mathlib.Algebra.Order.Floor.Ring
import Verif.Spec.Grid2D
import Verif.Model.Metrics

/-!
# Model of `binning/multidimensional/model_data_2d.py`, `cp_2d.py`, `mip_2d.py`

Arrays `E`, `NE`, … of shape `(m, n)` are functions of row and column; `np.ravel` is C order.
-/
namespace OptBinning

/-- The loop variables of model_data_2d.py:84-90 (corner `(i, j)`, height `k`, width `l`). -/
structure Rect where
  i : ℕ
  j : ℕ
  k : ℕ
  l : ℕ
deriving DecidableEq

/-- `np.ravel` (model_data_2d.py:56-57, 175-177). -/
def ravel {R : Type*} (n : ℕ) (M : ℕ → ℕ → R) (p : ℕ) : R := M (p / n) (p % n)

/-- model_data_2d.py:78-81 `cached_rectangles[(k, l)]`. -/
def cachedRectangle (n k l : ℕ) : List ℕ :=
  (List.range k).flatMap fun ik => (List.range l).map fun jl => n * ik + jl

/-- model_data_2d.py:88, 91 (208). -/
def Rect.row (n : ℕ) (t : Rect) : List ℕ := (cachedRectangle n t.k t.l).map fun r => t.i * n + t.j + r

/-- model_data_2d.py:117-119 (225-227) `outer_x`. -/
def Rect.outerX (n : ℕ) (t : Rect) : List ℕ :=
  (List.range t.k).map fun a => (t.row n).getD (a * t.l + (t.l - 1)) 0

/-- model_data_2d.py:121-123 (229-231) `outer_y`. -/
def Rect.outerY (n : ℕ) (t : Rect) : List ℕ :=
  (List.range t.l).map fun b => (t.row n).getD ((t.k - 1) * t.l + b) 0

/-- The rectangles in the order of the loops model_data_2d.py:84-90 (201-207). -/
def allRects (m n : ℕ) : List Rect :=
  (List.range m).flatMap fun i => (List.range n).flatMap fun j =>
    (List.range (m - i)).flatMap fun k => (List.range (n - j)).map fun l => ⟨i, j, k + 1, l + 1⟩

/-- model_data_2d.py:93-112: the `continue` statements. -/
def keepBinary (o : Opts2D) (fne fe : ℕ → ℕ) (row : List ℕ) : Bool :=
  let sfe := (row.map fe).sum
  let sfne := (row.map fne).sum
  let sn := sfe + sfne
  if sfe = 0 ∨ sfne = 0 then false
  else if o.minSize.any fun b => decide ((sn : ℤ) < b) then false
  else if o.maxSize.any fun b => decide (b < (sn : ℤ)) then false
  else if o.minEvent.any fun b => decide ((sfe : ℤ) < b) then false
  else if o.maxEvent.any fun b => decide (b < (sfe : ℤ)) then false
  else if o.minNonevent.any fun b => decide ((sfne : ℤ) < b) then false
  else if o.maxNonevent.any fun b => decide (b < (sfne : ℤ)) then false
  else true

/-- model_data_2d.py:210-220. -/
def keepContinuous (o : Opts2D) (fr : ℕ → ℕ) (row : List ℕ) : Bool :=
  let sfr := (row.map fr).sum
  if sfr = 0 then false
  else if o.minSize.any fun b => decide ((sfr : ℤ) < b) then false
  else if o.maxSize.any fun b => decide (b < (sfr : ℤ)) then false
  else true

/-- The rectangles which get a decision variable (model_data_2d.py:83-129, 200-238). -/
def candidates (m n : ℕ) (keep : List ℕ → Bool) : List Rect := (allRects m n).filter fun t => keep (t.row n)

/-- model_data_2d.py:63, 114-115: the dictionary `cols`. -/
def colsOf (rows : List (List ℕ)) (p : ℕ) : List ℕ :=
  (List.range rows.length).filter fun i => (rows.getD i []).contains p

/-- model_data_2d.py:23-24: the items of the dictionary `connected_x`. -/
def pairsX (m n : ℕ) : List (ℕ × ℕ) :=
  (List.range m).flatMap fun i => (List.range (n - 1)).map fun j => (n * i + j, n * i + j + 1)

/-- model_data_2d.py:28-29: the items of the dictionary `connected_y`. -/
def pairsY (m n : ℕ) : List (ℕ × ℕ) :=
  (List.range (m - 1)).flatMap fun i => (List.range n).map fun j => (n * i + j, n * i + j + n)

/-- model_data_2d.py:32-44: `d_connected[i]` for the dictionary `pairs` and the border cells `outer` of rectangle `i`. -/
def connectedTo (pairs : List (ℕ × ℕ)) (rows : List (List ℕ)) (outer : List ℕ) (i : ℕ) : List ℕ :=
  (List.range rows.length).filter fun j =>
    (outer.any fun r => pairs.any fun q => q.1 == r && (colsOf rows q.2).contains j) &&
      !((rows.getD i []).any fun r => (colsOf rows r).contains j)

/-- The arguments of `build_model` (cp_2d.py:38-39, mip_2d.py:38-39); `reg` is the factor of `pmax - pmin`. -/
structure Prog2D (R : Type*) where
  nGrid : ℕ
  nRect : ℕ
  cols : ℕ → List ℕ
  c : ℕ → R
  connX : ℕ → List ℕ
  connY : ℕ → List ℕ
  er : ℕ → ℚ
  records : ℕ → ℕ
  gamma : Bool
  reg : R

/-- Values of the decision variables.  For CP `R = ℤ` and for MIP `R = ℝ`. -/
structure Assign2D (R : Type*) where
  x : ℕ → ℤ
  d : R
  pmax : R
  pmin : R

/-- cp_2d.py:147-152, 159-164 …: the indices collected in `ind_x` (`ind_y`). -/
def forbidden (t : Trend2D) (minDiff : ℚ) (er : ℕ → ℚ) (i : ℕ) (conn : List ℕ) : List ℕ :=
  conn.filter fun j => match t with
    | .ascending => decide (er j ≤ er i + minDiff)
    | .descending => decide (er i ≤ er j + minDiff)

/-- cp_2d.py:137-198, mip_2d.py:147-208 for one direction (the three branches add the same constraints per direction). -/
def monotone2D (t : Option Trend2D) (minDiff : ℚ) (er : ℕ → ℚ) (N : ℕ) (conn : ℕ → List ℕ) (x : ℕ → ℤ) : Prop :=
  match t with
  | none => True
  | some t => ∀ i < N, let ind := forbidden t minDiff er i (conn i)
      ind ≠ [] → (ind.map x).sum ≤ (ind.length : ℤ) * (1 - x i)

section
variable {R : Type*} [CommRing R] [LinearOrder R]

/-- cp_2d.py:51, mip_2d.py:49 `total_records = int(n_records.sum())` (the sum over all candidate rectangles). -/
def Prog2D.totalRecords (p : Prog2D R) : ℕ := ((List.range p.nRect).map p.records).sum

/-- cp_2d.py:107-120, 53-54 (mip_2d.py:116-130, 51-52): domains of the variables. -/
def domains2D (o : Opts2D) (p : Prog2D R) (a : Assign2D R) : Prop :=
  (∀ i < p.nRect, a.x i = 0 ∨ a.x i = 1) ∧
  (∀ lo hi, o.minBins = some lo → o.maxBins = some hi → 0 ≤ a.d ∧ a.d ≤ ((hi - lo : ℤ) : R)) ∧
  (p.gamma = true → 0 ≤ a.pmax ∧ a.pmax ≤ (p.totalRecords : R) ∧ 0 ≤ a.pmin ∧ a.pmin ≤ (p.totalRecords : R))

/-- cp_2d.py:126-135, mip_2d.py:136-145. -/
def minMaxBins2D (o : Opts2D) (p : Prog2D R) (a : Assign2D R) : Prop :=
  let nBins : ℤ := ((List.range p.nRect).map a.x).sum
  match o.minBins, o.maxBins with
  | some _, some hi => a.d + (nBins : R) - (hi : R) = 0
  | some lo, none => nBins ≥ lo
  | none, some hi => nBins ≤ hi
  | none, none => True

/-- cp_2d.py:72-79, mip_2d.py:72-79. -/
def dominating2D (p : Prog2D R) (a : Assign2D R) : Prop :=
  p.gamma = true → (∀ i < p.nRect,
    a.pmin ≤ (p.totalRecords : R) * (1 - (a.x i : R)) + (p.records i : R) * (a.x i : R) ∧
    (p.records i : R) * (a.x i : R) ≤ a.pmax) ∧ a.pmin ≤ a.pmax

/-- `build_model` (cp_2d.py:38-84, mip_2d.py:38-84): the assignment satisfies all constraints. -/
structure Feasible2D (o : Opts2D) (p : Prog2D R) (a : Assign2D R) : Prop where
  dom : domains2D o p a
  /-- cp_2d.py:122-124, mip_2d.py:132-134. -/
  unique : ∀ j < p.nGrid, ((p.cols j).map a.x).sum = 1
  bins : minMaxBins2D o p a
  monoX : monotone2D o.trendX o.minDiffX p.er p.nRect p.connX a.x
  monoY : monotone2D o.trendY o.minDiffY p.er p.nRect p.connY a.x
  dominating : dominating2D p a

/-- cp_2d.py:50-59, mip_2d.py:48-59: the objective. -/
def objective2D (p : Prog2D R) (a : Assign2D R) : R :=
  ((List.range p.nRect).map fun i => p.c i * (a.x i : R)).sum - if p.gamma then p.reg * (a.pmax - a.pmin) else 0

/-- What the solver reports. -/
inductive Answer2D (R : Type*)
  | optimal (a : Assign2D R)
  | feasible (a : Assign2D R)
  | failed (status : String)

/-- Contract of the external solver (OR-tools). -/
def Answer2D.Valid (o : Opts2D) (p : Prog2D R) : Answer2D R → Prop
  | .optimal a => Feasible2D o p a ∧ ∀ b, Feasible2D o p b → objective2D p b ≤ objective2D p a
  | .feasible a => Feasible2D o p a
  | .failed s => s ≠ "OPTIMAL" ∧ s ≠ "FEASIBLE" ∧ (s = "INFEASIBLE" → ∀ a, ¬ Feasible2D o p a)

/-- mip_2d.py:86-114, cp_2d.py:86-105: the returned status and Boolean array (the CP failure branch evaluates
`np.bool`, an `AttributeError` for numpy ≥ 1.24; not modelled). -/
def Answer2D.solution (N : ℕ) : Answer2D R → List Bool
  | .optimal a | .feasible a => (List.range N).map fun i => a.x i != 0
  | .failed _ => (List.range N).map fun _ => false

def Answer2D.status : Answer2D R → String
  | .optimal _ => "OPTIMAL"
  | .feasible _ => "FEASIBLE"
  | .failed s => s

end

/-- `n_event[i]`, … of rectangle number `i` (model_data_2d.py:93-94, 126-127, 131-132). -/
def rectSum {S : Type*} [AddMonoid S] (rows : List (List ℕ)) (f : ℕ → S) (i : ℕ) : S := ((rows.getD i []).map f).sum

/-- The program built from the rectangles (model_data_2d.py:134-166, 244-265), except for the objective coefficients:
`er` is the event rate (147) or the mean (255), `records` the number of records. -/
def program2D {R : Type*} (m n : ℕ) (cands : List Rect) (er : ℕ → ℚ) (records : ℕ → ℕ) (c : ℕ → R) (gamma : Bool)
    (reg : R) : Prog2D R :=
  let rows := cands.map (Rect.row n)
  { nGrid := m * n
    nRect := cands.length
    cols := colsOf rows
    c := c
    connX := fun i => connectedTo (pairsX m n) rows ((cands.map (Rect.outerX n)).getD i []) i
    connY := fun i => connectedTo (pairsY m n) rows ((cands.map (Rect.outerY n)).getD i []) i
    er := er
    records := records
    gamma := gamma
    reg := reg }

/-- model_data_2d.py:143-147: event rate of rectangle `i`. -/
def rateOf (rows : List (List ℕ)) (fne fe : ℕ → ℕ) (i : ℕ) : ℚ :=
  ((rectSum rows fe i : ℕ) : ℚ) / ((rectSum rows fe i + rectSum rows fne i : ℕ) : ℚ)

/-- model_data_2d.py:253-255: mean of rectangle `i`. -/
def meanOf (rows : List (List ℕ)) (fr : ℕ → ℕ) (fs : ℕ → ℚ) (i : ℕ) : ℚ :=
  rectSum rows fs i / ((rectSum rows fr i : ℕ) : ℚ)

end OptBinning
