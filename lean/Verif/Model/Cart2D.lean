import Verif.Model.Fit2DC

/-!
# Model of strategy `"cart"`: `binning/multidimensional/model_data_cart_2d.py`

The tree is fitted by scikit-learn on the indices of the pre-bins (external, an arbitrary function of the records);
the model reads the arrays of `tree_` as the code does.
-/
namespace OptBinning

variable {α β : Type} [DecidableEq α] [DecidableEq β]

/-- `tree.tree_`: the arrays `children_left`, `children_right`, `threshold`, `feature` (`-1` for "no child", feature `-2`
at leaves; feature 0 is the index of the pre-bin of `x`, feature 1 that of `y`). -/
structure CartTree where
  left : List ℤ
  right : List ℤ
  threshold : List ℚ
  feature : List ℤ

/-- A step of a path through the tree (model_data_cart_2d.py:22-23): is the feature `x`, is the split `"<="`, threshold. -/
structure CartStep where
  onX : Bool
  le : Bool
  threshold : ℚ
deriving DecidableEq

/-- model_data_cart_2d.py:44-49 `parent` and whether `split` is `"<="` (`.item()` of an array with one element). -/
def CartTree.parent (t : CartTree) (child : ℕ) : ℕ × Bool :=
  if (child : ℤ) ∈ t.left then (t.left.idxOf (child : ℤ), true) else (t.right.idxOf (child : ℤ), false)

/-- model_data_cart_2d.py:36, 51: the entry of `lineage` for the parent (`[0, 1][i]`, so `-2` gives 0). -/
def CartTree.step (t : CartTree) (q : ℕ × Bool) : CartStep :=
  ⟨decide (t.feature.getD q.1 0 = 0 ∨ t.feature.getD q.1 0 = -2), q.2, t.threshold.getD q.1 0⟩

/-- model_data_cart_2d.py:41-57 `recurse` without the node numbers; the recursion goes at most as deep as there are nodes. -/
def CartTree.lineage (t : CartTree) : ℕ → ℕ → List CartStep
  | 0, _ => []
  | depth + 1, child =>
    let q := t.parent child
    if q.1 = 0 then [t.step q] else t.lineage depth q.1 ++ [t.step q]

/-- model_data_cart_2d.py:39 `idx`. -/
def CartTree.leaves (t : CartTree) : List ℕ := (List.range t.left.length).filter fun i => t.left.getD i 0 == -1

/-- model_data_cart_2d.py:59-69 `get_rectangles`. -/
def CartTree.rectangles (t : CartTree) : List (List CartStep) := t.leaves.map (t.lineage t.left.length)

/-- model_data_cart_2d.py:85-94: one update of `mask_x` (`mask_y`) at the index `j`. -/
def CartStep.ok (s : CartStep) (j : ℕ) : Bool := if s.le then decide ((j : ℚ) ≤ s.threshold) else decide (s.threshold < (j : ℚ))

/-- model_data_cart_2d.py:81-96: is the cell `(r, c)` in `mask`? -/
def cartMask (rect : List CartStep) (r c : ℕ) : Bool :=
  (rect.all fun s => !s.onX || s.ok c) && (rect.all fun s => s.onX || s.ok r)

/-- model_data_cart_2d.py:72-99 the matrix `A`; `init` is the content of `np.empty`. -/
def CartTree.matrix (t : CartTree) (init : ℕ → ℕ → ℕ) (r c : ℕ) : ℕ :=
  t.rectangles.zipIdx.foldl (fun v q => if cartMask q.1 r c then q.2 else v) (init r c)

/-- model_data_cart_2d.py:139 (270) `path`: the set of entries of `A` in the block (a sorted tuple without repetitions
stands for the set). -/
def cartPath (A : ℕ → ℕ → ℕ) (t : Rect) : Finset ℕ :=
  (((List.range t.k).flatMap fun a => (List.range t.l).map fun b => A (t.i + a) (t.j + b))).toFinset

/-- model_data_cart_2d.py:142-146 (273-277): all non-zero column sums of `M` are equal, and all non-zero row sums. -/
def cartShape (m n : ℕ) (A : ℕ → ℕ → ℕ) (path : Finset ℕ) : Bool :=
  let sr := (List.range n).map (fun c => (List.range m).countP fun r => decide (A r c ∈ path)) ++ [0]
  let sc := (List.range m).map (fun r => (List.range n).countP fun c => decide (A r c ∈ path)) ++ [0]
  decide (sr.toFinset.card ≤ 2) && decide (sc.toFinset.card ≤ 2)

/-- model_data_cart_2d.py:147 (278) `row`. -/
def cartRow (m n : ℕ) (A : ℕ → ℕ → ℕ) (path : Finset ℕ) : List ℕ :=
  (List.range (m * n)).filter fun p => decide (ravel n A p ∈ path)

/-- model_data_cart_2d.py:139-195 (270-314): one turn of the loops; the state is `paths` and `rows`.  `keep` stands for the
`continue` statements, after which `path` is not added to `paths`. -/
def cartTurn (m n : ℕ) (A : ℕ → ℕ → ℕ) (keep : List ℕ → Bool) (s : List (Finset ℕ) × List (List ℕ)) (t : Rect) :
    List (Finset ℕ) × List (List ℕ) :=
  let path := cartPath A t
  if path ∈ s.1 then s
  else if 1 < path.card then
    if cartShape m n A path then
      let row := cartRow m n A path
      if keep row then (s.1 ++ [path], s.2 ++ [row]) else s
    else (s.1 ++ [path], s.2)
  else (s.1 ++ [path], s.2)

/-- model_data_cart_2d.py:131-195 (262-314): the `rows` which get a decision variable. -/
def cartRows (m n : ℕ) (A : ℕ → ℕ → ℕ) (keep : List ℕ → Bool) : List (List ℕ) :=
  ((allRects m n).foldl (cartTurn m n A keep) ([], [])).2

/-- The program (model_data_cart_2d.py:174-187, 200-232): `outer_x` is the last cell of the rectangle, `outer_y` are all
its cells. -/
def cartProgram {R : Type*} (m n : ℕ) (rows : List (List ℕ)) (er : ℕ → ℚ) (records : ℕ → ℕ) (c : ℕ → R) (gamma : Bool)
    (reg : R) : Prog2D R :=
  { nGrid := m * n
    nRect := rows.length
    cols := colsOf rows
    c := c
    connX := fun i => connectedTo (pairsX m n) rows [(rows.getD i []).getLastD 0] i
    connY := fun i => connectedTo (pairsY m n) rows (rows.getD i []) i
    er := er
    records := records
    gamma := gamma
    reg := reg }

/-- `model_data_cart` (model_data_cart_2d.py:102-232). -/
def cartBinary {R : Type*} (o : Opts2D) (m n : ℕ) (A : ℕ → ℕ → ℕ) (NE E : ℕ → ℕ → ℕ) (coef : ℚ → ℚ → R) (gamma : Bool)
    (reg : ℕ → R) : List (List ℕ) × Prog2D R :=
  let fe := ravel n E
  let fne := ravel n NE
  let rows := cartRows m n A (keepBinary o fne fe)
  let records := fun i => rectSum rows fe i + rectSum rows fne i
  let tE := ((List.range (m * n)).map fe).sum
  let tNE := ((List.range (m * n)).map fne).sum
  let c := fun i => coef ((rectSum rows fe i : ℕ) / (tE : ℚ)) ((rectSum rows fne i : ℕ) / (tNE : ℚ))
  (rows, cartProgram m n rows (rateOf rows fne fe) records c gamma (reg ((List.range rows.length).map records).sum))

/-- `continuous_model_data_cart` (model_data_cart_2d.py:235-341). -/
def cartContinuous {Q : Type*} (o : Opts2D) (m n : ℕ) (A : ℕ → ℕ → ℕ) (R : ℕ → ℕ → ℕ) (S : ℕ → ℕ → ℚ) (coef : ℚ → Q)
    (gamma : Bool) (reg : ℕ → Q) : List (List ℕ) × Prog2D Q :=
  let fr := ravel n R
  let fs := ravel n S
  let rows := cartRows m n A (keepContinuous o fr)
  let tMean := ((List.range (m * n)).map fs).sum / ((((List.range (m * n)).map fr).sum : ℕ) : ℚ)
  let c := fun i => coef |meanOf rows fr fs i - tMean|
  (rows, cartProgram m n rows (meanOf rows fr fs) (rectSum rows fr) c gamma
    (reg ((List.range rows.length).map (rectSum rows fr)).sum))

/-- binning_2d.py:697-715 `P` (flat) for the selected rows. -/
def pMatrixRows (init : ℕ → ℕ) (sel : List (List ℕ)) (p : ℕ) : ℕ :=
  sel.zipIdx.foldl (fun v t => if t.1.contains p then t.2 else v) (init p)

/-- All arguments of one call of `OptimalBinning2D.fit` with `strategy="cart"`: those of `Job2D` and the external tree
(binning_2d.py:636-665), a function of the indices of the pre-bins of `x` and `y` and the target of the clean records. -/
structure CartJob2D (α β R : Type) extends Job2D α β R where
  tree : List (ℕ × ℕ × Bool) → CartTree
  initA : ℕ → ℕ → ℕ

/-- binning_2d.py:656-663. -/
def CartJob2D.theTree {R : Type} (j : CartJob2D α β R) : CartTree :=
  j.tree (j.prepared.clean.map fun r => (j.prepared.col r.1, j.prepared.row r.2.1, r.2.2))

/-- model_data_cart_2d.py:129 `A`. -/
def CartJob2D.matrix {R : Type} (j : CartJob2D α β R) : ℕ → ℕ → ℕ := j.theTree.matrix j.initA

/-- binning_2d.py:874-879. -/
def CartJob2D.program {R : Type} (j : CartJob2D α β R) : List (List ℕ) × Prog2D R :=
  cartBinary j.opts j.prepared.m j.prepared.n j.matrix j.prepared.nonevents j.prepared.events j.coef j.gamma j.reg

/-- `OptimalBinning2D.fit` with `strategy="cart"` (binning_2d.py:558-762). -/
def CartJob2D.fitCart {R : Type} [CommRing R] [LinearOrder R] (j : CartJob2D α β R) : Fitted2D α β :=
  let p := j.prepared
  let cp := j.program
  let ans := j.solver j.opts cp.2
  let sel := select cp.1 (ans.solution cp.1.length)
  let P := pMatrixRows j.init sel
  { status := ans.status
    axisX := p.axisX
    axisY := p.axisY
    boxes := (List.range sel.length).map (splitsOptimal p.m p.n p.splitsX p.splitsY P)
    nonevent := sel.map (fun row => (row.map (ravel p.n p.nonevents)).sum) ++
      [(special2D j.scx j.scy j.recs).countP (· == some false), (missing2D j.recs).countP (· == some false)]
    event := sel.map (fun row => (row.map (ravel p.n p.events)).sum) ++
      [(special2D j.scx j.scy j.recs).countP (· != some false), (missing2D j.recs).countP (· != some false)]
    m := p.m
    n := p.n
    P := P
    refinements := (p.m * p.n * (p.m + 1) * (p.n + 1)) / 4 - cp.1.length }

/-- The same for a continuous target (continuous_binning_2d.py:483-692, tree 561-590). -/
structure CartJobC2D (α β Q : Type) extends JobC2D α β Q where
  tree : List (ℕ × ℕ × ℚ) → CartTree
  initA : ℕ → ℕ → ℕ

def CartJobC2D.theTree {Q : Type} (j : CartJobC2D α β Q) : CartTree :=
  j.tree (j.prepared.clean.map fun r => (j.prepared.col r.1, j.prepared.row r.2.1, r.2.2))

def CartJobC2D.matrix {Q : Type} (j : CartJobC2D α β Q) : ℕ → ℕ → ℕ := j.theTree.matrix j.initA

/-- continuous_binning_2d.py:798-801. -/
def CartJobC2D.program {Q : Type} (j : CartJobC2D α β Q) : List (List ℕ) × Prog2D Q :=
  cartContinuous j.opts j.prepared.m j.prepared.n j.matrix j.prepared.records j.prepared.sums j.coef j.gamma j.reg

/-- model_data_cart_2d.py:280-282, 304-306, 330-332 for one rectangle. -/
def rowOfCells (n : ℕ) (R : ℕ → ℕ → ℕ) (S SS : ℕ → ℕ → ℚ) (row : List ℕ) : Row2C :=
  let r := (row.map (ravel n R)).sum
  let s := (row.map (ravel n S)).sum
  let ss := (row.map (ravel n SS)).sum
  let v := ss / (r : ℚ) - (s / (r : ℚ)) ^ 2
  ⟨r, some s, if v < 0 then none else some v⟩

/-- `ContinuousOptimalBinning2D.fit` with `strategy="cart"`. -/
def CartJobC2D.fitCart {Q : Type} [CommRing Q] [LinearOrder Q] (j : CartJobC2D α β Q) : FittedC2D α β :=
  let p := j.prepared
  let cp := j.program
  let ans := j.solver j.opts cp.2
  let sel := select cp.1 (ans.solution cp.1.length)
  let P := pMatrixRows j.init sel
  { status := ans.status
    axisX := p.axisX
    axisY := p.axisY
    boxes := (List.range sel.length).map (splitsOptimal p.m p.n p.splitsX p.splitsY P)
    rows := sel.map (rowOfCells p.n p.records p.sums p.squares) ++
      [rowOfTargets (special2D j.scx j.scy j.recs), rowOfTargets (missing2D j.recs)]
    m := p.m
    n := p.n
    P := P
    refinements := (p.m * p.n * (p.m + 1) * (p.n + 1)) / 4 - cp.1.length }

/-- The contract of scikit-learn: the root has children; every node has two children with larger numbers or none; every
other node has exactly one parent; inner nodes split on `x` or `y`. -/
structure CartTree.WellFormed (t : CartTree) : Prop where
  length : t.right.length = t.left.length
  root : 0 < t.left.length ∧ t.left.getD 0 0 ≠ -1
  children : ∀ p < t.left.length, (t.left.getD p 0 = -1 ∧ t.right.getD p 0 = -1) ∨
    ∃ a b : ℕ, t.left.getD p 0 = a ∧ t.right.getD p 0 = b ∧ p < a ∧ a < t.left.length ∧ p < b ∧ b < t.left.length ∧
      (t.feature.getD p 0 = 0 ∨ t.feature.getD p 0 = 1)
  parents : ∀ c < t.left.length, 0 < c → ∃! q : ℕ × Bool, q.1 < t.left.length ∧
    (if q.2 then t.left.getD q.1 0 else t.right.getD q.1 0) = (c : ℤ)

end OptBinning
