import Verif.Model.Fit2DC
import Verif.Model.Metrics
import Verif.Model.Labels

/-!
# Model of `BinningTable2D.build`, the labels of its rows and the data drawn by `plot`
(binning_statistics_2d.py:34-89, 205-339, 341-424, 743-809)

Floats are reals.  The statistics of `build` (229-282) are those of `BinningTable.build` (binning_statistics.py:515-562): `buildTable`.
-/
namespace OptBinning
open Spec

variable {α β : Type} [DecidableEq α] [DecidableEq β]

/-- binning_statistics_2d.py:229-230: the rows of the table: bins, Special, Missing. -/
def Fitted2D.rows (f : Fitted2D α β) : List Row := List.zipWith (fun ne e => ⟨ne, e⟩) f.nonevent f.event

/-- The row "Totals" (binning_statistics_2d.py:233-236, 327-335): Count, Non-event, Event, Event rate, IV, JS. -/
structure Totals2D where
  count : ℕ
  nonevent : ℕ
  event : ℕ
  rate : ℝ
  iv : ℝ
  js : ℝ

/-- The data frame of `BinningTable2D.build` without the labels, and the matrices for `plot`. -/
structure Built2D where
  count : List ℕ
  share : List ℝ
  stats : BuiltTable
  totals : Totals2D
  /-- `D` (binning_2d.py:697, 715-716: `P[r] = i` and `D[r] = _event_rate` are assigned together, so `D` is the event rate of the
  bin in `P`). -/
  D : ℕ → ℝ
  /-- `W` (binning_statistics_2d.py:252). -/
  W : ℕ → ℝ

/-- binning_2d.py:711-713 `_event_rate` of bin `i`. -/
noncomputable def Fitted2D.cellRate (f : Fitted2D α β) (i : ℕ) : ℝ :=
  (f.event.getD i 0 : ℝ) / ((f.event.getD i 0 : ℝ) + (f.nonevent.getD i 0 : ℝ))

/-- `BinningTable2D.build` (binning_statistics_2d.py:205-339). -/
noncomputable def Fitted2D.build (sort : List Row → List Row) (f : Fitted2D α β) : Except String Built2D :=
  match buildTable sort f.rows with
  | .error e => .error e
  | .ok b =>
    let te := f.event.sum
    let tne := f.nonevent.sum
    let count := f.rows.map fun r => r.event + r.nonevent
    let D := fun p => f.cellRate (f.P p)
    .ok { count := count
          share := count.map fun (c : ℕ) => (c : ℝ) / ((tne + te : ℕ) : ℝ)
          stats := b
          totals := { count := tne + te, nonevent := tne, event := te, rate := (te : ℝ) / ((tne + te : ℕ) : ℝ), iv := b.tIv, js := b.tJs }
          D := D
          W := fun p => Real.log (1 / D p - 1) + Real.log ((te : ℝ) / (tne : ℝ)) }

/-! ### labels -/

/-- `"{0:.{1}f}".format(v, d)` of a number or an infinity. -/
def fmtBound (d : ℕ) : EQ → List Char
  | ⊥ => ['-', 'i', 'n', 'f']
  | some none => ['i', 'n', 'f']
  | some (some q) => fmtFixed d q

/-- binning_statistics_2d.py:34-38 `_bin_fmt`. -/
def binFmt (d : ℕ) (lo hi : EQ) : List Char :=
  (if lo = ⊥ ∨ lo = ⊤ then ['('] else ['[']) ++ fmtBound d lo ++ [',', ' '] ++ fmtBound d hi ++ [')']

/-- A cell of the columns "Bin x", "Bin y". -/
inductive Label2 (α : Type)
  | text (t : List Char)
  | categories (l : List α)

/-- binning_statistics_2d.py:79-89 `bin_str_format` for one bin: of a categorical variable the array of categories. -/
def Axis.label (ax : Axis α) (d : ℕ) (lo hi : EQ) : Label2 α :=
  match ax with
  | .numerical _ => .text (binFmt d lo hi)
  | .categorical cats => .categories (binCategories cats lo hi)

/-- binning_statistics_2d.py:306-316: the columns "Bin x" and "Bin y". -/
def binColumns2D (ax : Axis α) (ay : Axis β) (boxes : List Box2) (d : ℤ) : Except String (List (Label2 α) × List (Label2 β)) :=
  match checkShowDigits d with
  | .error e => .error e
  | .ok d =>
    let sp : List Char := ['S', 'p', 'e', 'c', 'i', 'a', 'l']
    let ms : List Char := ['M', 'i', 's', 's', 'i', 'n', 'g']
    .ok (boxes.map (fun b => ax.label d b.xlo b.xhi) ++ [.text sp, .text ms], boxes.map (fun b => ay.label d b.ylo b.yhi) ++ [.text sp, .text ms])

/-! ### plot -/

/-- `np.count_nonzero(P == p, axis=1).max()`, `np.count_nonzero(P == p, axis=0).max()` (385-386, 416-417, 770-771, 801-802):
`line k` are the entries of row (column) `k`. -/
def maxWidth (k : ℕ) (line : ℕ → List ℕ) (p : ℕ) : ℕ := ((List.range k).map fun i => (line i).count p).foldr max 0

/-- The values of one step line (384-388, 415-419, 769-773, 800-804); an empty line fails at `er[-1]`. -/
def stepLine {γ : Type} (width : ℕ → ℕ) (metric : ℕ → γ) (path : List ℕ) : Except String (List γ) :=
  let er := path.flatMap fun p => List.replicate (width p) (metric p)
  match er.getLast? with
  | none => .error "IndexError"
  | some v => .ok (er ++ [v])

/-- Drawing one step line over `n + 1` positions (389, 420, 774, 805): matplotlib refuses two lists of different lengths. -/
def drawStep {γ : Type} (n : ℕ) (er : Except String (List γ)) : Except String (List γ) :=
  match er with
  | .error e => .error e
  | .ok l => if l.length = n + 1 then .ok l else .error "ValueError"

/-- The step lines of the upper and of the right panel, each with its path (383-390, 414-421, 768-775, 799-806). -/
def plotLines {γ : Type} (m n : ℕ) (P : ℕ → ℕ) (metric : ℕ → γ) :
    List (List ℕ × Except String (List γ)) × List (List ℕ × Except String (List γ)) :=
  let paths := getPaths m n P
  let rowLine := fun i => (List.range n).map fun j => P (i * n + j)
  let colLine := fun j => (List.range m).map fun i => P (i * n + j)
  (paths.1.map fun path => (path, drawStep n (stepLine (maxWidth m rowLine) metric path)),
   paths.2.map fun path => (path, drawStep m (stepLine (maxWidth n colLine) metric path)))

end OptBinning
