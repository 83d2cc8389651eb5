import Verif.Model.Metrics
import Verif.Model.Multiclass

/-! # Model of `jensen_shannon_multivariate` and its use in `MulticlassBinningTable.build`

Floats are real numbers; a matrix is the list of its columns. -/
namespace OptBinning

/-- `X[r, i]` of the matrix with the columns `X`. -/
def cellX (X : List (List ℝ)) (r i : ℕ) : ℝ := (X.getD i []).getD r 0

/-- The weights of metrics.py:182-191: those given, refused if their number is not the number of columns (185-186) or if they
do not add up to one (188-189); otherwise `np.ones(n) / n`. -/
noncomputable def jsWeights (n : ℕ) : Option (List ℝ) → Except String (List ℝ)
  | none => .ok (List.replicate n (1 / (n : ℝ)))
  | some w => by
    classical
    exact if w.length ≠ n then .error "ValueError: Shapes of X and weights differ."
      else if w.sum ≠ 1 then .error "ValueError: weights must sum 1."
      else .ok w

/-- `jensen_shannon_multivariate`, metrics.py:160-196, of a matrix with `m` rows (`np.sum(weights * X, axis=1)` is the list of
the `m` row sums; the test of the number of dimensions, 176-177, holds for every matrix). -/
noncomputable def jsMultivariate (m : ℕ) (X : List (List ℝ)) (weights : Option (List ℝ)) : Except String ℝ :=
  match jsWeights X.length weights with
  | .error e => .error e
  | .ok w =>
    let mean := (List.range m).map fun r => ((List.range X.length).map fun i => w.getD i 0 * cellX X r i).sum
    .ok (entropy mean - dot w (X.map entropy))

/-- binning_statistics.py:1177: `n_event / n_event.sum(axis=0)`. -/
noncomputable def pEventM (cols : List (List ℕ)) : List (List ℝ) :=
  cols.map fun (c : List ℕ) => c.map fun (e : ℕ) => (e : ℝ) / ((c.sum : ℕ) : ℝ)

/-- binning_statistics.py:1177-1178: the attribute `js` of the table whose columns "Event_c" are `cols`. -/
noncomputable def jsTable (cols : List (List ℕ)) : Except String ℝ := jsMultivariate (rowsM cols) (pEventM cols) none

end OptBinning
