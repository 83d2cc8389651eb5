import Verif.Model.Fit
import Verif.Model.Metrics
import Verif.Spec.Psi

/-! # Model of `scorecard/monitoring.py` -/
namespace OptBinning

/-- A float that is not negative infinity (enough for PSI values). -/
inductive Flt
  | nan
  | inf
  | real (r : ℝ)

noncomputable def Flt.add : Flt → Flt → Flt
  | .nan, _ => .nan
  | _, .nan => .nan
  | .inf, _ => .inf
  | _, .inf => .inf
  | .real a, .real b => .real (a + b)

/-- One entry of `jeffrey` (metrics.py:107-132) with numpy's conventions for empty bins: `0/0` is NaN and
`xlogy(0, nan)` is NaN; `xlogy(-e, 0)` and `xlogy(a, inf)` are `inf`. -/
noncomputable def psiTerm (a e : ℝ) : Flt :=
  if e = 0 then (if a = 0 then .nan else .inf) else if a = 0 then .inf else .real (jeffrey a e)

/-- `psi.sum()`. -/
noncomputable def fltSum (l : List Flt) : Flt := l.foldr Flt.add (.real 0)

/-- `_system_psi`, monitoring.py:582-602 (also 796-801): the per-bin PSI and the total, for the counts of actual and expected
records per bin.  Error: with an empty population the shares are NaN and `jeffrey` rejects them (metrics.py:16-22), as it
rejects empty arrays. -/
noncomputable def systemPsi (t : List (ℕ × ℕ)) : Except String (List Flt × Flt) :=
  let ta := (t.map Prod.fst).sum
  let te := (t.map Prod.snd).sum
  if ta = 0 ∨ te = 0 then .error "ValueError"
  else
    let psi := t.map fun p => psiTerm ((p.1 : ℝ) / (ta : ℝ)) ((p.2 : ℝ) / (te : ℝ))
    .ok (psi, fltSum psi)

variable {α : Type*} [LinearOrder α]

/-- monitoring.py:498-527, binary target: non-event and event counts per score bin of records (score, label is 0). -/
def scoreCounts (splits : List α) (recs : List (α × Bool)) : List (ℕ × ℕ) :=
  (List.range (splits.length + 1)).map fun i =>
    ((recs.filter fun r => r.2 && digitize true splits (some r.1) == i).length,
     (recs.filter fun r => !r.2 && digitize true splits (some r.1) == i).length)

/-- monitoring.py:526-527 `n_records = n_nonevent + n_event` for both samples. -/
def systemCounts (splits : List α) (act exp : List (α × Bool)) : List (ℕ × ℕ) :=
  List.zipWith (fun a e => (a.1 + a.2, e.1 + e.2)) (scoreCounts splits act) (scoreCounts splits exp)

/-- `te.max() + 1`, monitoring.py:787. -/
def indexBins (te : List ℤ) : ℕ := (te.foldr max (-1) + 1).toNat

/-- monitoring.py:787-794, `_fit_variables`: counts per bin index of one variable. -/
def variableCounts (ta te : List ℤ) : List (ℕ × ℕ) :=
  (List.range (indexBins te)).map fun (i : ℕ) => (ta.count (i : ℤ), te.count (i : ℤ))

end OptBinning
