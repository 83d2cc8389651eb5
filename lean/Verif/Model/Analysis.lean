import Verif.Model.Fit
import Verif.Model.Multiclass
import Verif.Model.Continuous
import Verif.Model.Metrics
import Verif.Model.MonitorSystem
import Mathlib.Algebra.BigOperators.Group.Finset.Basic

/-!
# Model of `analysis` of the one-dimensional binning tables (binning_statistics.py:879-1005, 1398-1485, 1951-2049)

The trend of the report is modelled in `Model/AutoMonotonic.lean`, printing is not modelled.
-/
namespace OptBinning
open Finset

/-- The statistic of `scipy.stats.chi2_contingency(obs, correction=False)` for a table of `m` rows and `k` columns. -/
def chi2Table (m k : ℕ) (o : ℕ → ℕ → ℕ) : Except String XQ :=
  let r (i : ℕ) : ℕ := ∑ j ∈ range k, o i j
  let c (j : ℕ) : ℕ := ∑ i ∈ range m, o i j
  let n : ℕ := ∑ i ∈ range m, r i
  let e (i j : ℕ) : ℚ := (r i : ℚ) * (c j : ℚ) / (n : ℚ)
  if n = 0 then .ok .nan
  else if ∃ i < m, ∃ j < k, e i j = 0 then .error "ValueError"
  else .ok (.num (∑ i ∈ range m, ∑ j ∈ range k, ((o i j : ℚ) - e i j) ^ 2 / e i j))

/-- `(t / n / d) ** 0.5` (metrics.py:283, 291), `d = 0` only for a single class. -/
noncomputable def cramerRoot (n d : ℕ) : XQ → Flt
  | .num t => if d = 0 then (if t = 0 then .nan else .inf) else .real (Real.sqrt ((t / (n : ℚ) / (d : ℚ) : ℚ) : ℝ))
  | _ => .nan

/-- `chi2_cramer_v` (metrics.py:280-285). -/
noncomputable def chi2CramerV (nev ev : List ℕ) : Except String Flt :=
  match chi2Table 2 nev.length (fun c i => if c = 0 then nev.getD i 0 else ev.getD i 0) with
  | .error m => .error m
  | .ok t => .ok (cramerRoot (nev.sum + ev.sum) 1 t)

/-- `chi2_cramer_v_multi` (metrics.py:288-293); `o i j` is the number of records of class `j` in bin `i`, `r` the number of
bins, `k` the number of classes. -/
noncomputable def chi2CramerVMulti (r k : ℕ) (o : ℕ → ℕ → ℕ) : Except String Flt :=
  match chi2Table r k o with
  | .error m => .error m
  | .ok t => .ok (cramerRoot (∑ i ∈ range r, ∑ j ∈ range k, o i j) (min (k - 1) (r - 1)) t)

/-- The functions of scipy used by `analysis`: `chi2.sf(·, df)`, `fisher_exact` (odds ratio and p-value),
`special.betainc` and `stats.beta.ppf`, the p-value of a t statistic.  NaN values of the beta functions (a class without
records in a bin) are not modelled. -/
structure ScipyTests where
  sf : ℕ → ℚ → ℝ
  fisher : ℕ → ℕ → ℕ → ℕ → Flt × Flt
  betainc : ℕ → ℕ → ℝ → ℝ
  betappf : ℕ → ℕ → ℝ → ℝ

/-- The p-value of a chi-square statistic with `df` degrees of freedom. -/
noncomputable def ScipyTests.pvalue (s : ScipyTests) (df : ℕ) : XQ → Flt
  | .num t => .real (s.sf df t)
  | _ => .nan

/-- `bayesian_probability` (metrics.py:296-304), with `shuffle` the random permutation of 300; the first of the two
returned values. -/
noncomputable def bayesian (s : ScipyTests) (nSamples : ℕ) (shuffle : List ℕ → List ℕ) (aA aB bA bB : ℕ) : ℝ :=
  let v := (shuffle (List.range' 1 nSamples)).map fun (r : ℕ) => ((r : ℝ) - 0.5) / (nSamples : ℝ)
  (v.map fun x => s.betainc aA bA (s.betappf aB bB x)).sum / (nSamples : ℝ)

/-- One row of the table of significance tests (952-959). -/
structure PairTest where
  binA : ℕ
  binB : ℕ
  statistic : Flt
  pvalue : Flt
  ab : ℝ
  ba : ℝ

/-- A statistic as a number of the table. -/
noncomputable def XQ.toFlt : XQ → Flt
  | .num t => .real (t : ℝ)
  | .pinf => .inf
  | _ => .nan

/-- binning_statistics.py:923-927, 1420-1421, 1977-1981 `n_metric`. -/
def nMetric (nRows nSpecials : ℕ) (others : Bool) : ℕ := nRows - 1 - nSpecials - (if others then 1 else 0)

/-- `frequentist_pvalue` (metrics.py:271-277) of a table with two rows and two columns. -/
noncomputable def frequentist (s : ScipyTests) (test : String) (a b c d : ℕ) : Except String (Flt × Flt) :=
  if test = "chi2" then
    match chi2Contingency a b c d with
    | .error m => .error m
    | .ok t => .ok (t.toFlt, s.pvalue 1 t)
  else .ok (s.fisher a b c d)

/-- A float which is a number. -/
def Flt.real? : Flt → Option ℝ
  | .real r => some r
  | _ => none

/-- `binning_quality_score` on floats: NaN if a p-value is NaN (metrics.py:332-344). -/
noncomputable def qualityFlt (iv : ℝ) (ps : List Flt) (hhiN : ℝ) : Flt :=
  match ps.mapM Flt.real? with
  | some l => .real (qualityScore iv l hhiN)
  | none => .nan

/-- binning_statistics.py:941-950: one iteration of the loop over the regular bins. -/
noncomputable def pairTestB (s : ScipyTests) (test : String) (nSamples : ℕ) (shuffle : List ℕ → List ℕ)
    (nev ev : List ℕ) (i : ℕ) : Except String PairTest :=
  match frequentist s test (nev.getD i 0) (nev.getD (i + 1) 0) (ev.getD i 0) (ev.getD (i + 1) 0) with
  | .error e => .error e
  | .ok tp =>
    let p := bayesian s nSamples shuffle (nev.getD i 0) (nev.getD (i + 1) 0) (ev.getD i 0) (ev.getD (i + 1) 0)
    .ok ⟨i, i + 1, tp.1, tp.2, p, 1 - p⟩

/-- The numbers `analysis` reports. -/
structure AnalysisB where
  cramer : Flt
  tests : List PairTest
  quality : Flt

/-- `BinningTable.analysis` (binning_statistics.py:912-972): `nonevent`, `event` are the columns of the table with one
entry per row (regular, others, special, missing), `iv` and `hhiN` the totals computed by `build`. -/
noncomputable def analysisB (s : ScipyTests) (test : String) (nSamples : ℤ) (shuffle : List ℕ → List ℕ)
    (nonevent event : List ℕ) (nSpecials : ℕ) (others : Bool) (iv hhiN : ℝ) : Except String AnalysisB :=
  if test ≠ "chi2" ∧ test ≠ "fisher" then .error "ValueError"
  else if nSamples ≤ 0 then .error "ValueError"
  else
    let m := nMetric nonevent.length nSpecials others
    let nev := nonevent.take m
    let ev := event.take m
    match (if 2 ≤ nev.length then chi2CramerV nev ev else .ok (.real 0)) with
    | .error e => .error e
    | .ok v =>
      match (List.range (m - 1)).mapM (pairTestB s test nSamples.toNat shuffle nev ev) with
      | .error e => .error e
      | .ok tests => .ok ⟨v, tests, qualityFlt iv (tests.map PairTest.pvalue) hhiN⟩

/-- One row of the significance tests of the other two tables (1438-1443, 2001-2006). -/
structure PairTest2 where
  binA : ℕ
  binB : ℕ
  statistic : Flt
  pvalue : Flt

/-- binning_statistics.py:1431-1436: one iteration of the loop. -/
noncomputable def pairTestM (s : ScipyTests) (k : ℕ) (o : ℕ → ℕ → ℕ) (i : ℕ) : Except String PairTest2 :=
  match chi2Table 2 k (fun c j => o (i + c) j) with
  | .error e => .error e
  | .ok t => .ok ⟨i, i + 1, t.toFlt, s.pvalue (k - 1) t⟩

/-- `MulticlassBinningTable.analysis` (1417-1453): Cramer's V, the tests and the quality score; `cols` are the columns of
the table (one per class, one entry per row).  (For a single class the score divides by zero; not modelled.) -/
noncomputable def analysisM (s : ScipyTests) (cols : List (List ℕ)) (nSpecials : ℕ) (js hhiN : ℝ) :
    Except String (Flt × List PairTest2 × Flt) :=
  let m := nMetric (rowsM cols) nSpecials false
  let k := cols.length
  let o (i j : ℕ) : ℕ := (cols.getD j []).getD i 0
  match (if 2 ≤ m then chi2CramerVMulti m k o else .ok (.real 0)) with
  | .error e => .error e
  | .ok v =>
    match (List.range (m - 1)).mapM (pairTestM s k o) with
    | .error e => .error e
    | .ok tests => .ok (v, tests, qualityFlt (js / Real.log k) (tests.map PairTest2.pvalue) hhiN)

/-- A float of the t statistic. -/
inductive TVal
  | nan
  | neg
  | pos
  | real (r : ℝ)

/-- `scipy.stats.ttest_ind_from_stats(u, s, r, u2, s2, r2, False)`: the statistic, given the squares of the standard
deviations (a row without records has mean 0 and an undefined deviation). -/
noncomputable def welchT (u v : Option ℚ) (r : ℕ) (u2 v2 : Option ℚ) (r2 : ℕ) : TVal :=
  match u, v, u2, v2 with
  | some u, some v, some u2, some v2 =>
    if r = 0 ∨ r2 = 0 then .nan
    else if v / (r : ℚ) + v2 / (r2 : ℚ) = 0 then
      if u = u2 then .nan else if u < u2 then .neg else .pos
    else .real (((u - u2 : ℚ) : ℝ) / Real.sqrt ((v / (r : ℚ) + v2 / (r2 : ℚ) : ℚ) : ℝ))
  | _, _, _, _ => .nan

/-- `ContinuousBinningTable.analysis` (1974-2006): the compared bins and the t statistics. -/
noncomputable def analysisC (rows : List RowC) (nSpecials : ℕ) (others : Bool) : List (ℕ × ℕ × TVal) :=
  let m := nMetric rows.length nSpecials others
  let reg := rows.take m
  (List.range (m - 1)).map fun i =>
    match reg[i]?, reg[i + 1]? with
    | some a, some b => (i, i + 1, welchT a.mean a.var a.cnt b.mean b.var b.cnt)
    | _, _ => (i, i + 1, .nan)

end OptBinning
