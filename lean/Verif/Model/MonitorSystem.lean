import Verif.Model.Monitoring
import Verif.Model.Regression

/-!
# Model of `scorecard/monitoring.py`: significance tests, target table, variable table, reports and the object across fits
-/
namespace OptBinning

/-- The statistic of `scipy.stats.chi2_contingency(obs, correction=False)` for `obs = [[a, b], [c, d]]`: Pearson's sum of
`(observed - expected)² / expected`; it raises if an expected frequency is zero (an empty table gives NaN). -/
def chi2Contingency (a b c d : ℕ) : Except String XQ :=
  let n := a + b + c + d
  let e (r s : ℕ) : ℚ := (r : ℚ) * (s : ℚ) / (n : ℚ)
  let t (o r s : ℕ) : ℚ := ((o : ℚ) - e r s) ^ 2 / e r s
  if n = 0 then .ok .nan
  else if e (a + b) (a + c) = 0 ∨ e (a + b) (b + d) = 0 ∨ e (c + d) (a + c) = 0 ∨ e (c + d) (b + d) = 0 then .error "ValueError"
  else .ok (.num (t a (a + b) (a + c) + t b (a + b) (b + d) + t c (c + d) (a + c) + t d (c + d) (b + d)))

/-- A row of `tests_table()` for a binary target (the p-value is scipy's function of the statistic). -/
structure TestRow where
  countA : ℕ
  countE : ℕ
  rateA : XQ
  rateE : XQ
  statistic : XQ

/-- monitoring.py:611-625 for one bin; `a`, `e` are the numbers of non-events and events of the actual and expected sample. -/
def testRow (a e : ℕ × ℕ) : Except String TestRow :=
  match chi2Contingency a.1 e.1 a.2 e.2 with
  | .error m => .error m
  | .ok s => .ok ⟨a.1 + a.2, e.1 + e.2, XQ.div (a.2 : ℚ) ((a.1 + a.2 : ℕ) : ℚ), XQ.div (e.2 : ℚ) ((e.1 + e.2 : ℕ) : ℚ), s⟩

variable {α : Type} [LinearOrder α]

/-- `_system_tests_binary` (monitoring.py:604-637). -/
def testsBinary (splits : List α) (act exp : List (α × Bool)) : Except String (List TestRow) :=
  ((scoreCounts splits act).zip (scoreCounts splits exp)).mapM fun q => testRow q.1 q.2

/-- `np.mean` of an array. -/
def meanXQ (y : List ℚ) : XQ := if y = [] then .nan else .num (y.sum / (y.length : ℚ))

/-- Square of `np.std` (`ddof=0`) of an array. -/
def varXQ (y : List ℚ) : XQ :=
  if y = [] then .nan else .num ((y.map fun v => (v - y.sum / (y.length : ℚ)) ^ 2).sum / (y.length : ℚ))

/-- A row of `tests_table()` for a continuous target; statistic and p-value are scipy's functions of the other entries. -/
structure TestRowC where
  countA : ℕ
  countE : ℕ
  meanA : XQ
  meanE : XQ
  varA : XQ
  varE : XQ

/-- monitoring.py:536-545, 639-669 for records (score, target); `splits` as in the binary case. -/
def testsContinuous (splits : List α) (act exp : List (α × ℚ)) : List TestRowC :=
  (List.range (splits.length + 1)).map fun i =>
    let ya := (act.filter fun r => digitize true splits (some r.1) == i).map Prod.snd
    let ye := (exp.filter fun r => digitize true splits (some r.1) == i).map Prod.snd
    ⟨ya.length, ye.length, meanXQ ya, meanXQ ye, varXQ ya, varXQ ye⟩

/-- `_system_target_binary` (monitoring.py:671-694): records, events, non-events, share of events and of non-events. -/
structure TargetColumn where
  records : ℕ
  events : ℕ
  nonevents : ℕ
  eventShare : XQ
  noneventShare : XQ

def targetColumn (counts : List (ℕ × ℕ)) : TargetColumn :=
  let ne : ℕ := (counts.map Prod.fst).sum
  let e : ℕ := (counts.map Prod.snd).sum
  let n : ℕ := (counts.map fun q => q.1 + q.2).sum
  let rate := XQ.div (e : ℚ) (n : ℚ)
  ⟨n, e, ne, rate, (match rate with | .num q => .num (1 - q) | x => x)⟩

/-- A row of `psi_table()` without the totals, or of the table of a variable (monitoring.py:590-597, 804-812). -/
structure PsiRow where
  countA : ℕ
  countE : ℕ
  shareA : ℝ
  shareE : ℝ
  psi : Flt

/-- monitoring.py:582-597, 796-812. -/
noncomputable def psiRows (t : List (ℕ × ℕ)) : Except String (List PsiRow) :=
  match systemPsi t with
  | .error m => .error m
  | .ok (psi, _) => .ok (List.zipWith (fun q f => ⟨q.1, q.2, (q.1 : ℝ) / ((t.map Prod.fst).sum : ℝ), (q.2 : ℝ) / ((t.map Prod.snd).sum : ℝ), f⟩) t psi)

/-- `_fit_variables` (monitoring.py:776-817): for every variable the rows of its table, from the indices of the bins of the
actual and the expected records.  (The labels of the bins are taken from the scorecard.) -/
noncomputable def monitorVariables (vars : List (String × List ℤ × List ℤ)) : Except String (List (String × PsiRow)) :=
  match vars.mapM fun v => (psiRows (variableCounts v.2.1 v.2.2)).map fun rows => rows.map fun r => (v.1, r) with
  | .error m => .error m
  | .ok l => .ok l.flatten

/-- `sum` of pandas skips NaN. -/
noncomputable def pandasSum (l : List Flt) : Flt := fltSum (l.filter fun f => match f with | .nan => false | _ => true)

/-- `psi_variable_table(name, style="summary")` (monitoring.py:386-397). -/
noncomputable def variableSummary (table : List (String × PsiRow)) (name : String) : Flt :=
  pandasSum ((table.filter fun r => r.1 == name).map fun r => r.2.psi)

/-- `psi_variable_table(name, style="detailed")` (monitoring.py:394, 399). -/
noncomputable def variableDetail (table : List (String × PsiRow)) (name : String) : List (String × PsiRow) :=
  table.filter fun r => r.1 == name

/-- monitoring.py:77-84: index in the histogram of PSI values (`np.digitize(psi, [0.1, 0.25], right=True)`, NaN last). -/
noncomputable def psiHistogramBin : Flt → ℕ
  | .real r => (if (1 / 10 : ℝ) < r then 1 else 0) + (if (1 / 4 : ℝ) < r then 1 else 0)
  | _ => 2

/-- monitoring.py:81-84. -/
noncomputable def psiHistogram (psi : List Flt) : List ℕ := (List.range 3).map fun i => psi.countP fun f => psiHistogramBin f == i

/-- monitoring.py:87: the verdict on the total (`np.digitize(t_psi, [0.1, 0.25])`). -/
noncomputable def psiVerdict : Flt → String
  | .real r => if r < 1 / 10 then "No significant change" else if r < 1 / 4 then "Requires investigation" else "Significance change"
  | _ => "Significance change"

/-- The arguments of one call of `fit` (binary target), after the scorecard computed scores, predictions and bin indices;
`invalid` is the exception of the argument checks, `splits` the pre-binning of the expected scores, `performance` the
performance table or its exception. -/
structure MonitorInput (α Perf : Type) where
  invalid : Option String := none
  splits : List α
  act : List (α × Bool)
  exp : List (α × Bool)
  performance : Except String Perf
  vars : List (String × List ℤ × List ℤ)

/-- The attributes of a `ScorecardMonitoring` object. -/
structure Monitor (α Perf : Type) where
  fitted : Bool := false
  target : Option (TargetColumn × TargetColumn) := none
  psi : Option (List PsiRow × Flt) := none
  tests : Option (List TestRow) := none
  performance : Option Perf := none
  splits : Option (List α) := none
  perVariable : Option (List (String × PsiRow)) := none

variable {Perf : Type}

/-- monitoring.py:582-602: rows and total. -/
noncomputable def psiTable (t : List (ℕ × ℕ)) : Except String (List PsiRow × Flt) :=
  match psiRows t, systemPsi t with
  | .ok rows, .ok (_, s) => .ok (rows, s)
  | .error m, _ => .error m
  | _, .error m => .error m

/-- `fit` (monitoring.py:225-314): the attributes afterwards and the exception, if one is raised. -/
noncomputable def Monitor.fit (s : Monitor α Perf) (i : MonitorInput α Perf) : Monitor α Perf × Option String :=
  match i.invalid with
  | some m => (s, some m)
  | none =>
    let s := { s with target := some (targetColumn (scoreCounts i.splits i.act), targetColumn (scoreCounts i.splits i.exp)) }
    match psiTable (systemCounts i.splits i.act i.exp) with
    | .error m => (s, some m)
    | .ok t =>
      let s := { s with psi := some t }
      match testsBinary i.splits i.act i.exp with
      | .error m => (s, some m)
      | .ok t =>
        let s := { s with tests := some t }
        match i.performance with
        | .error m => (s, some m)
        | .ok p =>
          let s := { s with performance := some p, splits := some i.splits }
          match monitorVariables i.vars with
          | .error m => (s, some m)
          | .ok v => ({ s with perVariable := some v, fitted := true }, none)

/-- A history of calls of `fit` on a new object. -/
noncomputable def Monitor.run (h : List (MonitorInput α Perf)) : Monitor α Perf := h.foldl (fun s i => (s.fit i).1) {}

/-- `psi_table()`, … (monitoring.py:351-419, 819-823): an attribute, if the object is fitted. -/
def Monitor.get {β : Type} (s : Monitor α Perf) (f : Monitor α Perf → Option β) : Except String β :=
  if s.fitted then (match f s with | some x => .ok x | none => .error "None") else .error "NotFittedError"

end OptBinning
