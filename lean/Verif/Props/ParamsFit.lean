import Verif.Props.Params
import Mathlib.Tactic.IntervalCases

/-!
# C99, C102: `analysis` after a fit for all divergences; concrete fits
-/
namespace OptBinning
open Finset Spec

section
variable {α : Type*} [LinearOrder α]

/-- C99: after every successful fit, whatever the divergence and the other arguments, `analysis` with the chi-square test
succeeds and compares all neighbouring bins. -/
theorem C99_fit_succeeds (p : Params) (hull : List ℚ → Option ℚ) (stale : Bool) (pv : ℕ → ℕ → ℕ → ℕ → ℝ) (sc : SpecialCodes α)
    (so : SplitOpts α) (prebin : List (Rec α) → List α) (solver : Solver) (recs : List (Rec α)) (f : Fitted α)
    (hr : Respects (p.cfg hull stale pv recs.length) solver) (h : fitParams p sc so prebin solver recs = .ok f)
    (s : ScipyTests) (nSamples : ℤ) (hn : 0 < nSamples) (shuffle : List ℕ → List ℕ) (iv hhiN : ℝ) :
    ∃ r, analysisB s "chi2" nSamples shuffle f.nonevent f.event sc.count false iv hhiN = .ok r ∧
      r.tests.length = f.splits.length := by
  obtain ⟨ne, e, ht, hl, -⟩ := fitNumerical_table (fun nev ev hn => hr.last nev ev hn) (fitParams_fit h)
  cases ha : analysisB s "chi2" nSamples shuffle f.nonevent f.event sc.count false iv hhiN with
  | ok r => exact ⟨r, rfl, by have := (C99_pairs s nSamples shuffle _ _ _ _ iv hhiN ne e ht r ha).1; omega⟩
  | error m =>
    exfalso
    obtain ⟨h2, -, hbad⟩ := (C99_fails s nSamples shuffle _ _ _ _ iv hhiN ne e ht hn).1 ⟨m, ha⟩
    have hne : f.splits ≠ [] := fun hc => by rw [hc] at hl; simp at hl; omega
    obtain ⟨-, -, hpos⟩ := C102_limits p hull stale pv sc so prebin solver recs f hr h hne
    obtain ⟨t1, ht1, -⟩ := ht.nonevent
    obtain ⟨t2, ht2⟩ := ht.event
    have hs := ht.same
    have g : ∀ k < ne.length, 0 < ne.getD k 0 ∧ 0 < e.getD k 0 := by
      intro k hk
      obtain ⟨-, -, -, -, -, -, a, b⟩ := hpos k (by omega) _ _ rfl rfl
      rw [ht1, List.getD_append _ _ _ _ hk] at a
      rw [ht2, List.getD_append _ _ _ _ (by omega)] at b
      exact ⟨a, b⟩
    rcases hbad with ⟨i, hi, h3, -⟩ | ⟨i, hi, ⟨h3, -⟩ | ⟨h3, -⟩⟩
    · have := (g i hi).1; omega
    · have := (g i (by omega)).1; omega
    · have := (g i (by omega)).2; omega

/-- C15 on the table, `solver="mip"`: no two consecutive regular rows (no two regular rows with policy "all") fail the proportion test. -/
theorem C15_table_mip {cfg : PrebinCfg} {sc : SpecialCodes α} {so : SplitOpts α} {prebin : List (Rec α) → List α}
    {solver : Solver} {c : SolverCfg} {o : Opts} {recs : List (Rec α)} {f : Fitted α} {reg : ℝ} (ho : ∀ nev ev, c.opts nev ev = o) (hsolver : RespectsMIP c reg solver)
    (h : fitNumerical cfg sc so prebin solver recs = .ok f) (hs : f.Solved) {t : ℕ → ℕ → ℕ → ℕ → Bool}
    (ht : c.test = some t) {k k' : ℕ} (hkk : k < k') (hk' : k' ≤ f.splits.length)
    (hpol : c.policy = .consecutive → k' = k + 1) :
    t (f.event.getD k 0) (f.nonevent.getD k 0) (f.event.getD k' 0) (f.nonevent.getD k' 0) = false := by
  have hne : f.splits ≠ [] := fun hc => by rw [hc] at hk'; simp at hk'; omega
  obtain ⟨inp, sol, hw, htt, hpp, -, ha, hsep, -, hn, hrow⟩ := table_mip ho hsolver h hs hne
  obtain ⟨s, e, hb, hbk, e1, e2⟩ := hrow k (by omega)
  obtain ⟨s', e', hb', hbk', e1', e2'⟩ := hrow k' hk'
  have hlt := bin_lt hb hb' (by omega)
  have := hsep s e s' e' hb hb' hlt (fun hp => by
    have hk1 := hpol (hpp ▸ hp)
    have h1 : binOf sol (e + 1) = k + 1 := by
      have := binOf_succ sol e
      rw [hb.2.2.1] at this
      simpa [hbk] using this
    have h2 := (binOf_iff hb' (e + 1)).1 (by omega)
    omega)
  unfold failsTest at this
  push Not at this
  have h3 := this t (htt.trans ht)
  rw [e1, e2, e1', e2'] at h3
  simpa using h3

/-- C14 on the table, `solver="cp"`: consecutive regular rows differ by `min_event_rate_diff` up to 2e-6. -/
theorem C14_table_cp {cfg : PrebinCfg} {sc : SpecialCodes α} {so : SplitOpts α} {prebin : List (Rec α) → List α}
    {solver : Solver} {c : SolverCfg} {o : Opts} {recs : List (Rec α)} {f : Fitted α} {reg : ℤ} (ho : ∀ nev ev, c.opts nev ev = o)
    (hsolver : RespectsCP c reg solver) (h : fitNumerical cfg sc so prebin solver recs = .ok f) (hs : f.Solved) {k : ℕ}
    (hk : k + 1 ≤ f.splits.length) : c.minDiff - 1 / 500000 < |f.rate k - f.rate (k + 1)| := by
  have hne : f.splits ≠ [] := fun hc => by rw [hc] at hk; simp at hk
  obtain ⟨inp, sol, -, -, -, hd, ha, -, hsep, hn, hrow⟩ := table_cp ho hsolver h hs hne
  obtain ⟨s, e, hb, hbk, e1, e2⟩ := hrow k (by omega)
  obtain ⟨s', e', hb', hbk', e1', e2'⟩ := hrow (k + 1) hk
  have hlt := bin_lt hb hb' (by omega)
  have hcons : s' = e + 1 := by
    have h1 : binOf sol (e + 1) = k + 1 := by
      have := binOf_succ sol e
      rw [hb.2.2.1] at this
      simpa [hbk] using this
    have h2 := (binOf_iff hb' (e + 1)).1 (by omega)
    omega
  rw [← rate_row e1 e2, ← rate_row e1' e2', ← hd]
  rcases le_or_gt inp.minDiff 0 with h0 | h0
  · have := abs_nonneg (eventRate inp.ne inp.ev s e - eventRate inp.ne inp.ev s' e')
    linarith
  · have := hsep s e s' e' hb hb' hlt (fun _ => hcons)
    unfold tooClose6 rate6 at this
    push Not at this
    have h1 := this h0
    generalize eventRate inp.ne inp.ev s e = a at *
    generalize eventRate inp.ne inp.ev s' e' = b at *
    have f1 := Int.floor_le (a * 1000000)
    have f2 := Int.lt_floor_add_one (a * 1000000)
    have f3 := Int.floor_le (b * 1000000)
    have f4 := Int.lt_floor_add_one (b * 1000000)
    have f5 := Int.lt_floor_add_one (inp.minDiff * 1000000)
    have h2 : (⌊inp.minDiff * 1000000⌋ : ℚ) ≤ |(⌊a * 1000000⌋ : ℚ) - (⌊b * 1000000⌋ : ℚ)| := by exact_mod_cast h1
    rcases le_total (⌊b * 1000000⌋ : ℚ) (⌊a * 1000000⌋ : ℚ) with hab | hab
    · rw [abs_of_nonneg (by linarith)] at h2
      have := le_abs_self (a - b)
      linarith
    · rw [abs_of_nonpos (by linarith)] at h2
      have := neg_abs_le (a - b)
      linarith

/-- `C102_min_diff_mip` for a fit whose options are computed from `N` records. -/
theorem min_diff_mip_of_size {N : ℕ} (p : Params) (hull : List ℚ → Option ℚ) (stale : Bool) (pv : ℕ → ℕ → ℕ → ℕ → ℝ) (sc : SpecialCodes α)
    (so : SplitOpts α) (prebin : List (Rec α) → List α) (solver : Solver) (recs : List (Rec α)) (f : Fitted α) (reg : ℝ)
    (hr : RespectsMIP (p.cfg hull stale pv N) reg solver) (h : fitParams p sc so prebin solver recs = .ok f)
    (v : ℚ) (hv : p.minRateDiff = .num v) (k : ℕ) (hk : k + 1 ≤ f.splits.length) :
    v ≤ |rateOfRow f.nonevent f.event k - rateOfRow f.nonevent f.event (k + 1)| := by
  have hfit := fitParams_fit h
  have hne : f.splits ≠ [] := fun hc => by rw [hc] at hk; simp at hk
  have hs := solved_of_splits (fun nev ev hn => Respects.last (Or.inr ⟨reg, hr⟩) nev ev hn) hfit hne
  obtain ⟨nev, ev, h1, h2, -, s', hf, -, hmip⟩ := fitNumerical_const (c := p.cfg hull stale pv N) hne hfit
  have := C14_table_mip (fun _ _ => rfl) (hmip reg hr) hf hs hk
  have hd : (p.cfg hull stale pv N).minDiff = v := by unfold Params.cfg; rw [hv]; rfl
  rw [← hd]
  exact this

/-- C102: `min_event_rate_diff`: the event rates of neighbouring bins differ by at least this much (`solver="mip"`). -/
theorem C102_min_diff_mip (p : Params) (hull : List ℚ → Option ℚ) (stale : Bool) (pv : ℕ → ℕ → ℕ → ℕ → ℝ) (sc : SpecialCodes α)
    (so : SplitOpts α) (prebin : List (Rec α) → List α) (solver : Solver) (recs : List (Rec α)) (f : Fitted α) (reg : ℝ)
    (hr : RespectsMIP (p.cfg hull stale pv recs.length) reg solver) (h : fitParams p sc so prebin solver recs = .ok f)
    (v : ℚ) (hv : p.minRateDiff = .num v) (k : ℕ) (hk : k + 1 ≤ f.splits.length) :
    v ≤ |rateOfRow f.nonevent f.event k - rateOfRow f.nonevent f.event (k + 1)| :=
  min_diff_mip_of_size p hull stale pv sc so prebin solver recs f reg hr h v hv k hk

/-- `C102_min_diff_cp` for a fit whose options are computed from `N` records. -/
theorem min_diff_cp_of_size {N : ℕ} (p : Params) (hull : List ℚ → Option ℚ) (stale : Bool) (pv : ℕ → ℕ → ℕ → ℕ → ℝ) (sc : SpecialCodes α)
    (so : SplitOpts α) (prebin : List (Rec α) → List α) (solver : Solver) (recs : List (Rec α)) (f : Fitted α) (reg : ℤ)
    (hr : RespectsCP (p.cfg hull stale pv N) reg solver) (h : fitParams p sc so prebin solver recs = .ok f)
    (v : ℚ) (hv : p.minRateDiff = .num v) (k : ℕ) (hk : k + 1 ≤ f.splits.length) :
    v - 2 / 1000000 < |rateOfRow f.nonevent f.event k - rateOfRow f.nonevent f.event (k + 1)| := by
  have hfit := fitParams_fit h
  have hne : f.splits ≠ [] := fun hc => by rw [hc] at hk; simp at hk
  have hs := solved_of_splits (fun nev ev hn => Respects.last (Or.inl ⟨reg, hr⟩) nev ev hn) hfit hne
  obtain ⟨nev, ev, h1, h2, -, s', hf, hcp, -⟩ := fitNumerical_const (c := p.cfg hull stale pv N) hne hfit
  have := C14_table_cp (fun _ _ => rfl) (hcp reg hr) hf hs hk
  have hd : (p.cfg hull stale pv N).minDiff = v := by unfold Params.cfg; rw [hv]; rfl
  rw [← hd]
  refine lt_of_le_of_lt (le_of_eq ?_) this
  norm_num

/-- C102: the same with `solver="cp"`, up to 2e-6. -/
theorem C102_min_diff_cp (p : Params) (hull : List ℚ → Option ℚ) (stale : Bool) (pv : ℕ → ℕ → ℕ → ℕ → ℝ) (sc : SpecialCodes α)
    (so : SplitOpts α) (prebin : List (Rec α) → List α) (solver : Solver) (recs : List (Rec α)) (f : Fitted α) (reg : ℤ)
    (hr : RespectsCP (p.cfg hull stale pv recs.length) reg solver) (h : fitParams p sc so prebin solver recs = .ok f)
    (v : ℚ) (hv : p.minRateDiff = .num v) (k : ℕ) (hk : k + 1 ≤ f.splits.length) :
    v - 2 / 1000000 < |rateOfRow f.nonevent f.event k - rateOfRow f.nonevent f.event (k + 1)| :=
  min_diff_cp_of_size p hull stale pv sc so prebin solver recs f reg hr h v hv k hk

/-- C102: arguments outside the documented ranges make `fit` raise `ValueError`, whatever the data. -/
theorem C102_refused (p : Params) (sc : SpecialCodes α) (so : SplitOpts α) (prebin : List (Rec α) → List α) (solver : Solver)
    (recs : List (Rec α)) (hbad : (∀ g t, ¬ ValidParams { p with gamma := .num |g|, timeLimit := .num |t| }) ∨
      (∃ g t, p.gamma = .num g ∧ p.timeLimit = .num t ∧ ¬ ValidParams p)) :
    fitParams p sc so prebin solver recs = .error "ValueError" := by
  unfold fitParams
  obtain ⟨-, h2, h3⟩ := C102_checks p
  rcases h3 with h3 | h3
  · rcases hbad with hbad | ⟨g, t, hg, ht, hbad⟩
    · exact absurd ((h2 h3).2 0 0) (hbad 0 0)
    · exact absurd ((h2 h3).1 g t hg ht) hbad
  · rw [h3]

/-- `C102_pvalues` for a fit whose options are computed from `N` records. -/
theorem pvalues_of_size {N : ℕ} (p : Params) (hull : List ℚ → Option ℚ) (stale : Bool) (pv : ℕ → ℕ → ℕ → ℕ → ℝ) (sc : SpecialCodes α)
    (so : SplitOpts α) (prebin : List (Rec α) → List α) (solver : Solver) (recs : List (Rec α)) (f : Fitted α)
    (hr : Respects (p.cfg hull stale pv N) solver) (h : fitParams p sc so prebin solver recs = .ok f)
    (v : ℚ) (hv : p.maxPvalue = some (.num v)) (k k' : ℕ) (hkk : k < k') (hk' : k' ≤ f.splits.length)
    (hpol : p.policy = .consecutive → k' = k + 1) :
    pv (f.event.getD k 0) (f.nonevent.getD k 0) (f.event.getD k' 0) (f.nonevent.getD k' 0) ≤ (v : ℝ) := by
  have hfit := fitParams_fit h
  have hne : f.splits ≠ [] := fun hc => by rw [hc] at hk'; simp at hk'; omega
  have hs := solved_of_splits (fun nev ev hn => hr.last nev ev hn) hfit hne
  obtain ⟨nev, ev, h1, h2, -, s', hf, hcp, hmip⟩ := fitNumerical_const (c := p.cfg hull stale pv N) hne hfit
  have ht : (p.cfg hull stale pv N).test = some fun e₁ ne₁ e₂ ne₂ => decide ((v : ℝ) < pv e₁ ne₁ e₂ ne₂) := by
    unfold Params.cfg
    simp only [hv, Option.map_some]
    rfl
  have key : decide ((v : ℝ) < pv (f.event.getD k 0) (f.nonevent.getD k 0) (f.event.getD k' 0) (f.nonevent.getD k' 0)) = false := by
    rcases hr with ⟨reg, hr⟩ | ⟨reg, hr⟩
    · exact C15_table_cp (c := { p.cfg hull stale pv N with opts := fun _ _ => (p.cfg hull stale pv N).opts nev ev })
        (fun _ _ => rfl) (hcp reg hr) hf hs ht hkk hk' hpol
    · exact C15_table_mip (c := { p.cfg hull stale pv N with opts := fun _ _ => (p.cfg hull stale pv N).opts nev ev })
        (fun _ _ => rfl) (hmip reg hr) hf hs ht hkk hk' hpol
  rw [decide_eq_false_iff_not, not_lt] at key
  exact key

/-- C102: `max_pvalue`: the p-value of the proportion test of two neighbouring bins (any two bins with policy "all") is at most
`max_pvalue`. -/
theorem C102_pvalues (p : Params) (hull : List ℚ → Option ℚ) (stale : Bool) (pv : ℕ → ℕ → ℕ → ℕ → ℝ) (sc : SpecialCodes α)
    (so : SplitOpts α) (prebin : List (Rec α) → List α) (solver : Solver) (recs : List (Rec α)) (f : Fitted α)
    (hr : Respects (p.cfg hull stale pv recs.length) solver) (h : fitParams p sc so prebin solver recs = .ok f)
    (v : ℚ) (hv : p.maxPvalue = some (.num v)) (k k' : ℕ) (hkk : k < k') (hk' : k' ≤ f.splits.length)
    (hpol : p.policy = .consecutive → k' = k + 1) :
    pv (f.event.getD k 0) (f.nonevent.getD k 0) (f.event.getD k' 0) (f.nonevent.getD k' 0) ≤ (v : ℝ) :=
  pvalues_of_size p hull stale pv sc so prebin solver recs f hr h v hv k k' hkk hk' hpol

/-- C99: after a fit with `max_pvalue` (of the proportion test with the chi-square distribution function `s.sf 1`) every p-value
reported by `analysis` is at most `max_pvalue`. -/
theorem C99_fit_pvalues (p : Params) (hull : List ℚ → Option ℚ) (stale : Bool) (s : ScipyTests) (sc : SpecialCodes α)
    (so : SplitOpts α) (prebin : List (Rec α) → List α) (solver : Solver) (recs : List (Rec α)) (f : Fitted α)
    (hr : Respects (p.cfg hull stale (fun e₁ ne₁ e₂ ne₂ => s.sf 1 (zSquared e₁ ne₁ e₂ ne₂)) recs.length) solver)
    (h : fitParams p sc so prebin solver recs = .ok f) (v : ℚ) (hv : p.maxPvalue = some (.num v))
    (nSamples : ℤ) (shuffle : List ℕ → List ℕ) (iv hhiN : ℝ) (r : AnalysisB)
    (ha : analysisB s "chi2" nSamples shuffle f.nonevent f.event sc.count false iv hhiN = .ok r) :
    ∀ t ∈ r.tests, ∃ x, t.pvalue = .real x ∧ x ≤ (v : ℝ) := by
  obtain ⟨ne, e, htb, hl, -⟩ := fitNumerical_table (fun nev ev hn => hr.last nev ev hn) (fitParams_fit h)
  obtain ⟨hlen, hpairs⟩ := C99_pairs s nSamples shuffle _ _ _ _ iv hhiN ne e htb r ha
  intro t htm
  obtain ⟨i, hi, rfl⟩ := List.mem_iff_getElem.1 htm
  obtain ⟨t', ht', -, -, -, hcase⟩ := hpairs i (by omega)
  rw [List.getElem?_eq_getElem hi] at ht'
  injection ht' with ht'
  subst ht'
  have hne : f.splits ≠ [] := fun hc => by rw [hc] at hl; simp at hl; omega
  obtain ⟨tn, hn1, -⟩ := htb.nonevent
  obtain ⟨te, he1⟩ := htb.event
  have g1 : ∀ j < ne.length, f.nonevent.getD j 0 = ne.getD j 0 := fun j hj => by rw [hn1, List.getD_append _ _ _ _ hj]
  have g2 : ∀ j < ne.length, f.event.getD j 0 = e.getD j 0 := fun j hj => by
    rw [he1, List.getD_append _ _ _ _ (by rw [htb.same]; exact hj)]
  rcases hcase with ⟨h0, -⟩ | ⟨-, -, z, hz, -, -, -, hpv⟩
  · exfalso
    obtain ⟨-, -, hpos⟩ := C102_limits p hull stale _ sc so prebin solver recs f hr h hne
    obtain ⟨-, -, -, -, -, -, a, -⟩ := hpos i (by omega) _ _ rfl rfl
    rw [g1 i (by omega)] at a
    omega
  · refine ⟨_, hpv, ?_⟩
    have key := C102_pvalues p hull stale _ sc so prebin solver recs f hr h v hv i (i + 1) (by omega) (by omega) (fun _ => rfl)
    rw [g1 i (by omega), g1 (i + 1) (by omega), g2 i (by omega), g2 (i + 1) (by omega), ← hz] at key
    exact key

end

/-! ### concrete fits -/

/-- Five records, two values. -/
def fiveRecs : List (Rec ℕ) :=
  [⟨some 0, some true, 1⟩, ⟨some 0, some false, 1⟩, ⟨some 0, some false, 1⟩, ⟨some 1, some true, 1⟩, ⟨some 1, some false, 1⟩]

/-- `OptimalBinning(monotonic_trend=None, min_bin_size=0.4, max_bin_size=0.5)`. -/
def fiveParams : Params := { trend := .none, minBinSize := some (.num (2 / 5)), maxBinSize := some (.num (1 / 2)) }

theorem fiveAccepted : checkParameters fiveParams = .ok () := by decide +kernel

theorem fiveSolve (hull : List ℚ → Option ℚ) (pv : ℕ → ℕ → ℕ → ℕ → ℝ) :
    ∃ c, c = fiveParams.cfg hull false pv fiveRecs.length ∧ Respects c (keepAll c) ∧
      solve 2 (keepAll c [2, 1] [1, 1]) = ("FEASIBLE", [true, true]) := by
  set c := fiveParams.cfg hull false pv fiveRecs.length with hc
  refine ⟨c, rfl, Or.inl ⟨0, keepAll_respects c⟩, ?_⟩
  have hopt : c.opts [2, 1] [1, 1] = { minSize := some 2, maxSize := some 3 } := by
    have e1 : ceilSize 5 (.num (2 / 5)) = 2 := by decide +kernel
    have e2 : ceilSize 5 (.num (1 / 2)) = 3 := by decide +kernel
    have hl : fiveRecs.length = 5 := rfl
    simp only [hc, Params.cfg, Params.options, fiveParams, resolveTrend, bind, Except.bind, pure, Except.pure, Option.map_some, hl, e1, e2]
    rfl
  have hne : (c.input [2, 1] [1, 1]).ne = fun k => (([2, 1].getD k 0 : ℕ) : ℤ) := rfl
  have hev : (c.input [2, 1] [1, 1]).ev = fun k => (([1, 1].getD k 0 : ℕ) : ℤ) := rfl
  have hacc : ∃ a, acceptsCP (c.opts [2, 1] [1, 1]) (c.input [2, 1] [1, 1]) a ∧ (fun k => a.x k k != 0) = fun _ => true := by
    rw [hopt]
    refine acceptsCP.complete ⟨rfl, show 0 < 2 by decide⟩ ⟨Or.inl (Or.inl rfl), by simp, by simp⟩ ?_ ?_ ?_
    · have hb : ∀ s e, IsBin (c.input [2, 1] [1, 1]).n (fun _ => true) s e → s = e ∧ e < 2 := by
        intro s e h
        have h1 : e < 2 := h.2.1
        have h2 := h.1
        refine ⟨?_, h1⟩
        by_contra hne
        have := h.2.2.2.2 s (le_refl s) (by omega)
        simp at this
      refine ⟨⟨show 0 < 2 by decide, rfl⟩, by simp [AtLeast], by simp [AtMost], ?_, ?_,
        by simp [AtLeast], by simp [AtMost], by simp [AtLeast], by simp [AtMost], trivial, by simp⟩
      · intro s e h b hb2
        obtain ⟨rfl, h2⟩ := hb s e h
        simp only [Option.some.injEq] at hb2
        subst hb2
        rw [binTotal, binTotal, Finset.Icc_self, Finset.sum_singleton, Finset.sum_singleton, hne, hev]
        interval_cases s <;> simp
      · intro s e h b hb2
        obtain ⟨rfl, h2⟩ := hb s e h
        simp only [Option.some.injEq] at hb2
        subst hb2
        rw [binTotal, binTotal, Finset.Icc_self, Finset.sum_singleton, Finset.sum_singleton, hne, hev]
        interval_cases s <;> simp
    · rintro s e s' e' - - - - ⟨t, ht, -⟩
      simp [hc, Params.cfg, fiveParams, SolverCfg.input] at ht
    · rintro s e s' e' - - - - ⟨h, -⟩
      simp [hc, Params.cfg, fiveParams, SolverCfg.input, XQ.value] at h
  exact keepAll_solve c _ _ hacc

theorem fiveFit (hull : List ℚ → Option ℚ) (pv : ℕ → ℕ → ℕ → ℕ → ℝ) :
    ∃ c, c = fiveParams.cfg hull false pv fiveRecs.length ∧ Respects c (keepAll c) ∧
      fitParams fiveParams .none {} (fun _ => [1]) (keepAll c) fiveRecs = .ok ⟨"FEASIBLE", [1], [2, 1, 0, 0], [1, 1, 0, 0]⟩ := by
  obtain ⟨c, hc, hr, hsol⟩ := fiveSolve hull pv
  refine ⟨c, hc, hr, ?_⟩
  have h1 : prebinCounts false 2 [1] (splitData .none {} fiveRecs).clean false = [2, 1] := by decide +kernel
  have h2 : prebinCounts false 2 [1] (splitData .none {} fiveRecs).clean true = [1, 1] := by decide +kernel
  have h0 : computePrebins { keepPure := false } (splitData .none {} fiveRecs).clean {} [1] = .ok ⟨{}, [1], [2, 1], [1, 1]⟩ := by
    rw [computePrebins]
    simp [prebinNumber, h1, h2, pureMask]
  have hs : ∀ e, specialCounts .none (splitData .none {} fiveRecs).special e = [0] := by decide +kernel
  have hm : ∀ e, truncWeight ((splitData .none {} fiveRecs).missing.filter fun q => q.isEvent == e) = 0 := by decide +kernel
  have hfo : fitOptimizer false (keepAll c) [1] [2, 1] [1, 1] = ⟨"FEASIBLE", [1], [true, true]⟩ := by
    have : ([2, 1] : List ℕ).length = 2 := rfl
    rw [fitOptimizer, this, hsol]; rfl
  unfold fitParams
  rw [fiveAccepted]
  have hk : fiveParams.divergence.keepsPure = false := rfl
  simp only [hk, fitNumerical, fitFrom, fitCore, h0, bind, Except.bind, pure, Except.pure, hs, hm, hfo]
  rfl

/-- Non-vacuity of `C102_limits`: both bins of this fit have at least 0.4 * 5 records. -/
example (hull : List ℚ → Option ℚ) (pv : ℕ → ℕ → ℕ → ℕ → ℝ) : ∃ solver, Respects (fiveParams.cfg hull false pv fiveRecs.length) solver ∧
    ∃ f : Fitted ℕ, fitParams fiveParams .none {} (fun _ => [1]) solver fiveRecs = .ok f ∧ f.splits ≠ [] := by
  obtain ⟨c, rfl, hr, hf⟩ := fiveFit hull pv
  exact ⟨_, hr, _, hf, by simp⟩

/-- Non-vacuity of `C102_refused`. -/
example (g t : ℚ) : ¬ ValidParams { ({ minBinSize := some (.num (3 / 5)) } : Params) with gamma := .num |g|, timeLimit := .num |t| } := by
  intro h
  obtain ⟨q, hq, -, h2⟩ := h.minBinSize _ rfl
  simp only [XQ.num.injEq] at hq
  subst hq
  norm_num at h2

/-- Finding: a bin may contain more than the fraction `max_bin_size` of the records (the limit is rounded up): here 3 of 5
records with `max_bin_size=0.5`. -/
theorem C102_max_size_exceeded : ∃ (p : Params) (recs : List (Rec ℕ)) (solver : Solver) (f : Fitted ℕ) (q : ℚ),
    Respects (p.cfg (fun _ => none) false (fun _ _ _ _ => 0) recs.length) solver ∧ KnownTargets recs ∧ (∀ r ∈ recs, r.w = 1) ∧
    fitParams p .none {} (fun _ => [1]) solver recs = .ok f ∧ f.splits ≠ [] ∧ p.maxBinSize = some (.num q) ∧
    q * (recs.length : ℚ) < ((f.nonevent.getD 0 0 + f.event.getD 0 0 : ℕ) : ℚ) := by
  obtain ⟨c, rfl, hr, hf⟩ := fiveFit (fun _ => none) (fun _ _ _ _ => 0)
  refine ⟨fiveParams, fiveRecs, _, _, 1 / 2, hr, ?_, ?_, hf, by simp, rfl, ?_⟩
  · unfold KnownTargets fiveRecs; simp
  · unfold fiveRecs; simp
  · have : fiveRecs.length = 5 := rfl
    rw [this]
    norm_num

/-- C102: with `divergence` "hellinger" or "triangular" pre-bins without event or without non-event are not removed: the solver is
given the counts of all intervals of the pre-binning splits, and the returned splits are selected from all of them. -/
theorem C102_pure_kept [LinearOrder α] (p : Params) (sc : SpecialCodes α) (so : SplitOpts α) (prebin : List (Rec α) → List α) (solver : Solver)
    (recs : List (Rec α)) (f : Fitted α) (hd : p.divergence = .hellinger ∨ p.divergence = .triangular)
    (h : fitParams p sc so prebin solver recs = .ok f) (hne : prebin (splitData sc so recs).clean ≠ []) :
    ∃ nev ev : List ℕ, nev.length = (prebin (splitData sc so recs).clean).length + 1 ∧
      ev.length = (prebin (splitData sc so recs).clean).length + 1 ∧
      (∀ i ≤ (prebin (splitData sc so recs).clean).length,
        nev.getD i 0 = truncWeight ((splitData sc so recs).clean.filter fun r =>
          !r.isEvent && digitize false (prebin (splitData sc so recs).clean) r.x == i) ∧
        ev.getD i 0 = truncWeight ((splitData sc so recs).clean.filter fun r =>
          r.isEvent && digitize false (prebin (splitData sc so recs).clean) r.x == i)) ∧
      f.status = (solve nev.length (solver nev ev)).1 ∧
      f.splits = select (prebin (splitData sc so recs).clean) (solve nev.length (solver nev ev)).2.dropLast := by
  have hk : p.divergence.keepsPure = true := by rcases hd with hd | hd <;> rw [hd] <;> rfl
  have hfit := fitParams_fit h
  rw [hk] at hfit
  set splits := prebin (splitData sc so recs).clean with hsp
  have hlen : splits.length ≠ 0 := by simpa using hne
  have hpb : ∃ st, computePrebins { keepPure := true } (splitData sc so recs).clean {} splits =
      .ok ⟨st, splits, prebinCounts false (splits.length + 1) splits (splitData sc so recs).clean false,
        prebinCounts false (splits.length + 1) splits (splitData sc so recs).clean true⟩ := by
    rw [computePrebins]
    simp only [dif_neg hlen, prebinNumber, Bool.false_eq_true, if_false, if_true]
    split_ifs <;> exact ⟨_, rfl⟩
  obtain ⟨st, hst⟩ := hpb
  simp only [fitNumerical, fitFrom, fitCore, ← hsp, hst, bind, Except.bind, pure, Except.pure, Except.ok.injEq] at hfit
  refine ⟨_, _, length_prebinCounts false (splits.length + 1) splits (splitData sc so recs).clean false, length_prebinCounts false (splits.length + 1) splits (splitData sc so recs).clean true, ?_, ?_, ?_⟩
  · intro i hi
    constructor <;> simp [prebinCounts, List.getD_eq_getElem?_getD, List.getElem?_range (show i < splits.length + 1 by omega)]
  · rw [← hfit]
    simp [fitOptimizer, length_prebinCounts, hlen]
  · rw [← hfit]
    simp [fitOptimizer, length_prebinCounts, hlen]

end OptBinning
