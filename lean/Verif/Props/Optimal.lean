import Verif.Lemmas.Optimal
import Verif.Lemmas.Divergence
import Verif.Props.Solver

/-!
# C18: optimality with an ascending or descending trend

The preprocessing cuts of the monotone trends (cp.py:405-412, 424-431) exclude admissible binnings
(`C18_cuts_exclude_admissible`).  Without further limits they nevertheless keep an optimal one.
-/
namespace OptBinning
open Finset Spec Iso

theorem trendOnly_admissible {R : Type*} [CommRing R] [LinearOrder R] {o : Opts} (ho : TrendAndMaxBins o) {n : ℕ} {sol sol' : ℕ → Bool}
    {ne ev : ℕ → ℤ} {r : ℕ → ℕ → R} (h : AtMost o.maxBins (numBins n sol)) (hb : IsBinning n sol') (hnum : numBins n sol' ≤ numBins n sol)
    (ht : TrendHolds n sol' r o.trend) : Admissible o n sol' ne ev r := by
  refine ⟨hb, by simp [AtLeast, ho.minBins], fun b hb => le_trans (by exact_mod_cast hnum) (h b hb), ?_, ?_, ?_, ?_, ?_, ?_, ht, ?_⟩
  · simp [AtLeast, ho.minSize]
  · simp [AtMost, ho.maxSize]
  · simp [AtLeast, ho.minNonevent]
  · simp [AtMost, ho.maxNonevent]
  · simp [AtLeast, ho.minEvent]
  · simp [AtMost, ho.maxEvent]
  · simp [ho.fixed]

theorem trend_mono {R S : Type*} [CommRing R] [LinearOrder R] [CommRing S] [LinearOrder S] {n : ℕ} {sol : ℕ → Bool} {r : ℕ → ℕ → R} {r' : ℕ → ℕ → S}
    {t : Trend} (ht : t = .ascending ∨ t = .descending) (hr : ∀ s e s' e', r s e ≤ r s' e' → r' s e ≤ r' s' e')
    (h : TrendHolds n sol r t) : TrendHolds n sol r' t := by
  rcases ht with rfl | rfl
  · exact fun s e s' e' h1 h2 h3 h4 h5 => hr _ _ _ _ (h s e s' e' h1 h2 h3 h4 h5)
  · exact fun s e s' e' h1 h2 h3 h4 h5 => hr _ _ _ _ (h s e s' e' h1 h2 h3 h4 h5)

/-- A monotone binning respecting the cuts is accepted by `BinningMIP`. -/
theorem acceptsMIP.complete_cuts {o : Opts} {inp : BinaryInput} {sol : ℕ → Bool} (hw : inp.Wf)
    (htest : inp.test = none) (hmd : inp.minDiff = 0)
    (h : Admissible o inp.n sol inp.ne inp.ev (fun s e => (eventRate inp.ne inp.ev s e : ℝ)))
    (hcut : (o.trend = .ascending ∧ ∀ k, k + 1 < inp.n → sol k = true → ∀ i ≤ k,
        eventRate inp.ne inp.ev i (k + 1) ≤ eventRate inp.ne inp.ev (k + 1) (k + 1)) ∨
      (o.trend = .descending ∧ ∀ k, k + 1 < inp.n → sol k = true → ∀ i ≤ k,
        eventRate inp.ne inp.ev (k + 1) (k + 1) ≤ eventRate inp.ne inp.ev i (k + 1))) :
    ∃ a, acceptsMIP o inp a ∧ diag a.x = sol := by
  have hD : ∀ s e, s ≤ e → e < inp.n → inp.dataMIP.D e s = ((eventRate inp.ne inp.ev s e : ℚ) : ℝ) := by
    intro s e hse he
    change ((inp.rate e s : ℚ) : ℝ) = _
    rw [rate_eq inp hw he hse]
  have hadm : Admissible { o with minRateDiffZero := decide (inp.minDiff = 0), scenario := false } inp.dataMIP.n sol
      inp.dataMIP.nonevent inp.dataMIP.event (fun s e => inp.dataMIP.D e s) :=
    (admissible_opts_congr _ _).2 (admissible_rate_congr (fun s e hse he => (hD s e hse he).symm) h)
  obtain ⟨a, ha, hx⟩ := feasibleCore.complete_cuts (o := { o with minRateDiffZero := decide (inp.minDiff = 0), scenario := false })
    (dat := inp.dataMIP) (M := (1 : ℝ)) (by norm_num)
    (fun i _ j _ => by
      have := rate_bounds inp i j
      change 0 ≤ ((inp.rate i j : ℚ) : ℝ) ∧ ((inp.rate i j : ℚ) : ℝ) ≤ 1
      exact ⟨by exact_mod_cast this.1, by exact_mod_cast this.2⟩)
    (fun k _ => by unfold Data.records BinaryInput.dataMIP; positivity)
    (by
      rcases hcut with ⟨ht, hc⟩ | ⟨ht, hc⟩
      · refine Or.inl ⟨ht, fun k hk hs i hi => ?_⟩
        rw [hD i (k + 1) (by omega) hk, hD (k + 1) (k + 1) le_rfl hk]
        exact_mod_cast hc k hk hs i hi
      · refine Or.inr ⟨ht, fun k hk hs i hi => ?_⟩
        rw [hD i (k + 1) (by omega) hk, hD (k + 1) (k + 1) le_rfl hk]
        exact_mod_cast hc k hk hs i hi)
    hadm
  have hcore : Core inp.n a.x := ha.core
  have hdiag : diag a.x = sol := by rw [hx]; exact encode_diag sol
  have e1 := enum_pviol inp hw
  have e2 := enum_minDiffMIP inp hw
  refine ⟨a, ⟨ha, ?_, ?_⟩, hdiag⟩
  · refine (violationMIP_iff hcore e1.wf).2 ((e1.separated _).2 ?_)
    rintro s e s' e' - - - - ⟨t, ht, -⟩
    rw [htest] at ht; cases ht
  · refine (violationMIP_iff hcore e2.wf).2 ((e2.separated _).2 ?_)
    rintro s e s' e' - - - - ⟨h0, -⟩
    rw [hmd] at h0; exact absurd h0 (lt_irrefl _)

/-- The same for `BinningCP`. -/
theorem acceptsCP.complete_cuts {o : Opts} {inp : BinaryInput} {sol : ℕ → Bool} (hw : inp.Wf)
    (htest : inp.test = none) (hmd : inp.minDiff = 0)
    (h : Admissible o inp.n sol inp.ne inp.ev (rate6 inp))
    (hcut : (o.trend = .ascending ∧ ∀ k, k + 1 < inp.n → sol k = true → ∀ i ≤ k,
        eventRate inp.ne inp.ev i (k + 1) ≤ eventRate inp.ne inp.ev (k + 1) (k + 1)) ∨
      (o.trend = .descending ∧ ∀ k, k + 1 < inp.n → sol k = true → ∀ i ≤ k,
        eventRate inp.ne inp.ev (k + 1) (k + 1) ≤ eventRate inp.ne inp.ev i (k + 1))) :
    ∃ a, acceptsCP o inp a ∧ diag a.x = sol := by
  have hD : ∀ s e, s ≤ e → e < inp.n → inp.dataCP.D e s = rate6 inp s e := fun s e hse he => rateCP_eq_rate6 inp hw he hse
  have hmono : ∀ s e s' e', eventRate inp.ne inp.ev s e ≤ eventRate inp.ne inp.ev s' e' → rate6 inp s e ≤ rate6 inp s' e' := by
    intro s e s' e' h
    unfold rate6
    exact Int.floor_mono (by linarith)
  have hadm : Admissible { o with minRateDiffZero := decide (inp.minDiff = 0), scenario := false } inp.dataCP.n sol
      inp.dataCP.nonevent inp.dataCP.event (fun s e => inp.dataCP.D e s) :=
    (admissible_opts_congr _ _).2 (admissible_rate_congr (fun s e hse he => (hD s e hse he).symm) h)
  obtain ⟨a, ha, hx⟩ := feasibleCore.complete_cuts (o := { o with minRateDiffZero := decide (inp.minDiff = 0), scenario := false })
    (dat := inp.dataCP) (M := (1000000 : ℤ)) (by norm_num)
    (fun i _ j _ => rateCP_bounds inp i j)
    (fun k _ => by unfold Data.records BinaryInput.dataCP; positivity)
    (by
      rcases hcut with ⟨ht, hc⟩ | ⟨ht, hc⟩
      · refine Or.inl ⟨ht, fun k hk hs i hi => ?_⟩
        rw [hD i (k + 1) (by omega) hk, hD (k + 1) (k + 1) le_rfl hk]
        exact hmono _ _ _ _ (hc k hk hs i hi)
      · refine Or.inr ⟨ht, fun k hk hs i hi => ?_⟩
        rw [hD i (k + 1) (by omega) hk, hD (k + 1) (k + 1) le_rfl hk]
        exact hmono _ _ _ _ (hc k hk hs i hi))
    hadm
  have hcore : Core inp.n a.x := ha.core
  have hdiag : diag a.x = sol := by rw [hx]; exact encode_diag sol
  have e1 := enum_pviol inp hw
  have e2 := enum_minDiffCP inp hw
  refine ⟨a, ⟨ha, ?_, ?_⟩, hdiag⟩
  · refine (violationCP_iff hcore e1.wf).2 ((e1.separated _).2 ?_)
    rintro s e s' e' - - - - ⟨t, ht, -⟩
    rw [htest] at ht; cases ht
  · refine (violationCP_iff hcore e2.wf).2 ((e2.separated _).2 ?_)
    rintro s e s' e' - - - - ⟨h0, -⟩
    rw [hmd] at h0; exact absurd h0 (lt_irrefl _)

/-- C18, `solver="mip"`: with an ascending or descending trend (and possibly a maximum number of bins, but no other
requirement) a status OPTIMAL means that no binning of the pre-bins with that trend has a larger divergence. -/
theorem C18_monotone_mip {o : Opts} {inp : BinaryInput} {reg : ℝ} {ans : SolverAnswer} (hw : inp.Wf) (ho : TrendAndMaxBins o)
    (hmix : ∀ k < inp.n, 0 < inp.ne k ∧ 0 < inp.ev k) (htest : inp.test = none) (hmd : inp.minDiff = 0) (d : Divergence) (hdiv : inp.div = d.fn)
    (hv : ans.Valid (acceptsMIP o inp) (objectiveMIP o inp reg)) (hs : (solve inp.n ans).1 = "OPTIMAL")
    (sol : ℕ → Bool) (hb : IsBinning inp.n sol) (hmax : AtMost o.maxBins (numBins inp.n sol))
    (ht : TrendHolds inp.n sol (eventRate inp.ne inp.ev) o.trend) :
    totalOverBins inp.n sol (binDivergence inp.div inp.n inp.ne inp.ev) ≤
      totalOverBins inp.n (solOf (solve inp.n ans).2) (binDivergence inp.div inp.n inp.ne inp.ev) := by
  obtain ⟨sol', g1, g2, g3, g4, g5⟩ := better_trend (fun k hk => (hmix k hk).1) (fun k hk => (hmix k hk).2) d ho.trend hb ht
  rw [← hdiv] at g5
  refine le_trans g5 ?_
  obtain ⟨a', ha', hd'⟩ := acceptsMIP.complete_cuts hw htest hmd
    (trendOnly_admissible ho hmax g1 g3 (trend_mono ho.trend (fun s e s' e' h => by exact_mod_cast h) g2)) g4
  cases ans with
  | optimal a =>
    have h := hv.2 a' ha'
    rw [C17_objective_mip hw hv.1 ho.gamma, C17_objective_mip hw ha' ho.gamma] at h
    have e1 : (fun k => a'.x k k != 0) = sol' := hd'
    rw [e1] at h
    have e2 : binsOf inp.n (solOf (solve inp.n (.optimal a)).2) = binsOf inp.n (fun k => a.x k k != 0) :=
      binsOf_congr fun k hk => solOf_map a.x hk
    unfold totalOverBins at h ⊢
    rw [e2]; exact h
  | feasible a => simp [solve] at hs
  | other s => exact absurd hs hv.1

theorem card_binsOf_le (n : ℕ) (sol : ℕ → Bool) : (binsOf n sol).card ≤ numBins n sol := by
  classical
  unfold numBins
  refine Finset.card_le_card_of_injOn (fun p => p.2) ?_ ?_
  · intro p hp
    have hp := (Finset.mem_filter.1 hp).2
    simp only [Finset.coe_filter, Finset.mem_range, Set.mem_setOf_eq]
    exact ⟨hp.2.1, hp.2.2.1⟩
  · rintro ⟨s, e⟩ hp ⟨s', e'⟩ hp' (rfl : e = e')
    have hp := (Finset.mem_filter.1 hp).2
    have hp' := (Finset.mem_filter.1 hp').2
    have := bin_unique hp hp' hp.1 le_rfl hp'.1 le_rfl
    simpa using this.1

theorem truncReal_bounds {r : ℝ} (h : 0 ≤ r) : ((truncReal r : ℤ) : ℝ) ≤ r ∧ r ≤ ((truncReal r : ℤ) : ℝ) + 1 := by
  unfold truncReal
  rw [if_pos h]
  exact ⟨Int.floor_le r, (Int.lt_floor_add_one r).le⟩

theorem total_trunc {n : ℕ} {sol : ℕ → Bool} {v : ℕ → ℕ → ℝ} (hv : ∀ s e, IsBin n sol s e → 0 ≤ v s e) :
    ((totalOverBins n sol (fun s e => truncReal (v s e * 1000000)) : ℤ) : ℝ) ≤ totalOverBins n sol v * 1000000 ∧
      totalOverBins n sol v * 1000000 ≤ ((totalOverBins n sol (fun s e => truncReal (v s e * 1000000)) : ℤ) : ℝ) + numBins n sol := by
  classical
  have hb : ∀ p ∈ binsOf n sol, 0 ≤ v p.1 p.2 * 1000000 := fun p hp => by
    have := hv _ _ (Finset.mem_filter.1 hp).2
    positivity
  unfold totalOverBins
  rw [Finset.sum_mul]
  push_cast
  refine ⟨Finset.sum_le_sum fun p hp => (truncReal_bounds (hb p hp)).1, ?_⟩
  have h1 : ∑ p ∈ binsOf n sol, v p.1 p.2 * 1000000 ≤ ∑ p ∈ binsOf n sol, (((truncReal (v p.1 p.2 * 1000000) : ℤ) : ℝ) + 1) :=
    Finset.sum_le_sum fun p hp => (truncReal_bounds (hb p hp)).2
  rw [Finset.sum_add_distrib, Finset.sum_const, nsmul_eq_mul, mul_one] at h1
  have h2 : ((binsOf n sol).card : ℝ) ≤ numBins n sol := by exact_mod_cast card_binsOf_le n sol
  linarith

theorem binDivergence_nonneg {n : ℕ} {ne ev : ℕ → ℤ} (hne : ∀ k < n, 0 < ne k) (hev : ∀ k < n, 0 < ev k) (d : Divergence) {sol : ℕ → Bool}
    {s e : ℕ} (hb : IsBin n sol s e) : 0 ≤ binDivergence d.fn n ne ev s e := by
  have hn : 0 < n := by have := hb.2.1; omega
  have p1 : ∀ {x : ℕ → ℤ}, (∀ k < n, 0 < x k) → (0 : ℝ) < ((binTotal x s e : ℤ) : ℝ) / ((binTotal x 0 (n - 1) : ℤ) : ℝ) := by
    intro x hx
    have h1 : (0 : ℝ) < ((binTotal x s e : ℤ) : ℝ) := by exact_mod_cast total_pos hx hb.1 hb.2.1
    have h2 : (0 : ℝ) < ((binTotal x 0 (n - 1) : ℤ) : ℝ) := by exact_mod_cast total_pos hx (Nat.zero_le _) (by omega)
    positivity
  unfold binDivergence
  cases d
  · exact goodDiv_jeffrey.nonneg _ _ (p1 hev) (p1 hne)
  · exact goodDiv_jensenShannon.nonneg _ _ (p1 hev) (p1 hne)
  · exact goodDiv_hellinger.nonneg _ _ (p1 hev) (p1 hne)
  · exact goodDiv_triangular.nonneg _ _ (p1 hev) (p1 hne)

/-- C18, `solver="cp"`: the same up to the integer rounding of the solver, at most 10⁻⁶ per bin of the compared binning. -/
theorem C18_monotone_cp {o : Opts} {inp : BinaryInput} {reg : ℤ} {ans : SolverAnswer} (hw : inp.Wf) (ho : TrendAndMaxBins o)
    (hmix : ∀ k < inp.n, 0 < inp.ne k ∧ 0 < inp.ev k) (htest : inp.test = none) (hmd : inp.minDiff = 0) (d : Divergence) (hdiv : inp.div = d.fn)
    (hv : ans.Valid (acceptsCP o inp) (objectiveCP o inp reg)) (hs : (solve inp.n ans).1 = "OPTIMAL")
    (sol : ℕ → Bool) (hb : IsBinning inp.n sol) (hmax : AtMost o.maxBins (numBins inp.n sol))
    (ht : TrendHolds inp.n sol (eventRate inp.ne inp.ev) o.trend) :
    totalOverBins inp.n sol (binDivergence inp.div inp.n inp.ne inp.ev) ≤
      totalOverBins inp.n (solOf (solve inp.n ans).2) (binDivergence inp.div inp.n inp.ne inp.ev) + (numBins inp.n sol : ℝ) / 1000000 := by
  have hnn : ∀ sol' s e, IsBin inp.n sol' s e → 0 ≤ binDivergence inp.div inp.n inp.ne inp.ev s e := fun sol' s e h => by
    rw [hdiv]; exact binDivergence_nonneg (fun k hk => (hmix k hk).1) (fun k hk => (hmix k hk).2) d h
  obtain ⟨sol', g1, g2, g3, g4, g5⟩ := better_trend (fun k hk => (hmix k hk).1) (fun k hk => (hmix k hk).2) d ho.trend hb ht
  rw [← hdiv] at g5
  obtain ⟨a', ha', hd'⟩ := acceptsCP.complete_cuts hw htest hmd
    (trendOnly_admissible ho hmax g1 g3 (trend_mono ho.trend (r' := rate6 inp)
      (fun s e s' e' h => by unfold rate6; exact Int.floor_mono (by linarith)) g2)) g4
  cases ans with
  | optimal a =>
    have h := hv.2 a' ha'
    rw [C17_objective_cp hw hv.1 ho.gamma, C17_objective_cp hw ha' ho.gamma] at h
    have e1 : (fun k => a'.x k k != 0) = sol' := hd'
    rw [e1] at h
    have e2 : binsOf inp.n (solOf (solve inp.n (.optimal a)).2) = binsOf inp.n (fun k => a.x k k != 0) :=
      binsOf_congr fun k hk => solOf_map a.x hk
    have t1 := (total_trunc (n := inp.n) (sol := sol') (hnn sol')).2
    have t2 := (total_trunc (n := inp.n) (sol := fun k => a.x k k != 0) (hnn _)).1
    have h' : ((totalOverBins inp.n sol' (fun s e => truncReal (binDivergence inp.div inp.n inp.ne inp.ev s e * 1000000)) : ℤ) : ℝ) ≤
        ((totalOverBins inp.n (fun k => a.x k k != 0) (fun s e => truncReal (binDivergence inp.div inp.n inp.ne inp.ev s e * 1000000)) : ℤ) : ℝ) := by
      exact_mod_cast h
    have h3 : ((numBins inp.n sol' : ℕ) : ℝ) ≤ numBins inp.n sol := by exact_mod_cast g3
    have e3 : totalOverBins inp.n (solOf (solve inp.n (.optimal a)).2) (binDivergence inp.div inp.n inp.ne inp.ev) =
        totalOverBins inp.n (fun k => a.x k k != 0) (binDivergence inp.div inp.n inp.ne inp.ev) := by
      unfold totalOverBins; rw [e2]
    rw [e3]
    linarith
  | feasible a => simp [solve] at hs
  | other s => exact absurd hs hv.1

end OptBinning
