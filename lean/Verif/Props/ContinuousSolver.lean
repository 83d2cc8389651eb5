import Verif.Lemmas.ContinuousSolver
import Verif.Props.Solver

/-!
# Properties C48, C49: the solver formulation for a continuous target

`inp : ContInput` are the pre-bin statistics handed to the solver, `o : Opts` the limits and the trend, `ans` what the
external solver answered, `solve n ans` the pair (status, solution mask) of `ContinuousBinningCP.solve`.
-/
namespace OptBinning
open Finset Spec

/-! ## C48 -/

/-- C48: everything a solution guarantees: a partition into consecutive groups within the limits on the number and the size
of bins, the trend at the solver's precision, the fixed splits, the t-test and `min_mean_diff`. -/
theorem C48_solution {o : Opts} {inp : ContInput} {g : ℚ} {ans : SolverAnswer} (hw : inp.Wf) (htc : ChangeInRange o inp)
    (hv : ans.Valid (acceptsCont o inp) (contObjective o g inp)) (hs : Solved (solve inp.n ans)) :
    AdmissibleMean o inp.n (solOf (solve inp.n ans).2) inp.recs
      (fun s e => truncRat (binMean inp.recs inp.sum s e * 1000000)) ∧
    Separated inp.policy inp.n (solOf (solve inp.n ans).2) (failsTTest inp) ∧
    Separated .consecutive inp.n (solOf (solve inp.n ans).2) (meansTooClose inp) := by
  obtain ⟨a, ha, hd⟩ := solved_diag hv hs
  obtain ⟨h1, h2, h3⟩ := ha.sound hw htc
  refine ⟨⟨?_, ?_, ?_, ?_, ?_, ?_, ?_⟩, separated_congr hd h2, separated_congr hd h3⟩
  · exact ⟨h1.binning.1, by rw [← hd _ (by have := h1.binning.1; omega)]; exact h1.binning.2⟩
  · rw [← numBins_congr hd]; exact h1.minBins
  · rw [← numBins_congr hd]; exact h1.maxBins
  · intro s e hb; exact h1.minSize s e ((isBin_congr hd s e).2 hb)
  · intro s e hb; exact h1.maxSize s e ((isBin_congr hd s e).2 hb)
  · have hT := h1.trend
    have hb := fun s e => isBin_congr hd s e
    have hasc : ∀ P, AscendingOn inp.n (diag a.x) (mean6 inp) P →
        AscendingOn inp.n (solOf (solve inp.n ans).2) (mean6 inp) P :=
      fun P hp s e s' e' b b' => hp s e s' e' ((hb s e).2 b) ((hb s' e').2 b')
    have hdesc : ∀ P, DescendingOn inp.n (diag a.x) (mean6 inp) P →
        DescendingOn inp.n (solOf (solve inp.n ans).2) (mean6 inp) P :=
      fun P hp s e s' e' b b' => hp s e s' e' ((hb s e).2 b) ((hb s' e').2 b')
    cases ht : o.trend with
    | unconstrained => trivial
    | ascending => rw [ht] at hT; exact hasc _ hT
    | descending => rw [ht] at hT; exact hdesc _ hT
    | concave =>
      rw [ht] at hT
      exact fun s₁ e₁ s₂ e₂ s₃ e₃ b1 b2 b3 => hT s₁ e₁ s₂ e₂ s₃ e₃ ((hb _ _).2 b1) ((hb _ _).2 b2) ((hb _ _).2 b3)
    | convex =>
      rw [ht] at hT
      exact fun s₁ e₁ s₂ e₂ s₃ e₃ b1 b2 b3 => hT s₁ e₁ s₂ e₂ s₃ e₃ ((hb _ _).2 b1) ((hb _ _).2 b2) ((hb _ _).2 b3)
    | peak => rw [ht] at hT; obtain ⟨c, h1, h2⟩ := hT; exact ⟨c, hasc _ h1, hdesc _ h2⟩
    | valley => rw [ht] at hT; obtain ⟨c, h1, h2⟩ := hT; exact ⟨c, hdesc _ h1, hasc _ h2⟩
    | peakHeuristic c => rw [ht] at hT; exact ⟨hasc _ hT.1, hdesc _ hT.2⟩
    | valleyHeuristic c => rw [ht] at hT; exact ⟨hdesc _ hT.1, hasc _ hT.2⟩
  · intro f hf i hi hfi
    rw [← hd i (by omega)]; exact h1.fixed f hf i hi hfi

theorem truncRat_mono {p q : ℚ} (h : p ≤ q) : truncRat p ≤ truncRat q := by
  unfold truncRat
  split_ifs with h1 h2 h2
  · exact Int.floor_le_floor h
  · linarith
  · push Not at h1
    have : ⌈p⌉ ≤ 0 := Int.ceil_le.2 (by push_cast; linarith)
    have : 0 ≤ ⌊q⌋ := Int.floor_nonneg.2 h2
    omega
  · exact Int.ceil_le_ceil h

theorem truncRat_near (p : ℚ) : |((truncRat p : ℤ) : ℚ) - p| < 1 := by
  unfold truncRat
  split_ifs with h
  · have h1 := Int.lt_floor_add_one p
    have h2 := Int.floor_le p
    rw [abs_lt]; constructor <;> linarith
  · have h1 := Int.ceil_lt_add_one p
    have h2 := Int.le_ceil p
    rw [abs_lt]; constructor <;> linarith

theorem trunc_le_imp {p q : ℚ} (h : truncRat (p * 1000000) ≤ truncRat (q * 1000000)) : p < q + 2 / 1000000 := by
  have h1 := abs_lt.1 (truncRat_near (p * 1000000))
  have h2 := abs_lt.1 (truncRat_near (q * 1000000))
  have h3 : ((truncRat (p * 1000000) : ℤ) : ℚ) ≤ ((truncRat (q * 1000000) : ℤ) : ℚ) := by exact_mod_cast h
  linarith [h1.1, h1.2, h2.1, h2.2]

/-- C48, trends in terms of the true means: ascending and descending up to 2e-6. -/
theorem C48_monotone {o : Opts} {inp : ContInput} {g : ℚ} {ans : SolverAnswer} (hw : inp.Wf)
    (hv : ans.Valid (acceptsCont o inp) (contObjective o g inp)) (hs : Solved (solve inp.n ans))
    {s e s' e' : ℕ} (hb : IsBin inp.n (solOf (solve inp.n ans).2) s e)
    (hb' : IsBin inp.n (solOf (solve inp.n ans).2) s' e') (hlt : e < e') :
    (o.trend = .ascending → binMean inp.recs inp.sum s e < binMean inp.recs inp.sum s' e' + 2 / 1000000) ∧
    (o.trend = .descending → binMean inp.recs inp.sum s' e' < binMean inp.recs inp.sum s e + 2 / 1000000) := by
  constructor
  · intro ht
    have h := (C48_solution hw (by intro tc h; rw [ht] at h; simp at h) hv hs).1.trend
    rw [ht] at h
    exact trunc_le_imp (h s e s' e' hb hb' hlt trivial trivial)
  · intro ht
    have h := (C48_solution hw (by intro tc h; rw [ht] at h; simp at h) hv hs).1.trend
    rw [ht] at h
    exact trunc_le_imp (h s e s' e' hb hb' hlt trivial trivial)

/-- C48: consecutive bins differ by at least `min_mean_diff` (exactly: the means are not rounded here). -/
theorem C48_min_mean_diff {o : Opts} {inp : ContInput} {g : ℚ} {ans : SolverAnswer} (hw : inp.Wf)
    (htc : ChangeInRange o inp)
    (hv : ans.Valid (acceptsCont o inp) (contObjective o g inp)) (hs : Solved (solve inp.n ans))
    {s e e' : ℕ} (hb : IsBin inp.n (solOf (solve inp.n ans).2) s e)
    (hb' : IsBin inp.n (solOf (solve inp.n ans).2) (e + 1) e') :
    inp.minDiff ≤ |binMean inp.recs inp.sum s e - binMean inp.recs inp.sum (e + 1) e'| := by
  rcases le_or_gt inp.minDiff 0 with h0 | h0
  · exact le_trans h0 (abs_nonneg _)
  · have := (C48_solution hw htc hv hs).2.2 s e (e + 1) e' hb hb' (by omega) (fun _ => rfl)
    unfold meansTooClose at this
    push Not at this
    exact this h0

/-- C48, exactness: for every trend (peak and valley only if all group means have the same sign) the solver can return
exactly the admissible binnings, also for the concave and convex trends and without any "preprocessing" loss. -/
theorem C48_exact_partial {o : Opts} {inp : ContInput} (hw : inp.Wf) (htc : ChangeInRange o inp)
    (hss : (o.trend ≠ .peak ∧ o.trend ≠ .valley) ∨
      (∀ s e, s ≤ e → e < inp.n → 0 ≤ binMean inp.recs inp.sum s e) ∨
      (∀ s e, s ≤ e → e < inp.n → binMean inp.recs inp.sum s e ≤ 0)) (sol : ℕ → Bool) :
    (∃ a, acceptsCont o inp a ∧ ∀ k, (a.x k k != 0) = sol k) ↔
      AdmissibleMean o inp.n sol inp.recs (fun s e => truncRat (binMean inp.recs inp.sum s e * 1000000)) ∧
      Separated inp.policy inp.n sol (failsTTest inp) ∧ Separated .consecutive inp.n sol (meansTooClose inp) := by
  constructor
  · rintro ⟨a, ha, hd⟩
    have : diag a.x = sol := funext hd
    rw [← this]
    exact ha.sound hw htc
  · rintro ⟨h1, h2, h3⟩
    have hss' : o.trend.fixedShape ∨ SameSign inp.n inp.U := by
      rcases hss with ⟨h1, h2⟩ | h | h
      · left
        cases ht : o.trend <;> simp_all [Trend.fixedShape]
      · right; left
        intro i hi j hj
        rw [contU_eq inp hw hi hj]
        have := truncRat_mono (p := 0) (q := binMean inp.recs inp.sum j i * 1000000) (by have := h j i hj hi; positivity)
        rwa [show truncRat 0 = 0 by simp [truncRat]] at this
      · right; right
        intro i hi j hj
        rw [contU_eq inp hw hi hj]
        have := truncRat_mono (p := binMean inp.recs inp.sum j i * 1000000) (q := 0) (by have := h j i hj hi; linarith)
        rwa [show truncRat 0 = 0 by simp [truncRat]] at this
    obtain ⟨a, ha, hx, -, -⟩ := acceptsCont.complete hw htc hss' h1 h2 h3
    refine ⟨a, ha, fun k => ?_⟩
    rw [hx]
    exact congrFun (encode_diag sol) k

/-- C48: a binning whose true means are ascending (descending) satisfies the trend at the solver's precision, so together
with `C48_exact_partial` it is never excluded by rounding. -/
theorem C48_rounding_keeps_trend {n : ℕ} {sol : ℕ → Bool} {r : ℕ → ℕ → ℚ} {t : Trend} (ht : t ≠ .concave ∧ t ≠ .convex)
    (h : TrendHolds n sol r t) : TrendHolds n sol (fun s e => truncRat (r s e * 1000000)) t := by
  have hm : ∀ {p q : ℚ}, p ≤ q → truncRat (p * 1000000) ≤ truncRat (q * 1000000) :=
    fun hpq => truncRat_mono (by linarith)
  have hasc : ∀ P, AscendingOn n sol r P → AscendingOn n sol (fun s e => truncRat (r s e * 1000000)) P :=
    fun P hp s e s' e' b b' hlt h1 h2 => hm (hp s e s' e' b b' hlt h1 h2)
  have hdesc : ∀ P, DescendingOn n sol r P → DescendingOn n sol (fun s e => truncRat (r s e * 1000000)) P :=
    fun P hp s e s' e' b b' hlt h1 h2 => hm (hp s e s' e' b b' hlt h1 h2)
  cases t with
  | unconstrained => trivial
  | ascending => exact hasc _ h
  | descending => exact hdesc _ h
  | concave => exact absurd rfl ht.1
  | convex => exact absurd rfl ht.2
  | peak => obtain ⟨c, h1, h2⟩ := h; exact ⟨c, hasc _ h1, hdesc _ h2⟩
  | valley => obtain ⟨c, h1, h2⟩ := h; exact ⟨c, hdesc _ h1, hasc _ h2⟩
  | peakHeuristic c => exact ⟨hasc _ h.1, hdesc _ h.2⟩
  | valleyHeuristic c => exact ⟨hdesc _ h.1, hasc _ h.2⟩

/-! ### the running example and the peak finding -/

/-- Three pre-bins of one record with targets -10, 10, -10. -/
def exPeak : ContInput where
  records := [1, 1, 1]
  sums := [-10, 10, -10]
  ssums := [100, 100, 100]

theorem exPeak_wf : exPeak.Wf := ⟨rfl, rfl, by decide, by decide⟩

theorem exPeak_U : exPeak.U 0 0 = -10000000 ∧ exPeak.U 1 1 = 10000000 ∧ exPeak.U 2 2 = -10000000 ∧
    contBigM 3 exPeak.U = 10000000 := by decide +kernel

theorem allTrue_bin {n s e : ℕ} : IsBin n (fun _ => true) s e ↔ s = e ∧ e < n := by
  constructor
  · rintro ⟨h1, h2, -, -, h5⟩
    refine ⟨?_, h2⟩
    by_contra hne
    have := h5 s le_rfl (by omega)
    simp at this
  · rintro ⟨rfl, h⟩
    exact ⟨le_rfl, h, rfl, Or.inr rfl, fun k h1 h2 => by omega⟩

/-- C48, finding: with means of both signs the peak constraints exclude admissible binnings. The three bins with means
-10, 10, -10 form a peak and no other option is set, but no accepted assignment keeps them apart. -/
theorem C48_peak_excludes_mixed_signs :
    AdmissibleMean { trend := .peak } exPeak.n (fun _ => true) exPeak.recs (binMean exPeak.recs exPeak.sum) ∧
    ¬ ∃ a, acceptsCont { trend := .peak } exPeak a ∧ ∀ k < 3, (a.x k k != 0) = true := by
  have m0 : binMean exPeak.recs exPeak.sum 0 0 = -10 := by decide +kernel
  have m1 : binMean exPeak.recs exPeak.sum 1 1 = 10 := by decide +kernel
  have m2 : binMean exPeak.recs exPeak.sum 2 2 = -10 := by decide +kernel
  have hn : exPeak.n = 3 := rfl
  constructor
  · refine ⟨⟨by decide, rfl⟩, by simp [AtLeast], by simp [AtMost], by simp [AtLeast], by simp [AtMost], ⟨2, ?_, ?_⟩,
      by simp⟩
    · intro s e s' e' hb hb' hlt h1 h2
      rw [allTrue_bin] at hb hb'
      obtain ⟨rfl, -⟩ := hb
      obtain ⟨rfl, -⟩ := hb'
      have : s = 0 ∧ s' = 1 := by omega
      rw [this.1, this.2, m0, m1]; norm_num
    · intro s e s' e' hb hb' hlt h1 h2
      rw [allTrue_bin] at hb hb'
      omega
  · rintro ⟨a, ha, hx⟩
    have hc := ha.core
    obtain ⟨hdom, -, -, -, -, -, hm, -⟩ := ha
    have hy := hdom.2.1 (Or.inl rfl)
    have x1 : ∀ k < 3, a.x k k = 1 := fun k hk => (diag_eq_true hc (by rw [hn]; exact hk)).1 (hx k hk)
    have hbin : ∀ k < 3, IsBin exPeak.n (diag a.x) k k := by
      intro k hk
      refine ⟨le_rfl, by rw [hn]; exact hk, hx k hk, ?_, fun j h1 h2 => by omega⟩
      by_cases h0 : k = 0
      · exact Or.inl h0
      · exact Or.inr (hx (k - 1) (by omega))
    have r := fun k hk => hc.rowRate_bin exPeak.U (hbin k hk)
    have y0 := hy.1 0 (by decide)
    have y1 := hy.1 1 (by decide)
    have y2 := hy.1 2 (by decide)
    have h01 := hm.2 1 (by omega) (by decide) 0 (by omega) (x1 0 (by omega)) (x1 1 (by omega))
    have h12 := hm.2 2 (by omega) (by decide) 1 (by omega) (x1 1 (by omega)) (x1 2 (by omega))
    rw [cont_peak_eq, cont_peak_eq, r 0 (by omega), r 1 (by omega)] at h01
    rw [cont_peak_eq, cont_peak_eq, r 1 (by omega), r 2 (by omega)] at h12
    obtain ⟨u0, u1, u2, uM⟩ := exPeak_U
    rw [hn, uM, u0, u1] at h01
    rw [hn, uM, u1, u2] at h12
    rcases y0 with y0 | y0 <;> rcases y1 with y1 | y1 <;> rcases y2 with y2 | y2 <;> rw [y0, y1] at h01 <;>
      rw [y1, y2] at h12 <;> omega

/-- The running example: four pre-bins with means 1, 4, 3, 9. -/
def exCont : ContInput where
  records := [10, 10, 20, 10]
  sums := [10, 40, 60, 90]
  ssums := [20, 170, 200, 900]
  minDiff := 1 / 2

theorem exCont_wf : exCont.Wf := ⟨rfl, rfl, by decide, by decide⟩

/-- Options of the running example. -/
def exContOpts : Opts where
  trend := .ascending
  minBins := some 2
  maxBins := some 3
  minSize := some 10
  maxSize := some 30
  fixed := some (fun k => k == 2)

theorem exCont_means : binMean exCont.recs exCont.sum 0 0 = 1 ∧ binMean exCont.recs exCont.sum 1 2 = 10 / 3 ∧
    binMean exCont.recs exCont.sum 3 3 = 9 := by decide +kernel

/-- Non-vacuity of C48, C49: the three-bin binning 0 | 1,2 | 3 is admissible. -/
theorem exCont_admissible : AdmissibleMean exContOpts exCont.n exSol exCont.recs (mean6 exCont) ∧
    Separated exCont.policy exCont.n exSol (failsTTest exCont) ∧
    Separated .consecutive exCont.n exSol (meansTooClose exCont) := by
  obtain ⟨m1, m2, m3⟩ := exCont_means
  have c1 : binTotal exCont.recs 0 0 = 10 := by decide +kernel
  have c2 : binTotal exCont.recs 1 2 = 30 := by decide +kernel
  have c3 : binTotal exCont.recs 3 3 = 10 := by decide +kernel
  have hnb : numBins 4 exSol = 3 := by decide
  refine ⟨⟨⟨by decide, rfl⟩, ?_, ?_, ?_, ?_, ?_, ?_⟩, ?_, ?_⟩
  · intro b hb
    change some 2 = some b at hb
    change b ≤ ((numBins 4 exSol : ℕ) : ℤ)
    rw [hnb]; cases hb; norm_num
  · intro b hb
    change some 3 = some b at hb
    change ((numBins 4 exSol : ℕ) : ℤ) ≤ b
    rw [hnb]; cases hb; norm_num
  · intro s e hb b hbb
    cases hbb
    rcases exSol_bins.1 hb with ⟨rfl, rfl⟩ | ⟨rfl, rfl⟩ | ⟨rfl, rfl⟩ <;> simp only [c1, c2, c3] <;> norm_num
  · intro s e hb b hbb
    cases hbb
    rcases exSol_bins.1 hb with ⟨rfl, rfl⟩ | ⟨rfl, rfl⟩ | ⟨rfl, rfl⟩ <;> simp only [c1, c2, c3] <;> norm_num
  · refine C48_rounding_keeps_trend (r := binMean exCont.recs exCont.sum) (t := .ascending) (by simp) ?_
    intro s e s' e' hb hb' hlt _ _
    rcases exSol_bins.1 hb with ⟨rfl, rfl⟩ | ⟨rfl, rfl⟩ | ⟨rfl, rfl⟩ <;>
      rcases exSol_bins.1 hb' with ⟨rfl, rfl⟩ | ⟨rfl, rfl⟩ | ⟨rfl, rfl⟩ <;>
        first
          | omega
          | (simp only [m1, m2, m3]; norm_num)
  · intro f hf i hi hfi
    cases hf
    have : i = 2 := by simpa using hfi
    subst this; rfl
  · rintro s e s' e' - - - - ⟨t, ht, -⟩
    exact absurd ht (by simp [exCont])
  · rintro s e s' e' hb hb' hlt - ⟨-, hbad⟩
    have hmd : exCont.minDiff = 1 / 2 := rfl
    rcases exSol_bins.1 hb with ⟨rfl, rfl⟩ | ⟨rfl, rfl⟩ | ⟨rfl, rfl⟩ <;>
      rcases exSol_bins.1 hb' with ⟨rfl, rfl⟩ | ⟨rfl, rfl⟩ | ⟨rfl, rfl⟩ <;>
        first
          | omega
          | (simp only [m1, m2, m3, hmd] at hbad; norm_num at hbad)

/-- Non-vacuity of C48: a valid answer with this binning. -/
theorem exCont_answer : ∃ ans : SolverAnswer, ans.Valid (acceptsCont exContOpts exCont) (contObjective exContOpts 0 exCont) ∧
    Solved (solve exCont.n ans) ∧ ∀ k < 4, solOf (solve exCont.n ans).2 k = exSol k := by
  obtain ⟨h1, h2, h3⟩ := exCont_admissible
  obtain ⟨a, ha, hx⟩ := (C48_exact_partial exCont_wf (by intro tc h; simp [exContOpts] at h) (Or.inl (by simp [exContOpts]))
    exSol).2 ⟨h1, h2, h3⟩
  refine ⟨.feasible a, ha, Or.inr rfl, fun k hk => ?_⟩
  change solOf ((List.range 4).map fun i => a.x i i != 0) k = _
  rw [solOf_map a.x hk]; exact hx k

example : ∃ ans : SolverAnswer, ∃ s e, IsBin exCont.n (solOf (solve exCont.n ans).2) s e ∧
    exCont.minDiff ≤ |binMean exCont.recs exCont.sum s e - binMean exCont.recs exCont.sum (e + 1) 2| := by
  obtain ⟨ans, hv, hs, hk⟩ := exCont_answer
  have hb := fun s e => (isBin_congr (n := exCont.n) (sol := solOf (solve exCont.n ans).2) (sol' := exSol) hk s e)
  refine ⟨ans, 0, 0, (hb 0 0).2 (exSol_bins.2 (by omega)), ?_⟩
  exact C48_min_mean_diff exCont_wf (by intro tc h; simp [exContOpts] at h) hv hs ((hb 0 0).2 (exSol_bins.2 (by omega)))
    ((hb 1 2).2 (exSol_bins.2 (by omega)))

/-! ## C49: the objective -/

theorem totalOverBins_floor {n : ℕ} {sol : ℕ → Bool} (v : ℕ → ℕ → ℚ) :
    ((totalOverBins n sol (fun s e => ⌊v s e * 1000000⌋) : ℤ) : ℚ) ≤ totalOverBins n sol v * 1000000 ∧
    totalOverBins n sol v * 1000000 ≤
      ((totalOverBins n sol (fun s e => ⌊v s e * 1000000⌋) : ℤ) : ℚ) + ((binsOf n sol).card : ℚ) := by
  unfold totalOverBins
  push_cast
  rw [Finset.sum_mul]
  constructor
  · exact Finset.sum_le_sum fun p _ => Int.floor_le _
  · rw [Finset.card_eq_sum_ones]
    push_cast
    rw [← Finset.sum_add_distrib]
    exact Finset.sum_le_sum fun p _ => (Int.lt_floor_add_one _).le

/-- C49: with status OPTIMAL no admissible binning has a sum of distances between bin means and overall mean larger by more
than 1e-6 per bin — whatever the value of `gamma`. -/
theorem C49_optimal_partial {o : Opts} {inp : ContInput} {g : ℚ} (hg : 0 ≤ g) {ans : SolverAnswer} (hw : inp.Wf)
    (htc : ChangeInRange o inp)
    (hss : (o.trend ≠ .peak ∧ o.trend ≠ .valley) ∨
      (∀ s e, s ≤ e → e < inp.n → 0 ≤ binMean inp.recs inp.sum s e) ∨
      (∀ s e, s ≤ e → e < inp.n → binMean inp.recs inp.sum s e ≤ 0))
    (hv : ans.Valid (acceptsCont o inp) (contObjective o g inp)) (hs : (solve inp.n ans).1 = "OPTIMAL")
    (sol : ℕ → Bool)
    (h1 : AdmissibleMean o inp.n sol inp.recs (fun s e => truncRat (binMean inp.recs inp.sum s e * 1000000)))
    (h2 : Separated inp.policy inp.n sol (failsTTest inp)) (h3 : Separated .consecutive inp.n sol (meansTooClose inp)) :
    totalOverBins inp.n sol
        (fun s e => ⌊|binMean inp.recs inp.sum s e - binMean inp.recs inp.sum 0 (inp.n - 1)| * 1000000⌋) ≤
      totalOverBins inp.n (solOf (solve inp.n ans).2)
        (fun s e => ⌊|binMean inp.recs inp.sum s e - binMean inp.recs inp.sum 0 (inp.n - 1)| * 1000000⌋) ∧
    l1Distance inp.n sol inp.recs inp.sum ≤
      l1Distance inp.n (solOf (solve inp.n ans).2) inp.recs inp.sum + (binsOf inp.n sol).card / 1000000 := by
  have hss' : o.trend.fixedShape ∨ SameSign inp.n inp.U := by
    rcases hss with ⟨h1, h2⟩ | h | h
    · left
      cases ht : o.trend <;> simp_all [Trend.fixedShape]
    · right; left
      intro i hi j hj
      rw [contU_eq inp hw hi hj]
      have := truncRat_mono (p := 0) (q := binMean inp.recs inp.sum j i * 1000000) (by have := h j i hj hi; positivity)
      rwa [show truncRat 0 = 0 by simp [truncRat]] at this
    · right; right
      intro i hi j hj
      rw [contU_eq inp hw hi hj]
      have := truncRat_mono (p := binMean inp.recs inp.sum j i * 1000000) (q := 0) (by have := h j i hj hi; linarith)
      rwa [show truncRat 0 = 0 by simp [truncRat]] at this
  obtain ⟨a', ha', hx', hpx, hpn⟩ := acceptsCont.complete hw htc hss' h1 h2 h3
  cases ans with
  | feasible a => simp [solve] at hs
  | other s => exact absurd hs hv.1
  | optimal a =>
    have h := hv.2 a' ha'
    have hreg : contObjectivePlain inp a'.x ≤ contObjectivePlain inp a.x := by
      unfold contObjective at h
      cases hgm : o.gamma with
      | false => simpa [hgm] using h
      | true =>
        simp only [hgm, if_true] at h
        have hd := hv.1.2.1 hgm
        have hr : 0 ≤ ⌈(scale : ℚ) * g / ((inp.records.sum : ℕ) : ℚ)⌉ := by
          apply Int.ceil_nonneg
          have : (0 : ℚ) ≤ ((scale : ℤ) : ℚ) := by norm_num [scale]
          positivity
        rw [hpx, hpn] at h
        nlinarith [mul_nonneg hr (show (0 : ℤ) ≤ (a.pmax - a.pmin) - (0 - inp.records.sum) by omega)]
    rw [contObjective_eq hw ha'.core, contObjective_eq hw hv.1.core] at hreg
    have e1 : diag a'.x = sol := by rw [hx']; exact encode_diag sol
    have e2 : binsOf inp.n (solOf (solve inp.n (.optimal a)).2) = binsOf inp.n (diag a.x) :=
      binsOf_congr fun k hk => solOf_map a.x hk
    rw [e1] at hreg
    have first : totalOverBins inp.n sol
        (fun s e => ⌊|binMean inp.recs inp.sum s e - binMean inp.recs inp.sum 0 (inp.n - 1)| * 1000000⌋) ≤
      totalOverBins inp.n (solOf (solve inp.n (.optimal a)).2)
        (fun s e => ⌊|binMean inp.recs inp.sum s e - binMean inp.recs inp.sum 0 (inp.n - 1)| * 1000000⌋) := by
      unfold totalOverBins at hreg ⊢
      rw [e2]; exact hreg
    refine ⟨first, ?_⟩
    unfold l1Distance
    have b1 := (totalOverBins_floor (n := inp.n) (sol := sol)
      (fun s e => |binMean inp.recs inp.sum s e - binMean inp.recs inp.sum 0 (inp.n - 1)|)).2
    have b2 := (totalOverBins_floor (n := inp.n) (sol := solOf (solve inp.n (.optimal a)).2)
      (fun s e => |binMean inp.recs inp.sum s e - binMean inp.recs inp.sum 0 (inp.n - 1)|)).1
    have b3 : ((totalOverBins inp.n sol
        (fun s e => ⌊|binMean inp.recs inp.sum s e - binMean inp.recs inp.sum 0 (inp.n - 1)| * 1000000⌋) : ℤ) : ℚ) ≤
      ((totalOverBins inp.n (solOf (solve inp.n (.optimal a)).2)
        (fun s e => ⌊|binMean inp.recs inp.sum s e - binMean inp.recs inp.sum 0 (inp.n - 1)| * 1000000⌋) : ℤ) : ℚ) := by
      exact_mod_cast first
    linarith

/-- C49, finding: `gamma` has no effect. A binning is an optimal answer with regularisation (any `gamma ≥ 0`) exactly if it is
one without: the variables `pmax` and `pmin` are not linked to the bins. -/
theorem C49_gamma_no_effect (o : Opts) (inp : ContInput) (g : ℚ) (hg : 0 < g) (hpos : 0 < inp.records.sum)
    (sol : ℕ → Bool) :
    (∃ a, (SolverAnswer.optimal a).Valid (acceptsCont { o with gamma := true } inp) (contObjective { o with gamma := true } g inp) ∧
        ∀ k, (a.x k k != 0) = sol k) ↔
    (∃ a, (SolverAnswer.optimal a).Valid (acceptsCont { o with gamma := false } inp) (contObjective { o with gamma := false } g inp) ∧
        ∀ k, (a.x k k != 0) = sol k) := by
  set R := ⌈(scale : ℚ) * g / ((inp.records.sum : ℕ) : ℚ)⌉ with hR
  have hr : 0 < R := by
    apply Int.ceil_pos.2
    have : (0 : ℚ) < ((scale : ℤ) : ℚ) := by norm_num [scale]
    have : (0 : ℚ) < ((inp.records.sum : ℕ) : ℚ) := by exact_mod_cast hpos
    positivity
  -- dropping and adding the regularisation variables
  have down : ∀ a, acceptsCont { o with gamma := true } inp a → acceptsCont { o with gamma := false } inp a := by
    rintro a ⟨h1, -, h3⟩
    exact ⟨h1, by intro h; simp at h, h3⟩
  have up : ∀ a, acceptsCont { o with gamma := false } inp a →
      acceptsCont { o with gamma := true } inp { a with pmax := 0, pmin := inp.records.sum } := by
    rintro a ⟨h1, -, h3, h4, h5, h6, h7, h8⟩
    refine ⟨h1, fun _ => ⟨le_rfl, by positivity, by positivity, le_rfl⟩, h3, h4, h5, h6, ?_, h8⟩
    revert h7
    cases o.trend <;> exact id
  constructor
  · rintro ⟨a, ⟨ha, hmax⟩, hx⟩
    refine ⟨a, ⟨down a ha, fun a' ha' => ?_⟩, hx⟩
    have h := hmax _ (up a' ha')
    have hd := ha.2.1 rfl
    simp only [contObjective, if_true, Bool.false_eq_true, if_false, sub_zero, ← hR] at h ⊢
    nlinarith [mul_nonneg hr.le (show (0 : ℤ) ≤ (a.pmax - a.pmin) - (0 - inp.records.sum) by omega)]
  · rintro ⟨a, ⟨ha, hmax⟩, hx⟩
    refine ⟨_, ⟨up a ha, fun a' ha' => ?_⟩, hx⟩
    have h := hmax _ (down a' ha')
    have hd := ha'.2.1 rfl
    simp only [contObjective, if_true, Bool.false_eq_true, if_false, sub_zero, ← hR] at h ⊢
    nlinarith [mul_nonneg hr.le (show (0 : ℤ) ≤ (a'.pmax - a'.pmin) - (0 - inp.records.sum) by omega)]

end OptBinning
