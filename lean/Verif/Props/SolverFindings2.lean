import Verif.Props.SolverFindings
import Verif.Props.MulticlassSolver
import Verif.Props.ScenarioSolver

/-!
# Where the full statements of C55 and C59 fail for the unchanged code
-/
namespace OptBinning
open Finset Spec

/-- The bins of the binning {0,1}, {2,3}. -/
theorem twoSol_bins {s e : ℕ} (h : IsBin 4 twoSol s e) : (s = 0 ∧ e = 1) ∨ (s = 2 ∧ e = 3) := by
  obtain ⟨h1, h2, h3, h4, h5⟩ := h
  have c1 : e = 1 ∨ e = 3 := by simpa [twoSol] using h3
  rcases c1 with rfl | rfl
  · rcases h4 with h4 | h4
    · omega
    · simp [twoSol] at h4; omega
  · rcases h4 with h4 | h4
    · have := h5 1 (by omega) (by omega); simp [twoSol] at this
    · simp [twoSol] at h4; omega

/-- Three classes, four pre-bins of 50 records; the records of class 0 are 1, 25, 20, 45. -/
noncomputable def cutMulti : MultiInput where
  n := 4
  event := [[1, 25, 20, 45], [25, 12, 15, 2], [24, 13, 15, 3]]
  nonevent := [[49, 25, 30, 5], [25, 38, 35, 48], [26, 37, 35, 47]]

def cutOpts : MultiOpts := { trends := [.ascending, .unconstrained, .unconstrained] }

theorem cutMulti_wf : cutMulti.Wf cutOpts := ⟨by decide, rfl, by decide, rfl, by decide, by decide⟩

/-- C55 is false with preprocessing cuts: with trend ascending for class 0 (and none for the others) the binning
{0,1},{2,3} is admissible for every class, but neither formulation accepts it. -/
theorem C55_cuts_exclude_admissible :
    (∀ c < cutMulti.classes,
        Admissible (cutOpts.cls c) cutMulti.n twoSol (cutMulti.cls c).ne (cutMulti.cls c).ev
          (eventRate (cutMulti.cls c).ne (cutMulti.cls c).ev) ∧
        Separated cutMulti.policy cutMulti.n twoSol (failsTest (cutMulti.cls c)) ∧
        Separated .consecutive cutMulti.n twoSol (tooClose (cutMulti.cls c))) ∧
    (¬ ∃ a, acceptsMultiCP cutOpts cutMulti a ∧ ∀ k < cutMulti.n, (a.x k k != 0) = twoSol k) ∧
    ¬ ∃ a, acceptsMultiMIP cutOpts cutMulti a ∧ ∀ k < cutMulti.n, (a.x k k != 0) = twoSol k := by
  have hn : cutMulti.n = 4 := rfl
  have a1 : cumAt (cutMulti.cls 0).event 2 1 = 45 := rfl
  have a2 : cumAt (cutMulti.cls 0).nonevent 2 1 = 55 := rfl
  have a3 : cumAt (cutMulti.cls 0).event 2 2 = 20 := rfl
  have a4 : cumAt (cutMulti.cls 0).nonevent 2 2 = 30 := rfl
  have q1 : (cutMulti.cls 0).rate 2 1 = 45 / 100 := by unfold BinaryInput.rate; rw [a1, a2]; norm_num
  have q2 : (cutMulti.cls 0).rate 2 2 = 20 / 50 := by unfold BinaryInput.rate; rw [a3, a4]; norm_num
  have hcontra : ∀ a : Assign, (∀ k < cutMulti.n, (a.x k k != 0) = twoSol k) → a.x 1 1 = 0 → False := by
    intro a hd h0
    have := hd 1 (by rw [hn]; omega)
    simp [h0, twoSol] at this
  refine ⟨?_, ?_, ?_⟩
  · intro c hc
    change c < 3 at hc
    refine ⟨?_, ?_, ?_⟩
    · have htr : TrendHolds 4 twoSol (eventRate (cutMulti.cls c).ne (cutMulti.cls c).ev) (cutOpts.cls c).trend := by
        interval_cases c
        · change TrendHolds 4 twoSol _ .ascending
          intro s e s' e' hb hb' hlt _ _
          have t1 : binTotal (cutMulti.cls 0).ev 0 1 = 26 := rfl
          have t2 : binTotal (cutMulti.cls 0).ne 0 1 = 74 := rfl
          have t3 : binTotal (cutMulti.cls 0).ev 2 3 = 65 := rfl
          have t4 : binTotal (cutMulti.cls 0).ne 2 3 = 35 := rfl
          rcases twoSol_bins hb with ⟨rfl, rfl⟩ | ⟨rfl, rfl⟩ <;> rcases twoSol_bins hb' with ⟨rfl, rfl⟩ | ⟨rfl, rfl⟩
          · omega
          · unfold eventRate; rw [t1, t2, t3, t4]; norm_num
          · omega
          · omega
        · exact trivial
        · exact trivial
      exact ⟨⟨by decide, rfl⟩, by simp [MultiOpts.cls, cutOpts, AtLeast], by simp [MultiOpts.cls, cutOpts, AtMost],
        by simp [MultiOpts.cls, AtLeast], by simp [MultiOpts.cls, AtMost], by simp [MultiOpts.cls, AtLeast],
        by simp [MultiOpts.cls, AtMost], by simp [MultiOpts.cls, AtLeast], by simp [MultiOpts.cls, AtMost], htr,
        by simp [MultiOpts.cls, cutOpts]⟩
    · rintro s e s' e' - - - - ⟨t, ht, -⟩
      simp [MultiInput.cls, cutMulti] at ht
    · rintro s e s' e' - - - - h
      have : (0 : ℚ) < (cutMulti.cls c).minDiff := h.1
      simp [MultiInput.cls, cutMulti] at this
  · rintro ⟨a, ha, hd⟩
    have hm : monoAscending { minRateDiffZero := decide (cutMulti.minDiff = 0) } (1000000 : ℤ) cutMulti.n (cutMulti.cls 0).rateCP a.x :=
      ha.2.1 0 (by decide)
    have r1 : (cutMulti.cls 0).rateCP 2 1 = 450000 := rateCP_val q1 (by norm_num) (by norm_num)
    have r2 : (cutMulti.cls 0).rateCP 2 2 = 400000 := rateCP_val q2 (by norm_num) (by norm_num)
    have h2 := hm.2 ⟨by simp [cutMulti], rfl⟩ 1 (by omega) (by rw [hn]; omega) (by rw [r1, r2]; norm_num)
    exact hcontra a hd h2.1
  · rintro ⟨a, ha, hd⟩
    have hm : monoAscending { minRateDiffZero := decide (cutMulti.minDiff = 0) } (1 : ℝ) cutMulti.n (cutMulti.cls 0).dataMIP.D a.x :=
      ha.2.1 0 (by decide)
    have d1 : (cutMulti.cls 0).dataMIP.D 2 1 = (((cutMulti.cls 0).rate 2 1 : ℚ) : ℝ) := rfl
    have d2 : (cutMulti.cls 0).dataMIP.D 2 2 = (((cutMulti.cls 0).rate 2 2 : ℚ) : ℝ) := rfl
    have h2 := hm.2 ⟨by simp [cutMulti], rfl⟩ 1 (by omega) (by rw [hn]; omega) (by rw [d1, d2, q1, q2]; norm_num)
    exact hcontra a hd h2.1

/-- Two scenarios: event rates 0.8, 0.9, 0.9, 0.8 and one half everywhere. -/
noncomputable def concScen : MultiInput where
  n := 4
  event := [[8, 9, 9, 8], [5, 5, 5, 5]]
  nonevent := [[2, 1, 1, 2], [5, 5, 5, 5]]

theorem concScen_rect : concScen.Rect := ⟨by decide, by decide, rfl, by decide, by decide⟩

/-- C59 is false for "concave": a binning with two bins (no triple of bins, so the trend demands nothing) satisfies all
constraints in both scenarios, but the solver does not accept it. -/
theorem C59_concave_excludes_admissible :
    (TrendInAll concScen.classes concScen.n twoSol
        (fun i s e => ⌊eventRate (concScen.cls i).ne (concScen.cls i).ev s e * 1000000⌋) .concave ∧
      ∀ i < concScen.classes,
        Admissible ({ trend := .concave : ScenOpts }.limits i) concScen.n twoSol (concScen.cls i).ne (concScen.cls i).ev (rate6 (concScen.cls i)) ∧
        Separated concScen.policy concScen.n twoSol (failsTest (concScen.cls i)) ∧
        Separated .consecutive concScen.n twoSol (tooClose6 (concScen.cls i))) ∧
    ¬ ∃ a, acceptsScen { trend := .concave } concScen a ∧ ∀ k < concScen.n, (a.x k k != 0) = twoSol k := by
  have hn : concScen.n = 4 := rfl
  refine ⟨⟨?_, ?_⟩, ?_⟩
  · intro i _ s₁ e₁ s₂ e₂ s₃ e₃ h1 h2 h3 h12 h23
    have c1 : e₁ = 1 ∨ e₁ = 3 := by simpa [twoSol] using h1.2.2.1
    have c2 : e₂ = 1 ∨ e₂ = 3 := by simpa [twoSol] using h2.2.2.1
    have c3 : e₃ = 1 ∨ e₃ = 3 := by simpa [twoSol] using h3.2.2.1
    omega
  · intro i _
    refine ⟨?_, ?_, ?_⟩
    · exact ⟨⟨by decide, rfl⟩, by simp [ScenOpts.limits, AtLeast], by simp [ScenOpts.limits, AtMost],
        by simp [ScenOpts.limits, AtLeast], by simp [ScenOpts.limits, AtMost], by simp [ScenOpts.limits, AtLeast],
        by simp [ScenOpts.limits, AtMost], by simp [ScenOpts.limits, AtLeast], by simp [ScenOpts.limits, AtMost], trivial,
        by simp [ScenOpts.limits]⟩
    · rintro s e s' e' - - - - ⟨t, ht, -⟩
      simp [MultiInput.cls, concScen] at ht
    · rintro s e s' e' - - - - h
      have : (0 : ℚ) < (concScen.cls i).minDiff := h.1
      simp [MultiInput.cls, concScen] at this
  · rintro ⟨a, ha, hd⟩
    have hc : Core 4 a.x := ha.core
    have hd' : ∀ k < 4, diag a.x k = twoSol k := hd
    have b1 : IsBin 4 (diag a.x) 0 1 := by
      refine ⟨by omega, by omega, by rw [hd' 1 (by omega)]; rfl, Or.inl rfl, fun k _ h2 => ?_⟩
      have : k = 0 := by omega
      subst this; rw [hd' 0 (by omega)]; rfl
    have b2 : IsBin 4 (diag a.x) 2 3 := by
      refine ⟨by omega, by omega, by rw [hd' 3 (by omega)]; rfl, Or.inr (by rw [hd' 1 (by omega)]; rfl),
        fun k _ h2 => ?_⟩
      have : k = 2 := by omega
      subst this; rw [hd' 2 (by omega)]; rfl
    have x2 : a.x 2 2 = 0 := by
      rw [← diag_eq_false hc (by omega), hd' 2 (by omega)]; rfl
    have hm : monoConcave (1000000 : ℤ) concScen.n (concScen.cls 0).rateCP a.x := ha.2.2.2.2.2.1 0 (by decide)
    have h := hm 3 (by omega) (by rw [hn]; omega) 2 (by omega) (by omega) 1 (by omega)
    rw [hc.rowRate_bin (concScen.cls 0).rateCP b1, hc.rowRate_bin (concScen.cls 0).rateCP b2,
      hc.rowRate_none (concScen.cls 0).rateCP (by omega) x2, hc.end_one b1, hc.end_one b2, x2] at h
    have a1 : cumAt (concScen.cls 0).event 3 2 = 17 := rfl
    have a2 : cumAt (concScen.cls 0).nonevent 3 2 = 3 := rfl
    have a3 : cumAt (concScen.cls 0).event 1 0 = 17 := rfl
    have a4 : cumAt (concScen.cls 0).nonevent 1 0 = 3 := rfl
    have r1 : (concScen.cls 0).rateCP 3 2 = 850000 := by
      refine rateCP_val (q := 17 / 20) ?_ (by norm_num) (by norm_num)
      unfold BinaryInput.rate; rw [a1, a2]; norm_num
    have r2 : (concScen.cls 0).rateCP 1 0 = 850000 := by
      refine rateCP_val (q := 17 / 20) ?_ (by norm_num) (by norm_num)
      unfold BinaryInput.rate; rw [a3, a4]; norm_num
    rw [r1, r2] at h
    norm_num at h

end OptBinning
