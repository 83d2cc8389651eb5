import Verif.Props.ParamsC
import Verif.Props.ParamsFit

/-!
# C104: a concrete fit
-/
namespace OptBinning
open Finset Spec

open Classical in
/-- A solver that keeps every pre-bin as a bin whenever the model accepts that. -/
noncomputable def keepAllC (c : SolverCfgC) : SolverC := fun cells =>
  if h : ∃ a, acceptsCont (c.opts cells) (c.input cells) a ∧ ∀ k, (a.x k k != 0) = true then .feasible (Classical.choose h)
  else .other "UNKNOWN"

theorem keepAllC_respects (c : SolverCfgC) : RespectsC c (keepAllC c) := by
  intro cells
  unfold keepAllC
  split_ifs with h
  · exact (Classical.choose_spec h).1
  · exact ⟨by decide, by decide⟩

theorem keepAllC_solve (c : SolverCfgC) (cells : List CellC)
    (h : ∃ a, acceptsCont (c.opts cells) (c.input cells) a ∧ ∀ k, (a.x k k != 0) = true) :
    solve cells.length (keepAllC c cells) = ("FEASIBLE", List.replicate cells.length true) := by
  unfold keepAllC
  rw [dif_pos h]
  simp only [solve]
  congr 1
  rw [List.eq_replicate_iff]
  refine ⟨by simp, fun b hb => ?_⟩
  obtain ⟨i, -, rfl⟩ := List.mem_map.1 hb
  exact (Classical.choose_spec h).2 i

/-- Three records, two values. -/
def threeRecsC : List (RecC ℕ) := [⟨some 0, some 1, 1⟩, ⟨some 0, some 3, 1⟩, ⟨some 1, some 5, 1⟩]

/-- `ContinuousOptimalBinning(monotonic_trend="ascending", min_n_bins=2, min_bin_size=1/3, max_bin_size=0.5, min_mean_diff=3)`. -/
def threeParamsC : ParamsC :=
  { trend := .ascending, minBins := some 2, minBinSize := some (.num (1 / 3)), maxBinSize := some (.num (1 / 2)), minMeanDiff := .num 3 }

/-- The two pre-bins. -/
def threeCells : List CellC := [⟨2, 4, 10, 0, some 1, some 3⟩, ⟨1, 5, 25, 0, some 5, some 5⟩]

theorem threeSolveC (hull : List ℚ → Option ℚ) (pv : ℚ → ℝ → ℕ → ℚ → ℝ → ℕ → ℝ) :
    ∃ c, c = threeParamsC.cfg hull pv threeRecsC.length ∧ RespectsC c (keepAllC c) ∧
      solve threeCells.length (keepAllC c threeCells) = ("FEASIBLE", List.replicate threeCells.length true) := by
  set c := threeParamsC.cfg hull pv threeRecsC.length with hc
  have hopt : c.opts threeCells = { trend := .ascending, minBins := some 2, minSize := some 1, maxSize := some 2 } := by
    have e1 : ceilSize 3 (.num (1 / 3)) = 1 := by decide +kernel
    have e2 : ceilSize 3 (.num (1 / 2)) = 2 := by decide +kernel
    have hl : threeRecsC.length = 3 := rfl
    simp only [hc, ParamsC.cfg, ParamsC.options, threeParamsC, resolveTrendC, bind, Except.bind, pure, Except.pure, Option.map_some, hl, e1, e2]
    rfl
  have hn : (c.input threeCells).n = 2 := rfl
  have hrec : (c.input threeCells).recs = fun k => (([2, 1].getD k 0 : ℕ) : ℤ) := rfl
  have hsum : (c.input threeCells).sum = fun k => ([4, 5] : List ℚ).getD k 0 := rfl
  have hb : ∀ s e, IsBin 2 (fun _ => true) s e → s = e ∧ e < 2 := by
    intro s e h
    have h1 : e < 2 := h.2.1
    have h2 := h.1
    refine ⟨?_, h1⟩
    by_contra hne
    have := h.2.2.2.2 s (le_refl s) (by omega)
    simp at this
  have hmean : ∀ k < 2, binMean (c.input threeCells).recs (c.input threeCells).sum k k = if k = 0 then 2 else 5 := by
    intro k hk
    unfold binMean binTotal
    rw [Finset.Icc_self, Finset.sum_singleton, Finset.sum_singleton, hrec, hsum]
    interval_cases k
    · norm_num
    · norm_num
  have hacc : ∃ a, acceptsCont (c.opts threeCells) (c.input threeCells) a ∧ ∀ k, (a.x k k != 0) = true := by
    rw [hopt]
    have hw : (c.input threeCells).Wf := ⟨rfl, rfl, show 0 < 2 by decide, show ∀ x ∈ [2, 1], 0 < x by decide⟩
    refine (C48_exact_partial hw (by intro tc h; simp at h) (Or.inl (by simp)) (fun _ => true)).2 ⟨⟨?_, ?_, ?_, ?_, ?_, ?_, ?_⟩, ?_, ?_⟩
    · exact ⟨show 0 < 2 by decide, rfl⟩
    · intro b hb2
      simp only [Option.some.injEq] at hb2
      subst hb2
      have : numBins 2 (fun _ => true) = 2 := by decide
      rw [hn, this]; norm_num
    · simp [AtMost]
    · intro s e h b hb2
      obtain ⟨rfl, h2⟩ := hb s e h
      simp only [Option.some.injEq] at hb2
      subst hb2
      rw [binTotal, Finset.Icc_self, Finset.sum_singleton, hrec]
      interval_cases s <;> simp
    · intro s e h b hb2
      obtain ⟨rfl, h2⟩ := hb s e h
      simp only [Option.some.injEq] at hb2
      subst hb2
      rw [binTotal, Finset.Icc_self, Finset.sum_singleton, hrec]
      interval_cases s <;> simp
    · intro s e s' e' h h' hlt _ _
      obtain ⟨rfl, h2⟩ := hb s e h
      obtain ⟨rfl, h3⟩ := hb s' e' h'
      refine truncRat_mono ?_
      rw [hmean s h2, hmean s' h3]
      split_ifs
      · norm_num
      · norm_num
      · omega
      · norm_num
    · simp
    · rintro s e s' e' - - - - ⟨t, ht, -⟩
      simp [hc, ParamsC.cfg, threeParamsC, SolverCfgC.input] at ht
    · rintro s e s' e' h h' hlt - ⟨-, h4⟩
      obtain ⟨rfl, h2⟩ := hb s e h
      obtain ⟨rfl, h3⟩ := hb s' e' h'
      rw [hmean s h2, hmean s' h3] at h4
      have hd : (c.input threeCells).minDiff = 3 := rfl
      rw [hd] at h4
      have : s = 0 ∧ s' = 1 := by omega
      obtain ⟨rfl, rfl⟩ := this
      norm_num at h4
  exact ⟨c, rfl, keepAllC_respects c, keepAllC_solve c threeCells hacc⟩

theorem threeFitC (hull : List ℚ → Option ℚ) (pv : ℚ → ℝ → ℕ → ℚ → ℝ → ℕ → ℝ) :
    ∃ c, c = threeParamsC.cfg hull pv threeRecsC.length ∧ RespectsC c (keepAllC c) ∧
      fitParamsC threeParamsC .none none (fun _ => [1]) (keepAllC c) {} threeRecsC = .ok (⟨none, none, none⟩, ⟨"FEASIBLE", [1],
        [⟨2, some 4, some 1, some 1, some 3, 0⟩, ⟨1, some 5, some 0, some 5, some 5, 0⟩, ⟨0, some 0, none, none, none, 0⟩,
         ⟨0, some 0, none, none, none, 0⟩]⟩) := by
  obtain ⟨c, hc, hresp, hsolve⟩ := threeSolveC hull pv
  refine ⟨c, hc, hresp, ?_⟩
  have hs : specialRows .none (splitDataC .none none threeRecsC).special = .ok [⟨0, some 0, none, none, none, 0⟩] := by decide +kernel
  have hm : missingRow {} (splitDataC .none none threeRecsC).missing = ⟨0, some 0, none, none, none, 0⟩ := by decide +kernel
  have hcells : prebinCells false 2 [1] (splitDataC .none none threeRecsC).clean = threeCells := by decide +kernel
  have hpb : computePrebinsC false (splitDataC .none none threeRecsC).clean {} [1] = .ok ⟨{}, [1], threeCells⟩ := by
    rw [computePrebinsC]
    simp only [List.length_cons, List.length_nil, prebinNumber, Bool.false_eq_true, if_false, hcells]
    rw [dif_neg (by decide), dif_neg (by decide)]
  have hlen : threeCells.length = 2 := rfl
  have hne : (splitDataC .none none threeRecsC).clean ≠ [] := by decide +kernel
  have hchk : checkParametersC threeParamsC = .ok () := by decide +kernel
  unfold fitParamsC
  rw [hchk]
  simp only [fitNumericalC, hs, hm, fitCoreC, hpb, bind, Except.bind, pure, Except.pure, List.length_cons, List.length_nil,
    fitOptimizerC, hne, if_false]
  rw [if_neg (by decide), if_neg (by decide), hsolve]
  simp only [Except.ok.injEq, Prod.mk.injEq, true_and, FittedC.mk.injEq, Option.toList_none, List.append_nil]
  constructor
  · decide
  · decide +kernel

/-- Non-vacuity of `C104_limits`, `C104_trend`, `C104_monotone`, `C104_min_mean_diff`, `C104_pvalues`: a fit with two bins, and its
Counts, Means and standard deviations. -/
example (hull : List ℚ → Option ℚ) (pv : ℚ → ℝ → ℕ → ℚ → ℝ → ℕ → ℝ) : ∃ solver, RespectsC (threeParamsC.cfg hull pv threeRecsC.length) solver ∧
    ∃ (old : MissingStats) (f : FittedC ℕ), fitParamsC threeParamsC .none none (fun _ => [1]) solver {} threeRecsC = .ok (old, f) ∧
      f.splits ≠ [] ∧ ∃ (cnt : ℕ → ℕ) (m : ℕ → ℚ) (sd : ℕ → ℝ), ∀ k ≤ f.splits.length, RowShows f.rows k (cnt k) (m k) (sd k) := by
  obtain ⟨c, rfl, hr, hf⟩ := threeFitC hull pv
  refine ⟨_, hr, _, _, hf, by simp, fun k => if k = 0 then 2 else 1, fun k => if k = 0 then 2 else 5,
    fun k => if k = 0 then Real.sqrt 1 else Real.sqrt 0, ?_⟩
  intro k hk
  have hk : k ≤ 1 := hk
  interval_cases k
  · exact ⟨_, rfl, rfl, by decide +kernel, 1, rfl, by simp⟩
  · exact ⟨_, rfl, rfl, by decide +kernel, 0, rfl, by simp⟩

/-- Finding: a bin may contain more than the fraction `max_bin_size` of the records (the limit is rounded up): here 2 of 3
records with `max_bin_size=0.5`. -/
theorem C104_max_size_exceeded : ∃ (p : ParamsC) (recs : List (RecC ℕ)) (solver : SolverC) (old : MissingStats) (f : FittedC ℕ) (q : ℚ)
    (cnt : ℕ) (m : ℚ) (sd : ℝ),
    RespectsC (p.cfg (fun _ => none) (fun _ _ _ _ _ _ => 0) recs.length) solver ∧ KnownTargetsC recs ∧ UnitWeights recs ∧
    fitParamsC p .none none (fun _ => [1]) solver {} recs = .ok (old, f) ∧ f.splits ≠ [] ∧ p.maxBinSize = some (.num q) ∧
    RowShows f.rows 0 cnt m sd ∧ q * (recs.length : ℚ) < (cnt : ℚ) := by
  obtain ⟨c, rfl, hr, hf⟩ := threeFitC (fun _ => none) (fun _ _ _ _ _ _ => 0)
  refine ⟨threeParamsC, threeRecsC, _, _, _, 1 / 2, 2, 2, Real.sqrt 1, hr, ?_, ?_, hf, by simp, rfl,
    ⟨_, rfl, rfl, by decide +kernel, 1, rfl, by simp⟩, ?_⟩
  · unfold KnownTargetsC threeRecsC; simp
  · unfold UnitWeights threeRecsC; simp
  · have : threeRecsC.length = 3 := rfl
    rw [this]
    norm_num

end OptBinning
