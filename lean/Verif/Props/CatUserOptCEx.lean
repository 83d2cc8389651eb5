import Verif.Props.CatUserOptC
import Verif.Props.CatUserCEx

/-!
# C122: a concrete optimal fit
-/
namespace OptBinning
open Finset Spec

/-- `ContinuousOptimalBinning(dtype="categorical", monotonic_trend="descending", min_n_bins=2, min_mean_diff=3)`; the Means ascend nevertheless. -/
def twoCatParamsC : ParamsC := { trend := .descending, minBins := some 2, minMeanDiff := .num 3 }

/-- A fit with a solver that answers OPTIMAL; `min_n_bins = 2` leaves one choice of cut points. -/
theorem threeUserOptC (hull : List ℚ → Option ℚ) (pv : ℚ → ℝ → ℕ → ℚ → ℝ → ℕ → ℝ) :
    ∃ (solver : SolverC) (old : MissingStats) (f : CatUserFittedC ℕ),
      RespectsC (twoCatParamsC.forCategorical.cfg hull pv threeCatRecsC.length) solver ∧
      fitCatUserParamsC twoCatParamsC none .none sortGroupsImplC solver [[4, 9], [7]] {} threeCatRecsC = .ok (old, f) ∧
      f.status = "OPTIMAL" ∧ f.splits = [0, 1] ∧ f.groups = [[7], [4, 9]] ∧ f.others = [] ∧
      RespectsC (twoCatParamsC.forCategorical.cfgFixed hull pv threeCatRecsC.length (some ⟨[true, false], true⟩)) solver ∧
      solve threeCells.length (solver threeCells) = ("OPTIMAL", [true, true]) := by
  set c := twoCatParamsC.forCategorical.cfg hull pv threeCatRecsC.length with hc
  have hopt : c.opts threeCells = { trend := .ascending, minBins := some 2 } := by
    simp only [hc, ParamsC.cfg, ParamsC.options, ParamsC.forCategorical, twoCatParamsC, TrendArg.categorical, resolveTrendC, bind, Except.bind, pure,
      Except.pure]
    rfl
  have hwf : (c.input threeCells).Wf := ⟨rfl, rfl, show 0 < 2 by decide, show ∀ x ∈ [2, 1], 0 < x by decide⟩
  have hch : ChangeInRange (c.opts threeCells) (c.input threeCells) := by rw [hopt]; intro tc h; simp at h
  have hn : (c.input threeCells).n = 2 := rfl
  have hrec : (c.input threeCells).recs = fun k => (([2, 1].getD k 0 : ℕ) : ℤ) := rfl
  have hsum : (c.input threeCells).sum = fun k => ([4, 5] : List ℚ).getD k 0 := rfl
  have hb : ∀ s e, IsBin 2 (fun _ => true) s e → s = e ∧ e < 2 := by
    intro s e h
    have h1 : e < 2 := h.2.1
    have h2 := h.1
    refine ⟨?_, h1⟩
    by_contra hne
    have := h.2.2.2.2 s (le_refl s) (by omega)
    simp at this
  have hmean : ∀ k < 2, binMean (c.input threeCells).recs (c.input threeCells).sum k k = if k = 0 then 2 else 5 := by
    intro k hk
    unfold binMean binTotal
    rw [Finset.Icc_self, Finset.sum_singleton, Finset.sum_singleton, hrec, hsum]
    interval_cases k
    · norm_num
    · norm_num
  obtain ⟨a, ha, -⟩ : ∃ a, acceptsCont (c.opts threeCells) (c.input threeCells) a ∧ ∀ k, (a.x k k != 0) = true := by
    rw [hopt]
    refine (C48_exact_partial hwf (by intro tc h; simp at h) (Or.inl (by simp)) (fun _ => true)).2 ⟨⟨?_, ?_, ?_, ?_, ?_, ?_, ?_⟩, ?_, ?_⟩
    · exact ⟨show 0 < 2 by decide, rfl⟩
    · intro b hb2
      simp only [Option.some.injEq] at hb2
      subst hb2
      have : numBins 2 (fun _ => true) = 2 := by decide
      rw [hn, this]; norm_num
    · simp [AtMost]
    · simp [AtLeast]
    · simp [AtMost]
    · intro s e s' e' h h' hlt _ _
      obtain ⟨rfl, h2⟩ := hb s e h
      obtain ⟨rfl, h3⟩ := hb s' e' h'
      refine truncRat_mono ?_
      rw [hmean s h2, hmean s' h3]
      split_ifs
      · norm_num
      · norm_num
      · omega
      · norm_num
    · simp
    · rintro s e s' e' - - - - ⟨t, ht, -⟩
      simp [hc, ParamsC.cfg, ParamsC.forCategorical, twoCatParamsC, SolverCfgC.input] at ht
    · rintro s e s' e' h h' hlt - ⟨-, h4⟩
      obtain ⟨rfl, h2⟩ := hb s e h
      obtain ⟨rfl, h3⟩ := hb s' e' h'
      rw [hmean s h2, hmean s' h3] at h4
      have hd : (c.input threeCells).minDiff = 3 := rfl
      rw [hd] at h4
      have : s = 0 ∧ s' = 1 := by omega
      obtain ⟨rfl, rfl⟩ := this
      norm_num at h4
  have hall : ∀ b, acceptsCont (c.opts threeCells) (c.input threeCells) b → ∀ k < 2, (b.x k k != 0) = true := by
    intro b hb k hk
    have hadm := (hb.sound hwf hch).1
    have h1 : (b.x 1 1 != 0) = true := hadm.binning.2
    have hmin := hadm.minBins 2 (by rw [hopt])
    interval_cases k
    · by_contra h
      have h' : (b.x 0 0 != 0) = false := by simpa using h
      have hnb : numBins 2 (diag b.x) = 1 := by
        unfold numBins
        rw [show (Finset.range 2).filter (fun k => diag b.x k = true) = {1} from ?_]
        · rfl
        · ext k
          simp only [Finset.mem_filter, Finset.mem_range, Finset.mem_singleton]
          constructor
          · rintro ⟨h2, h3⟩
            interval_cases k
            · exact absurd h3 (by show ¬ ((b.x 0 0 != 0) = true); rw [h']; decide)
            · rfl
          · rintro rfl
            exact ⟨by decide, h1⟩
      rw [hn, hnb] at hmin
      norm_num at hmin
    · exact h1
  have hval : ∀ b, acceptsCont (c.opts threeCells) (c.input threeCells) b → contObjective (c.opts threeCells) c.gamma (c.input threeCells) b =
      contObjective (c.opts threeCells) c.gamma (c.input threeCells) a := by
    have e1 : ∀ b, contObjective (c.opts threeCells) c.gamma (c.input threeCells) b = contObjectivePlain (c.input threeCells) b.x := by
      intro b; unfold contObjective; rw [hopt]; simp
    intro b hb
    rw [e1, e1, contObjective_eq hwf hb.core, contObjective_eq hwf ha.core]
    unfold totalOverBins
    rw [show binsOf (c.input threeCells).n (diag b.x) = binsOf (c.input threeCells).n (diag a.x) from binsOf_congr fun k hk =>
      (hall b hb k hk).trans (hall a ha k hk).symm]
  let solver : SolverC := fun cells => if cells = threeCells then .optimal a else .other "UNKNOWN"
  have hsv : solve threeCells.length (solver threeCells) = ("OPTIMAL", [true, true]) := by
    have h0 := hall a ha 0 (by decide)
    have h1 := hall a ha 1 (by decide)
    show solve 2 (if threeCells = threeCells then .optimal a else .other "UNKNOWN") = _
    rw [if_pos rfl]
    simp only [solve, List.range_succ, List.range_zero, List.nil_append, List.singleton_append, List.map_cons, List.map_nil, h0, h1]
  refine ⟨solver, _, _, fun cells => ?_, threeUserFit_of (by decide +kernel) hsv, rfl, rfl, rfl, rfl, fun cells => ?_, hsv⟩
  swap
  · have hfull : ∀ b, acceptsCont (c.opts threeCells) (c.input threeCells) b ↔
        acceptsCont { c.opts threeCells with fixed := some fun i => [true, false].getD i false } (c.input threeCells) b := by
      intro b
      constructor
      · intro hb
        have hb' := hb
        obtain ⟨h1, h2, h3, h4, h5, h6, h7, h8, h9, -⟩ := hb'
        refine ⟨h1, h2, h3, h4, h5, h6, h7, h8, h9, fun g _ i hi _ => ?_⟩
        rw [hn] at hi
        exact (diag_eq_true (n := (c.input threeCells).n) hb.core (by rw [hn]; omega)).1 (hall b hb i (by omega))
      · exact acceptsCont_fixed (by rw [hopt])
    by_cases h : cells = threeCells
    · subst h
      show SolverAnswer.Valid _ _ (if threeCells = threeCells then .optimal a else .other "UNKNOWN")
      rw [if_pos rfl]
      exact ⟨(hfull a).1 ha, fun y hy => le_of_eq (hval y ((hfull y).2 hy))⟩
    · show SolverAnswer.Valid _ _ (if cells = threeCells then .optimal a else .other "UNKNOWN")
      rw [if_neg h]
      exact ⟨by decide, by decide⟩
  by_cases h : cells = threeCells
  · subst h
    show SolverAnswer.Valid _ _ (if threeCells = threeCells then .optimal a else .other "UNKNOWN")
    rw [if_pos rfl]
    exact ⟨ha, fun y hy => le_of_eq (hval y hy)⟩
  · show SolverAnswer.Valid _ _ (if cells = threeCells then .optimal a else .other "UNKNOWN")
    rw [if_neg h]
    exact ⟨by decide, by decide⟩

/-- Non-vacuity of `C122_optimal`: the fit above meets its hypotheses; every group occurs, and the cut point `1` meets the arguments. -/
example (hull : List ℚ → Option ℚ) (pv : ℚ → ℝ → ℕ → ℚ → ℝ → ℕ → ℝ) :
    ∃ (solver : SolverC) (old : MissingStats) (f : CatUserFittedC ℕ),
      RespectsC (twoCatParamsC.forCategorical.cfg hull pv threeCatRecsC.length) solver ∧ UnitWeights threeCatRecsC ∧
      fitCatUserParamsC twoCatParamsC none .none sortGroupsImplC solver [[4, 9], [7]] {} threeCatRecsC = .ok (old, f) ∧ f.status = "OPTIMAL" ∧
      (∀ g ∈ ([[4, 9], [7]] : List (List ℕ)), Occurs .none threeCatRecsC g) ∧
      groupedRecsC .none f.groups threeCatRecsC = threeRecsC ∧
      CutsMeetC { twoCatParamsC with trend := .none } pv threeCatRecsC.length (groupedRecsC .none f.groups threeCatRecsC) [1] ∧
      MeansRise (groupedRecsC .none f.groups threeCatRecsC) [1] 0 2 := by
  obtain ⟨solver, old, f, h1, h2, h3, h4, h5, h6, -⟩ := threeUserOptC hull pv
  have hg : groupedRecsC .none f.groups threeCatRecsC = threeRecsC := by
    obtain ⟨-, -, k⟩ := fitCatUserParamsC_ok h2
    rw [← groupedRecsC_eq sortGroupsImplC_perm k, h5, h6]
    decide +kernel
  have ht0 : cutTargets threeRecsC [1] 0 = [1, 3] := by simp [cutTargets, targetsOf, threeRecsC, InInterval]
  have ht1 : cutTargets threeRecsC [1] 1 = [5] := by simp [cutTargets, targetsOf, threeRecsC, InInterval]
  have hm0 : cutMean threeRecsC [1] 0 = 2 := by simp only [cutMean, ht0, mean]; norm_num
  have hm1 : cutMean threeRecsC [1] 1 = 5 := by simp only [cutMean, ht1, mean]; norm_num
  refine ⟨solver, old, f, h1, unit_threeCatRecsC, h2, h3, ?_, hg, ?_, ?_⟩
  · intro g hg
    simp only [List.mem_cons, List.not_mem_nil, or_false] at hg
    rcases hg with rfl | rfl
    · exact ⟨4, by simp, ⟨some 4, some 5, 1⟩, by decide, ⟨by simp, by simp, by simp [IsSpecialValue]⟩, rfl⟩
    · exact ⟨7, by simp, ⟨some 7, some 1, 1⟩, by decide, ⟨by simp, by simp, by simp [IsSpecialValue]⟩, rfl⟩
  · rw [hg]
    constructor <;> simp [twoCatParamsC, AtLeast, AtMost]
    rw [hm0, hm1]
    norm_num [abs_of_nonpos]
  · rw [hg]
    intro k k' _ h h' _
    have : k = 0 ∧ k' = 1 := by omega
    obtain ⟨rfl, rfl⟩ := this
    rw [hm0, hm1]
    norm_num

end OptBinning
