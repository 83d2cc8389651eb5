import Verif.Props.CatParamsC
import Verif.Props.ParamsCEx

/-!
# C121: a concrete fit
-/
namespace OptBinning
open OptBinning.Spec

variable {κ : Type} [LinearOrder κ]

/-- An executable ranking. -/
def rankImplC (l : List (RecC κ)) : List κ :=
  (l.filterMap RecC.x).dedup.insertionSort fun a b => mean (catTargets l a) ≤ mean (catTargets l b)

theorem rankImplC_isRanking (l : List (RecC κ)) : IsRankingC l (rankImplC l) := by
  have : Std.Total (fun a b : κ => mean (catTargets l a) ≤ mean (catTargets l b)) := ⟨fun a b => le_total _ _⟩
  have : IsTrans κ (fun a b : κ => mean (catTargets l a) ≤ mean (catTargets l b)) := ⟨fun a b c => le_trans⟩
  have hp := List.perm_insertionSort (fun a b : κ => mean (catTargets l a) ≤ mean (catTargets l b)) (l.filterMap RecC.x).dedup
  refine ⟨hp.nodup_iff.2 (List.nodup_dedup _), fun c => ?_, List.pairwise_insertionSort _ _⟩
  unfold rankImplC
  rw [hp.mem_iff, List.mem_dedup, List.mem_filterMap]

/-- Category 7 has the mean 2, category 4 the mean 5. -/
def threeCatRecsC : List (RecC ℕ) := [⟨some 7, some 1, 1⟩, ⟨some 7, some 3, 1⟩, ⟨some 4, some 5, 1⟩]

/-- `ContinuousOptimalBinning(dtype="categorical", monotonic_trend="descending", min_n_bins=2, min_bin_size=1/3, max_bin_size=0.5,
min_mean_diff=3)`; the Means ascend nevertheless. -/
def threeCatParamsC : ParamsC := { threeParamsC with trend := .descending }

/-- Non-vacuity of the theorems of C121: a fit of two categories with two bins. -/
theorem threeCatFitC (hull : List ℚ → Option ℚ) (pv : ℚ → ℝ → ℕ → ℚ → ℝ → ℕ → ℝ) :
    ∃ solver, RespectsC (threeCatParamsC.forCategorical.cfg hull pv threeCatRecsC.length) solver ∧ UnitWeights threeCatRecsC ∧
      ∃ (old : MissingStats) (f : CatFittedC ℕ),
        fitCatParamsC threeCatParamsC none .none rankImplC (fun _ => [1]) solver {} threeCatRecsC = .ok (old, f) ∧
        f.splits = [1] ∧ f.bins = [[7], [4]] ∧
        RowShows f.rows 0 2 2 (Real.sqrt 1) ∧ RowShows f.rows 1 1 5 (Real.sqrt 0) := by
  obtain ⟨c, hc, hresp, hsolve⟩ := threeSolveC hull pv
  have hc' : c = threeCatParamsC.forCategorical.cfg hull pv threeCatRecsC.length := hc
  have hco : cutoffOthersC none (splitDataC .none none threeCatRecsC).clean = .ok [] := rfl
  have hrk : rankImplC ((splitDataC .none none threeCatRecsC).clean.filter fun r => !r.inCats []) = [7, 4] := by decide +kernel
  have hs : specialRows .none (splitDataC .none none threeCatRecsC).special = .ok [⟨0, some 0, none, none, none, 0⟩] := by decide +kernel
  have hm : missingRow {} (splitDataC .none none threeCatRecsC).missing = ⟨0, some 0, none, none, none, 0⟩ := by decide +kernel
  have hcodes : ((splitDataC .none none threeCatRecsC).clean.filter fun r => !r.inCats []).map (RecC.encode [7, 4]) =
      [⟨some 0, some 1, 1⟩, ⟨some 0, some 3, 1⟩, ⟨some 1, some 5, 1⟩] := by decide +kernel
  have hcells : prebinCells false 2 [1] ([⟨some 0, some 1, 1⟩, ⟨some 0, some 3, 1⟩, ⟨some 1, some 5, 1⟩] : List (RecC ℚ)) = threeCells := by
    decide +kernel
  have hpb : computePrebinsC false ([⟨some 0, some 1, 1⟩, ⟨some 0, some 3, 1⟩, ⟨some 1, some 5, 1⟩] : List (RecC ℚ)) {} [1] =
      .ok ⟨{}, [1], threeCells⟩ := by
    rw [computePrebinsC]
    simp only [List.length_cons, List.length_nil, prebinNumber, Bool.false_eq_true, if_false, hcells]
    rw [dif_neg (by decide), dif_neg (by decide)]
  have hchk : checkParametersC threeCatParamsC = .ok () := by decide +kernel
  refine ⟨keepAllC c, hc' ▸ hresp, fun r hr => ?_, ⟨none, none, none⟩, ⟨"FEASIBLE", [1], [7, 4], [],
    [⟨2, some 4, some 1, some 1, some 3, 0⟩, ⟨1, some 5, some 0, some 5, some 5, 0⟩, ⟨0, some 0, none, none, none, 0⟩,
     ⟨0, some 0, none, none, none, 0⟩]⟩, ?_, rfl, by decide +kernel, ⟨_, rfl, rfl, by decide +kernel, 1, rfl, by simp⟩,
     ⟨_, rfl, rfl, by decide +kernel, 0, rfl, by simp⟩⟩
  · unfold threeCatRecsC at hr
    simp only [List.mem_cons, List.not_mem_nil, or_false] at hr
    rcases hr with rfl | rfl | rfl <;> rfl
  · have hfit : fitCoreC false (keepAllC c) ([⟨some 0, some 1, 1⟩, ⟨some 0, some 3, 1⟩, ⟨some 1, some 5, 1⟩] : List (RecC ℚ)) none
        [⟨0, some 0, none, none, none, 0⟩] ⟨0, some 0, none, none, none, 0⟩ {} [1] = .ok ({}, ⟨"FEASIBLE", [1],
        [⟨2, some 4, some 1, some 1, some 3, 0⟩, ⟨1, some 5, some 0, some 5, some 5, 0⟩, ⟨0, some 0, none, none, none, 0⟩,
         ⟨0, some 0, none, none, none, 0⟩]⟩) := by
      unfold fitCoreC
      simp only [hpb, bind, Except.bind, pure, Except.pure, List.length_cons, List.length_nil, fitOptimizerC]
      rw [if_neg (by decide), if_neg (by decide), hsolve]
      simp only [reduceCtorEq, if_false, Except.ok.injEq, Prod.mk.injEq, true_and, FittedC.mk.injEq, Option.toList_none, List.append_nil]
      constructor
      · decide
      · decide +kernel
    unfold fitCatParamsC
    rw [hchk]
    simp only [badCutoff, Option.any_none, Bool.false_eq_true, if_false, Option.map_none, fitCategoricalC, hco, hrk, hcodes, hs, hm,
      List.length_nil, if_true, hfit]

/-- The theorems apply to it. -/
example (hull : List ℚ → Option ℚ) (pv : ℚ → ℝ → ℕ → ℚ → ℝ → ℕ → ℝ) : ∃ (old : MissingStats) (f : CatFittedC ℕ) (solver : SolverC),
    fitCatParamsC threeCatParamsC none .none rankImplC (fun _ => [1]) solver {} threeCatRecsC = .ok (old, f) ∧ 2 = f.bins.length ∧
    ∀ k < f.bins.length, ∃ row, f.rows[k]? = some row ∧
      Summarises (groupTargets .none threeCatRecsC (f.bins.getD k [])) row.cnt row.sum row.var row.mn row.mx row.zeros := by
  obtain ⟨solver, hr, hu, old, f, h, h1, h2, -⟩ := threeCatFitC hull pv
  exact ⟨old, f, solver, h, by rw [h2]; rfl, fun k hk => C121_rows hull pv rankImplC_isRanking (fun _ => by simp) hu h hr k hk⟩

end OptBinning
