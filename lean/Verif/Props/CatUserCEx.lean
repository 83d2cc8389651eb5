import Verif.Props.CatUserParamsC
import Verif.Props.CatParamsCEx

/-!
# C122: concrete fits
-/
namespace OptBinning
open OptBinning.Spec

variable {κ : Type} [LinearOrder κ]

/-- An executable sort of the groups by the mean target of their records. -/
def sortGroupsImplC (l : List (RecC κ)) (g : List (List κ)) : List (List κ) :=
  g.insertionSort fun a b => mean ((l.filter fun r => r.inCats a).filterMap RecC.y) ≤ mean ((l.filter fun r => r.inCats b).filterMap RecC.y)

theorem sortGroupsImplC_perm (l : List (RecC κ)) (g : List (List κ)) : (sortGroupsImplC l g).Perm g := List.perm_insertionSort _ _

/-- The fit with the groups {4, 9} and {7}, sorted by their means 5 and 2, with the limits of `threeCatParamsC`; category 9 does not occur. -/
theorem threeUserFit_of {p : ParamsC} (hchk : checkParametersC p = .ok ()) {solver : SolverC} {s : String} (hsolve : solve threeCells.length (solver threeCells) = (s, [true, true])) :
    fitCatUserParamsC p none .none sortGroupsImplC solver [[4, 9], [7]] {} threeCatRecsC = .ok (⟨none, none, none⟩,
      ⟨s, [0, 1], [[7], [4, 9]], [], [⟨2, some 4, some 1, some 1, some 3, 0⟩, ⟨1, some 5, some 0, some 5, some 5, 0⟩,
        ⟨0, some 0, none, none, none, 0⟩, ⟨0, some 0, none, none, none, 0⟩]⟩) := by
  have hco : ((splitDataC .none none threeCatRecsC).clean.filterMap RecC.x).dedup.filter (fun c => !([[4, 9], [7]] : List (List ℕ)).flatten.contains c) =
      [] := by decide +kernel
  have hrk : sortGroupsImplC ((splitDataC .none none threeCatRecsC).clean.filter fun r => !r.inCats []) [[4, 9], [7]] = [[7], [4, 9]] := by
    decide +kernel
  have hs : specialRows .none (splitDataC .none none threeCatRecsC).special = .ok [⟨0, some 0, none, none, none, 0⟩] := by decide +kernel
  have hm : missingRow {} (splitDataC .none none threeCatRecsC).missing = ⟨0, some 0, none, none, none, 0⟩ := by decide +kernel
  have hcodes : ((splitDataC .none none threeCatRecsC).clean.filter fun r => !r.inCats []).map (RecC.encodeGroup [[7], [4, 9]]) =
      [⟨some 0, some 1, 1⟩, ⟨some 0, some 3, 1⟩, ⟨some 1, some 5, 1⟩] := by decide +kernel
  have hcells : prebinCells true 2 [0, 1] ([⟨some 0, some 1, 1⟩, ⟨some 0, some 3, 1⟩, ⟨some 1, some 5, 1⟩] : List (RecC ℕ)) = threeCells := by
    decide +kernel
  have hpb : computePrebinsC true ([⟨some 0, some 1, 1⟩, ⟨some 0, some 3, 1⟩, ⟨some 1, some 5, 1⟩] : List (RecC ℕ)) {} [0, 1] =
      .ok ⟨{}, [0, 1], threeCells⟩ := by
    rw [computePrebinsC]
    simp only [List.length_cons, List.length_nil, prebinNumber, if_true, hcells]
    rw [dif_neg (by decide), dif_neg (by decide)]
  have hfit : fitCoreC true (solver) ([⟨some 0, some 1, 1⟩, ⟨some 0, some 3, 1⟩, ⟨some 1, some 5, 1⟩] : List (RecC ℕ)) none
      [⟨0, some 0, none, none, none, 0⟩] ⟨0, some 0, none, none, none, 0⟩ {} [0, 1] = .ok ({}, ⟨s, [0, 1],
      [⟨2, some 4, some 1, some 1, some 3, 0⟩, ⟨1, some 5, some 0, some 5, some 5, 0⟩, ⟨0, some 0, none, none, none, 0⟩,
       ⟨0, some 0, none, none, none, 0⟩]⟩) := by
    unfold fitCoreC
    simp only [hpb, bind, Except.bind, pure, Except.pure, List.length_cons, List.length_nil, fitOptimizerC]
    rw [if_neg (by decide), if_neg (by decide), hsolve]
    simp only [reduceCtorEq, if_false, Except.ok.injEq, Prod.mk.injEq, true_and, FittedC.mk.injEq, Option.toList_none, List.append_nil]
    rw [if_neg (by decide : ¬ threeCells.length ≤ 1)]
    have e1 : select [0, 1] [true, true] = [0, 1] := by decide
    simp only [if_true, e1, true_and]
    rw [if_neg (by simp)]
    decide +kernel
  unfold fitCatUserParamsC
  rw [hchk]
  simp only [badCutoff, Option.any_none, Bool.false_eq_true, if_false, fitCategoricalUserC, hco, hrk, hcodes, hs, hm,
    List.length_nil, if_true]
  rw [if_neg (by decide), if_neg (by decide)]
  simp only [List.length_cons, List.length_nil, List.range_succ, List.range_zero, List.nil_append, List.singleton_append] at hfit ⊢
  rw [hfit]

theorem unit_threeCatRecsC : UnitWeights threeCatRecsC := by
  intro r hr
  unfold threeCatRecsC at hr
  simp only [List.mem_cons, List.not_mem_nil, or_false] at hr
  rcases hr with rfl | rfl | rfl <;> rfl

/-- Non-vacuity of the theorems of C122. -/
theorem threeUserFitC (hull : List ℚ → Option ℚ) (pv : ℚ → ℝ → ℕ → ℚ → ℝ → ℕ → ℝ) :
    ∃ solver, RespectsC (threeCatParamsC.forCategorical.cfg hull pv threeCatRecsC.length) solver ∧ UnitWeights threeCatRecsC ∧
      ∃ (old : MissingStats) (f : CatUserFittedC ℕ),
        fitCatUserParamsC threeCatParamsC none .none sortGroupsImplC solver [[4, 9], [7]] {} threeCatRecsC = .ok (old, f) ∧
        f.splits = [0, 1] ∧ f.bins = [[7], [4, 9]] ∧
        RowShows f.rows 0 2 2 (Real.sqrt 1) ∧ RowShows f.rows 1 1 5 (Real.sqrt 0) := by
  obtain ⟨c, hc, hresp, hsolve⟩ := threeSolveC hull pv
  have hc' : c = threeCatParamsC.forCategorical.cfg hull pv threeCatRecsC.length := hc
  exact ⟨keepAllC c, hc' ▸ hresp, unit_threeCatRecsC, _, _, threeUserFit_of (by decide +kernel) hsolve, rfl, by decide +kernel,
    ⟨_, rfl, rfl, by decide +kernel, 1, rfl, by simp⟩, ⟨_, rfl, rfl, by decide +kernel, 0, rfl, by simp⟩⟩

/-- The theorems apply to it: two bins, whose rows describe the targets of their categories, and whose Means ascend. -/
example (hull : List ℚ → Option ℚ) (pv : ℚ → ℝ → ℕ → ℚ → ℝ → ℕ → ℝ) : ∃ (old : MissingStats) (f : CatUserFittedC ℕ) (solver : SolverC),
    fitCatUserParamsC threeCatParamsC none .none sortGroupsImplC solver [[4, 9], [7]] {} threeCatRecsC = .ok (old, f) ∧ 2 = f.bins.length ∧
    (∀ k < f.bins.length, ∃ row, f.rows[k]? = some row ∧
      Summarises (groupTargets .none threeCatRecsC (f.bins.getD k [])) row.cnt row.sum row.var row.mn row.mx row.zeros) ∧
    ∀ k < f.splits.length, ∃ (cnt : ℕ) (m : ℚ) (sd : ℝ), RowShows f.rows k cnt m sd ∧ 0 < cnt ∧
      (∀ q, threeCatParamsC.minBinSize = some (.num q) → q * (threeCatRecsC.length : ℚ) ≤ (cnt : ℚ)) ∧
      (∀ q, threeCatParamsC.maxBinSize = some (.num q) → (cnt : ℚ) < q * (threeCatRecsC.length : ℚ) + 1) := by
  obtain ⟨solver, hr, hu, old, f, h, h1, h2, -⟩ := threeUserFitC hull pv
  obtain ⟨-, -, h3⟩ := fitCatUserParamsC_ok h
  have htwo : ∃ g ∈ ([[4, 9], [7]] : List (List ℕ)), ∃ g' ∈ ([[4, 9], [7]] : List (List ℕ)), g ≠ g' ∧ Occurs .none threeCatRecsC g ∧
      Occurs .none threeCatRecsC g' :=
    ⟨[4, 9], by simp, [7], by simp, by decide, ⟨4, by simp, ⟨some 4, some 5, 1⟩, by decide, ⟨by simp, by simp, by simp [IsSpecialValue]⟩, rfl⟩,
      ⟨7, by simp, ⟨some 7, some 1, 1⟩, by decide, ⟨by simp, by simp, by simp [IsSpecialValue]⟩, rfl⟩⟩
  exact ⟨old, f, solver, h, by rw [h2]; rfl, fun k hk => C122_rows sortGroupsImplC_perm hr hu htwo h3 k hk,
    (C122_limits sortGroupsImplC_perm hull pv hu h hr (by rw [h1]; decide)).2.2⟩

/-- The finding: with the single group {7} the two records of category 7 are in no row of the table. -/
theorem oneUserFitC (solver : SolverC) :
    fitCategoricalUserC .none sortGroupsImplC solver [[7]] {} threeCatRecsC = .ok (⟨none, none, none⟩, ⟨"OPTIMAL", [0], [[7]], [4],
      [⟨1, some 5, some 0, some 5, some 5, 0⟩, ⟨0, some 0, none, none, none, 0⟩, ⟨0, some 0, none, none, none, 0⟩]⟩) := by
  have hco : ((splitDataC .none none threeCatRecsC).clean.filterMap RecC.x).dedup.filter (fun c => !([[7]] : List (List ℕ)).flatten.contains c) =
      [4] := by decide +kernel
  have hrk : sortGroupsImplC ((splitDataC .none none threeCatRecsC).clean.filter fun r => !r.inCats [4]) [[7]] = [[7]] := by decide +kernel
  have hs : specialRows .none (splitDataC .none none threeCatRecsC).special = .ok [⟨0, some 0, none, none, none, 0⟩] := by decide +kernel
  have hm : missingRow {} (splitDataC .none none threeCatRecsC).missing = ⟨0, some 0, none, none, none, 0⟩ := by decide +kernel
  have ho : summaryC ((splitDataC .none none threeCatRecsC).clean.filter fun r => r.inCats [4]) = ⟨1, some 5, some 0, some 5, some 5, 0⟩ := by
    decide +kernel
  have hcodes : ((splitDataC .none none threeCatRecsC).clean.filter fun r => !r.inCats [4]).map (RecC.encodeGroup [[7]]) =
      [⟨some 0, some 1, 1⟩, ⟨some 0, some 3, 1⟩] := by decide +kernel
  have hcells : prebinCells true 1 [0] ([⟨some 0, some 1, 1⟩, ⟨some 0, some 3, 1⟩] : List (RecC ℕ)) = threeCells.take 1 := by decide +kernel
  have hpb : computePrebinsC true ([⟨some 0, some 1, 1⟩, ⟨some 0, some 3, 1⟩] : List (RecC ℕ)) {} [0] = .ok ⟨{}, [0], threeCells.take 1⟩ := by
    rw [computePrebinsC]
    simp only [List.length_cons, List.length_nil, prebinNumber, if_true, hcells]
    rw [dif_neg (by decide), dif_neg (by decide)]
  simp only [fitCategoricalUserC, hco, hrk, hcodes, hs, hm, ho, List.length_cons, List.length_nil, List.range_succ, List.range_zero, List.nil_append,
    fitCoreC, hpb, bind, Except.bind, pure, Except.pure, fitOptimizerC]
  rw [if_neg (by decide), if_neg (by decide)]
  rfl

end OptBinning
