import Verif.Props.CatFixedOptC
import Verif.Props.CatFixedCEx
import Verif.Props.CatUserOptCEx

/-!
# C123: a concrete optimal fit with a flagged group
-/
namespace OptBinning
open OptBinning.Spec

/-- Non-vacuity of `C123_optimal`: a fit of the groups {4, 9} and {7} with flags False, True and a solver that answers OPTIMAL; the cut point `1`
ends the bin of the flagged group {7} and meets the arguments. -/
example (hull : List ℚ → Option ℚ) (pv : ℚ → ℝ → ℕ → ℚ → ℝ → ℕ → ℝ) :
    ∃ (solver : SolverC) (old : MissingStats) (u' : UserSplits (List ℕ)) (f : CatUserFittedC ℕ),
      fitCatFixedC twoCatParamsC none .none argsortImplC solver {} ⟨[[4, 9], [7]], some ⟨[false, true], false⟩⟩ threeCatRecsC = .ok (old, u', f) ∧
      RespectsC (twoCatParamsC.forCategorical.cfgFixed hull pv threeCatRecsC.length u'.fixed) solver ∧ UnitWeights threeCatRecsC ∧
      f.status = "OPTIMAL" ∧ f.groups = [[7], [4, 9]] ∧
      (∀ g ∈ ([[4, 9], [7]] : List (List ℕ)), Occurs .none threeCatRecsC g) ∧
      IsFixed (⟨[[4, 9], [7]], some ⟨[false, true], false⟩⟩ : UserSplits (List ℕ)) [7] ∧
      cutDistance (groupedRecsC .none f.groups threeCatRecsC) [1] ≤
        cutDistance (groupedRecsC .none f.groups threeCatRecsC) (f.splits.dropLast.map (· + 1)) + ((1 : ℚ) + 1) / 1000000 := by
  obtain ⟨solver, -, -, -, -, -, -, -, -, hr, hsv⟩ := threeUserOptC hull pv
  have hco : ((splitDataC .none none threeCatRecsC).clean.filterMap RecC.x).dedup.filter
      (fun c => !([[4, 9], [7]] : List (List ℕ)).flatten.contains c) = [] := by decide +kernel
  have hrk : argsortImplC ((splitDataC .none none threeCatRecsC).clean.filter fun r => !r.inCats []) [[4, 9], [7]] = [1, 0] := by
    decide +kernel
  have hs : specialRows .none (splitDataC .none none threeCatRecsC).special = .ok [⟨0, some 0, none, none, none, 0⟩] := by decide +kernel
  have hm : missingRow {} (splitDataC .none none threeCatRecsC).missing = ⟨0, some 0, none, none, none, 0⟩ := by decide +kernel
  have hcodes : ((splitDataC .none none threeCatRecsC).clean.filter fun r => !r.inCats []).map (RecC.encodeGroup [[7], [4, 9]]) =
      [⟨some 0, some 1, 1⟩, ⟨some 0, some 3, 1⟩, ⟨some 1, some 5, 1⟩] := by decide +kernel
  have hcells : prebinCells true 2 [0, 1] ([⟨some 0, some 1, 1⟩, ⟨some 0, some 3, 1⟩, ⟨some 1, some 5, 1⟩] : List (RecC ℕ)) = threeCells := by
    decide +kernel
  have hpb : computePrebinsC true ([⟨some 0, some 1, 1⟩, ⟨some 0, some 3, 1⟩, ⟨some 1, some 5, 1⟩] : List (RecC ℕ))
      { userSplits := [0, 1], fixed := some [true, false] } [0, 1] = .ok ⟨{ userSplits := [0, 1], fixed := some [true, false] }, [0, 1], threeCells⟩ := by
    rw [computePrebinsC]
    simp only [List.length_cons, List.length_nil, prebinNumber, if_true, hcells]
    rw [dif_neg (by decide), dif_neg (by decide)]
  have hchk : checkParametersC twoCatParamsC = .ok () := by decide +kernel
  have hfit : fitCoreC true solver ([⟨some 0, some 1, 1⟩, ⟨some 0, some 3, 1⟩, ⟨some 1, some 5, 1⟩] : List (RecC ℕ)) none
      [⟨0, some 0, none, none, none, 0⟩] ⟨0, some 0, none, none, none, 0⟩ { userSplits := [0, 1], fixed := some [true, false] } [0, 1] =
      .ok ({ userSplits := [0, 1], fixed := some [true, false] }, ⟨"OPTIMAL", [0, 1],
      [⟨2, some 4, some 1, some 1, some 3, 0⟩, ⟨1, some 5, some 0, some 5, some 5, 0⟩, ⟨0, some 0, none, none, none, 0⟩,
       ⟨0, some 0, none, none, none, 0⟩]⟩) := by
    unfold fitCoreC
    simp only [hpb, bind, Except.bind, pure, Except.pure, List.length_cons, List.length_nil, fitOptimizerC]
    rw [if_neg (by decide), if_neg (by decide), hsv]
    simp only [reduceCtorEq, if_false, Except.ok.injEq, Prod.mk.injEq, true_and, FittedC.mk.injEq, Option.toList_none, List.append_nil]
    constructor
    · decide
    · decide +kernel
  have hgr : ([1, 0] : List ℕ).map (fun i => ([[4, 9], [7]] : List (List ℕ)).getD i []) = [[7], [4, 9]] := rfl
  have hfx : ([1, 0] : List ℕ).map (fun i => [false, true].getD i false) = [true, false] := rfl
  have hrg : List.range 2 = [0, 1] := rfl
  have key : fitCatFixedC twoCatParamsC none .none argsortImplC solver {} ⟨[[4, 9], [7]], some ⟨[false, true], false⟩⟩ threeCatRecsC =
      .ok (⟨none, none, none⟩, ⟨[[4, 9], [7]], some ⟨[true, false], true⟩⟩, ⟨"OPTIMAL", [0, 1], [[7], [4, 9]], [],
        [⟨2, some 4, some 1, some 1, some 3, 0⟩, ⟨1, some 5, some 0, some 5, some 5, 0⟩, ⟨0, some 0, none, none, none, 0⟩,
         ⟨0, some 0, none, none, none, 0⟩]⟩) := by
    unfold fitCatFixedC
    rw [hchk]
    have hcu : checkUserSplits (⟨[[4, 9], [7]], some ⟨[false, true], false⟩⟩ : UserSplits (List ℕ)) = .ok () := rfl
    simp only [badCutoff, Option.any_none, Bool.false_eq_true, if_false, hcu, hco, hrk, hgr, hcodes, hs, hm, Option.map_some, hfx,
      List.length_nil, if_true]
    rw [if_neg (by decide), if_neg (by decide)]
    simp only [List.length_cons, List.length_nil, hrg, hfit]
    rfl
  have hocc : ∀ g ∈ ([[4, 9], [7]] : List (List ℕ)), Occurs .none threeCatRecsC g := by
    intro g hg
    simp only [List.mem_cons, List.not_mem_nil, or_false] at hg
    rcases hg with rfl | rfl
    · exact ⟨4, by simp, ⟨some 4, some 5, 1⟩, by decide, ⟨by simp, by simp, by simp [IsSpecialValue]⟩, rfl⟩
    · exact ⟨7, by simp, ⟨some 7, some 1, 1⟩, by decide, ⟨by simp, by simp, by simp [IsSpecialValue]⟩, rfl⟩
  have hg : groupedRecsC .none [[7], [4, 9]] threeCatRecsC = threeRecsC := by
    obtain ⟨-, -, k⟩ := fitCatUserParamsC_ok (catFixed_same argsortImplC_perm key)
    have := groupedRecsC_eq (sortedBy_perm argsortImplC_perm) k
    rw [← this]
    decide +kernel
  refine ⟨solver, _, _, _, key, hr, unit_threeCatRecsC, rfl, rfl, hocc, ⟨_, rfl, by simp⟩, ?_⟩
  have ht0 : cutTargets threeRecsC [1] 0 = [1, 3] := by simp [cutTargets, targetsOf, threeRecsC, InInterval]
  have ht1 : cutTargets threeRecsC [1] 1 = [5] := by simp [cutTargets, targetsOf, threeRecsC, InInterval]
  have hm0 : cutMean threeRecsC [1] 0 = 2 := by simp only [cutMean, ht0, mean]; norm_num
  have hm1 : cutMean threeRecsC [1] 1 = 5 := by simp only [cutMean, ht1, mean]; norm_num
  have := C123_optimal argsortImplC_perm hull pv unit_threeCatRecsC key hr rfl (by decide) hocc [1] (by simp) (by simp) ?_ ?_ ?_
  · simpa using this
  · intro q g _ _ hq
    simp only [List.length_cons, List.length_nil] at hq
    simp
    omega
  · show CutsMeetC _ _ _ (groupedRecsC .none [[7], [4, 9]] threeCatRecsC) _
    rw [hg]
    constructor <;> simp [twoCatParamsC, AtLeast, AtMost]
    rw [hm0, hm1]
    norm_num [abs_of_nonpos]
  · intro _
    show MeansRise (groupedRecsC .none [[7], [4, 9]] threeCatRecsC) _ _ _
    rw [hg]
    intro k k' _ h h' _
    have : k = 0 ∧ k' = 1 := by
      simp only [List.length_cons, List.length_nil] at h'
      omega
    obtain ⟨rfl, rfl⟩ := this
    rw [hm0, hm1]
    norm_num

end OptBinning
