import Verif.Props.CatFixedC
import Verif.Props.CatUserCEx

/-!
# C123: a concrete fit with a flagged group
-/
namespace OptBinning
open OptBinning.Spec

variable {κ : Type} [LinearOrder κ]

/-- The mean target of the records of a group; `none` (NaN) for an empty group. -/
def groupMean (l : List (RecC κ)) (g : List κ) : Option ℚ :=
  let t := (l.filter fun r => r.inCats g).filterMap RecC.y
  if t = [] then none else some (mean t)

/-- `≤` with NaN last. -/
def leNaN : Option ℚ → Option ℚ → Bool
  | some a, some b => decide (a ≤ b)
  | none, some _ => false
  | _, none => true

/-- An executable `argsort` of the groups by mean target, NaN last. -/
def argsortImplC (l : List (RecC κ)) (g : List (List κ)) : List ℕ :=
  (List.range g.length).insertionSort fun i j => leNaN (groupMean l (g.getD i [])) (groupMean l (g.getD j [])) = true

theorem argsortImplC_perm (l : List (RecC κ)) (g : List (List κ)) : (argsortImplC l g).Perm (List.range g.length) := List.perm_insertionSort _ _

/-- Non-vacuity of the theorems of C123, and a finding: a fit with the groups {4}, {9}, {7} and flags True, False, False.  Category 9 does not
occur, so the refinement drops the last of the sorted groups {7}, {4}, {9}; the list `user_splits` left in the object has lost {7} instead. -/
theorem flaggedGroupsC (hull : List ℚ → Option ℚ) (pv : ℚ → ℝ → ℕ → ℚ → ℝ → ℕ → ℝ) :
    ∃ (solver : SolverC) (old : MissingStats) (u' : UserSplits (List ℕ)) (f : CatUserFittedC ℕ),
      fitCatFixedC threeCatParamsC none .none argsortImplC solver {} ⟨[[4], [9], [7]], some ⟨[true, false, false], false⟩⟩ threeCatRecsC =
        .ok (old, u', f) ∧
      RespectsC (threeCatParamsC.forCategorical.cfgFixed hull pv threeCatRecsC.length u'.fixed) solver ∧ UnitWeights threeCatRecsC ∧
      f.status = "FEASIBLE" ∧ f.splits = [0, 1] ∧ f.bins = [[7], [4]] ∧ u'.splits = [[4], [9]] ∧ u'.fixed = some ⟨[false, true], true⟩ := by
  obtain ⟨c, hc, hresp, hsolve⟩ := threeSolveC hull pv
  have hc' : c = threeCatParamsC.forCategorical.cfg hull pv threeCatRecsC.length := hc
  set d := threeCatParamsC.forCategorical.cfgFixed hull pv threeCatRecsC.length (some ⟨[false, true], true⟩) with hd
  have hn : (c.input threeCells).n = 2 := rfl
  obtain ⟨a, ha, hdiag⟩ := solved_diag (hresp threeCells) (by
    show Solved (solve threeCells.length (keepAllC c threeCells)); rw [hsolve]; exact Or.inr rfl)
  have hsol : ∀ i < 2, (a.x i i != 0) = true := by
    intro i hi
    have := hdiag i hi
    rw [hsolve] at this
    unfold diag at this
    rw [this]
    have h2 : threeCells.length = 2 := rfl
    simp only [solOf, h2]
    interval_cases i <;> rfl
  have hone : ∀ i < 2, a.x i i = 1 := by
    intro i hi
    have h1 := hsol i hi
    have h2 := (diag_eq_true (n := (c.input threeCells).n) ha.core (by rw [hn]; exact hi)).1 h1
    exact h2
  have hda : acceptsCont (d.opts threeCells) (d.input threeCells) a := by
    have hfix : d.opts threeCells = { c.opts threeCells with fixed := some fun i => [false, true].getD i false } := by
      rw [hd, hc']; rfl
    have hinp : d.input threeCells = c.input threeCells := by rw [hd, hc']; rfl
    rw [hfix, hinp]
    obtain ⟨h1, h2, h3, h4, h5, h6, h7, h8, h9, -⟩ := ha
    exact ⟨h1, h2, h3, h4, h5, h6, h7, h8, h9, fun g _ i hi _ => hone i (by rw [hn] at hi; omega)⟩
  let solver : SolverC := fun cells => if cells = threeCells then .feasible a else .other "UNKNOWN"
  have hsv : solve threeCells.length (solver threeCells) = ("FEASIBLE", [true, true]) := by
    have h0 := hsol 0 (by decide)
    have h1 := hsol 1 (by decide)
    show solve 2 (if threeCells = threeCells then .feasible a else .other "UNKNOWN") = _
    rw [if_pos rfl]
    simp only [solve, List.range_succ, List.range_zero, List.nil_append, List.singleton_append, List.map_cons, List.map_nil, h0, h1]
  have hco : ((splitDataC .none none threeCatRecsC).clean.filterMap RecC.x).dedup.filter
      (fun c => !([[4], [9], [7]] : List (List ℕ)).flatten.contains c) = [] := by decide +kernel
  have hrk : argsortImplC ((splitDataC .none none threeCatRecsC).clean.filter fun r => !r.inCats []) [[4], [9], [7]] = [2, 0, 1] := by
    decide +kernel
  have hs : specialRows .none (splitDataC .none none threeCatRecsC).special = .ok [⟨0, some 0, none, none, none, 0⟩] := by decide +kernel
  have hm : missingRow {} (splitDataC .none none threeCatRecsC).missing = ⟨0, some 0, none, none, none, 0⟩ := by decide +kernel
  have hcodes : ((splitDataC .none none threeCatRecsC).clean.filter fun r => !r.inCats []).map (RecC.encodeGroup [[7], [4], [9]]) =
      [⟨some 0, some 1, 1⟩, ⟨some 0, some 3, 1⟩, ⟨some 1, some 5, 1⟩] := by decide +kernel
  have hcells3 : prebinCells true 3 [0, 1, 2] ([⟨some 0, some 1, 1⟩, ⟨some 0, some 3, 1⟩, ⟨some 1, some 5, 1⟩] : List (RecC ℕ)) =
      threeCells ++ [⟨0, 0, 0, 0, none, none⟩] := by decide +kernel
  have hcells : prebinCells true 2 [0, 1] ([⟨some 0, some 1, 1⟩, ⟨some 0, some 3, 1⟩, ⟨some 1, some 5, 1⟩] : List (RecC ℕ)) = threeCells := by
    decide +kernel
  have hmask : maskSplits true (emptyMask (threeCells ++ [⟨0, 0, 0, 0, none, none⟩])) = [false, false, true] := by decide +kernel
  have hpb : computePrebinsC true ([⟨some 0, some 1, 1⟩, ⟨some 0, some 3, 1⟩, ⟨some 1, some 5, 1⟩] : List (RecC ℕ))
      { userSplits := [0, 1, 2], fixed := some [false, true, false] } [0, 1, 2] =
      .ok ⟨{ userSplits := [0, 1], fixed := some [false, true], nRefinements := 1 }, [0, 1], threeCells⟩ := by
    rw [computePrebinsC]
    simp only [List.length_cons, List.length_nil, prebinNumber, if_true, hcells3, hmask]
    rw [dif_neg (by decide), dif_pos (by decide +kernel), if_neg (by decide)]
    have : select [0, 1, 2] ([false, false, true].map (!·)) = [0, 1] := rfl
    have h2 : select [false, true, false] ([false, false, true].map (!·)) = [false, true] := rfl
    rw [this, h2, computePrebinsC]
    simp only [List.length_cons, List.length_nil, prebinNumber, if_true, hcells]
    rw [dif_neg (by decide), dif_neg (by decide)]
  have hchk : checkParametersC threeCatParamsC = .ok () := by decide +kernel
  refine ⟨solver, ⟨none, none, none⟩, ⟨[[4], [9]], some ⟨[false, true], true⟩⟩, ⟨"FEASIBLE", [0, 1], [[7], [4], [9]], [],
    [⟨2, some 4, some 1, some 1, some 3, 0⟩, ⟨1, some 5, some 0, some 5, some 5, 0⟩, ⟨0, some 0, none, none, none, 0⟩,
     ⟨0, some 0, none, none, none, 0⟩]⟩, ?_, fun cells => ?_, fun r hr => ?_, rfl, rfl, by decide +kernel, rfl, rfl⟩
  · have hfit : fitCoreC true solver ([⟨some 0, some 1, 1⟩, ⟨some 0, some 3, 1⟩, ⟨some 1, some 5, 1⟩] : List (RecC ℕ)) none
        [⟨0, some 0, none, none, none, 0⟩] ⟨0, some 0, none, none, none, 0⟩ { userSplits := [0, 1, 2], fixed := some [false, true, false] }
        [0, 1, 2] = .ok ({ userSplits := [0, 1], fixed := some [false, true], nRefinements := 1 }, ⟨"FEASIBLE", [0, 1],
        [⟨2, some 4, some 1, some 1, some 3, 0⟩, ⟨1, some 5, some 0, some 5, some 5, 0⟩, ⟨0, some 0, none, none, none, 0⟩,
         ⟨0, some 0, none, none, none, 0⟩]⟩) := by
      unfold fitCoreC
      simp only [hpb, bind, Except.bind, pure, Except.pure, List.length_cons, List.length_nil, fitOptimizerC]
      rw [if_neg (by decide), if_neg (by decide), hsv]
      simp only [reduceCtorEq, if_false, Except.ok.injEq, Prod.mk.injEq, true_and, FittedC.mk.injEq, Option.toList_none, List.append_nil]
      constructor
      · decide
      · decide +kernel
    have hgr : ([2, 0, 1] : List ℕ).map (fun i => ([[4], [9], [7]] : List (List ℕ)).getD i []) = [[7], [4], [9]] := rfl
    have hfx : ([2, 0, 1] : List ℕ).map (fun i => [true, false, false].getD i false) = [false, true, false] := rfl
    have hrg : List.range 3 = [0, 1, 2] := rfl
    unfold fitCatFixedC
    rw [hchk]
    have hcu : checkUserSplits (⟨[[4], [9], [7]], some ⟨[true, false, false], false⟩⟩ : UserSplits (List ℕ)) = .ok () := rfl
    simp only [badCutoff, Option.any_none, Bool.false_eq_true, if_false, hcu, hco, hrk, hgr, hcodes, hs, hm, Option.map_some, hfx,
      List.length_nil, if_true]
    rw [if_neg (by decide), if_neg (by decide)]
    simp only [List.length_cons, List.length_nil, hrg, hfit]
    rfl
  · by_cases h : cells = threeCells
    · subst h
      show SolverAnswer.Valid _ _ (if threeCells = threeCells then .feasible a else .other "UNKNOWN")
      rw [if_pos rfl]
      exact hda
    · show SolverAnswer.Valid _ _ (if cells = threeCells then .feasible a else .other "UNKNOWN")
      rw [if_neg h]
      exact ⟨by decide, by decide⟩
  · unfold threeCatRecsC at hr
    simp only [List.mem_cons, List.not_mem_nil, or_false] at hr
    rcases hr with rfl | rfl | rfl <;> rfl

/-- The theorems apply to it. -/
example (hull : List ℚ → Option ℚ) (pv : ℚ → ℝ → ℕ → ℚ → ℝ → ℕ → ℝ) : ∃ (solver : SolverC) (old : MissingStats) (u' : UserSplits (List ℕ))
    (f : CatUserFittedC ℕ), fitCatFixedC threeCatParamsC none .none argsortImplC solver {} ⟨[[4], [9], [7]], some ⟨[true, false, false], false⟩⟩
      threeCatRecsC = .ok (old, u', f) ∧ ∃ q : ℕ, f.groups[q]? = some [4] ∧
      ∀ (q' : ℕ) (g' : List ℕ), q < q' → f.groups[q']? = some g' → ∀ v ∈ [4], ∀ w ∈ g', ∀ k, v ∈ f.bins.getD k [] → w ∉ f.bins.getD k [] := by
  obtain ⟨solver, old, u', f, h, hr, hu, hs, -⟩ := flaggedGroupsC hull pv
  exact ⟨solver, old, u', f, h, (C123_fixed argsortImplC_perm hull pv hu h hr (Or.inr hs) (g := [4]) ⟨_, rfl, by simp⟩).2⟩

end OptBinning
