import Verif.Props.FitOptimalC
import Verif.Props.FitOptimalMiss

/-!
# C105: the information value shown in the table of a continuous fit need not be maximal
-/
namespace OptBinning
open Finset Spec

/-- Five records: value 0 with target 10, value 1 twice with target 5, value 2 twice with target 0. -/
def ivRecsC : List (RecC ℕ) := [⟨some 0, some 10, 1⟩, ⟨some 1, some 5, 1⟩, ⟨some 1, some 5, 1⟩, ⟨some 2, some 0, 1⟩, ⟨some 2, some 0, 1⟩]

/-- `ContinuousOptimalBinning(monotonic_trend=None, max_n_bins=2)`. -/
def ivParamsC : ParamsC := { trend := .none, maxBins := some 2 }

/-- The three pre-bins. -/
def ivCells : List CellC := [⟨1, 10, 100, 0, some 10, some 10⟩, ⟨2, 10, 50, 0, some 5, some 5⟩, ⟨2, 0, 0, 2, some 0, some 0⟩]

theorem ivAccepted : checkParametersC ivParamsC = .ok () := by decide +kernel

/-- Values of the objective. -/
theorem ivValue (c : SolverCfgC) (x y : Bool) : totalOverBins 3 (sol3 x y) (fun s e =>
    ⌊|binMean (c.input ivCells).recs (c.input ivCells).sum s e - binMean (c.input ivCells).recs (c.input ivCells).sum 0 2| * 1000000⌋) =
    match x, y with
      | true, true => 11000000
      | true, false => 7500000
      | false, true => 6666666
      | false, false => 0 := by
  have hr : (c.input ivCells).recs = fun k => (([1, 2, 2].getD k 0 : ℕ) : ℤ) := rfl
  have hs : (c.input ivCells).sum = fun k => ([10, 10, 0] : List ℚ).getD k 0 := rfl
  have v : ∀ s e : ℕ, ∀ q : ℚ, binMean (fun k => (([1, 2, 2].getD k 0 : ℕ) : ℤ)) (fun k => ([10, 10, 0] : List ℚ).getD k 0) s e = q →
      ⌊|binMean (c.input ivCells).recs (c.input ivCells).sum s e - binMean (c.input ivCells).recs (c.input ivCells).sum 0 2| * 1000000⌋ = ⌊|q - 4| * 1000000⌋ := by
    intro s e q h
    have : binMean (fun k => (([1, 2, 2].getD k 0 : ℕ) : ℤ)) (fun k => ([10, 10, 0] : List ℚ).getD k 0) 0 2 = 4 := by decide +kernel
    rw [hr, hs, h, this]
  rw [totalOverBins_sol3]
  simp only [v 0 0 10 (by decide +kernel), v 1 1 5 (by decide +kernel), v 2 2 0 (by decide +kernel),
    v 1 2 (5 / 2) (by decide +kernel), v 0 1 (20 / 3) (by decide +kernel), v 0 2 4 (by decide +kernel)]
  cases x <;> cases y <;> decide +kernel

/-- C105, finding: the solver maximises the plain sum of the distances between the bin means and the overall mean; the information value of
the binning table weights each distance with the share of the records.  So the fit with status OPTIMAL may report a smaller IV than
another fit allowed by the same arguments. -/
theorem C105_iv_not_maximal (hull : List ℚ → Option ℚ) (pv : ℚ → ℝ → ℕ → ℚ → ℝ → ℕ → ℝ) :
    checkParametersC ivParamsC = .ok () ∧ UnitWeights ivRecsC ∧ KnownTargetsC ivRecsC ∧
    ∃ solver solver' : SolverC, ∃ old old' : MissingStats, ∃ f f' : FittedC ℕ, ∃ iv iv' : ℚ,
      RespectsC (ivParamsC.cfg hull pv ivRecsC.length) solver ∧ RespectsC (ivParamsC.cfg hull pv ivRecsC.length) solver' ∧
      fitParamsC ivParamsC .none none (fun _ => [1, 2]) solver {} ivRecsC = .ok (old, f) ∧ f.status = "OPTIMAL" ∧ f.splits = [1] ∧
      fitParamsC ivParamsC .none none (fun _ => [1, 2]) solver' {} ivRecsC = .ok (old', f') ∧ f'.status = "FEASIBLE" ∧ f'.splits = [2] ∧
      tIv f.rows = some iv ∧ tIv f'.rows = some iv' ∧ iv < iv' := by
  refine ⟨ivAccepted, by unfold UnitWeights ivRecsC; simp, by unfold KnownTargetsC ivRecsC; simp, ?_⟩
  set c := ivParamsC.cfg hull pv ivRecsC.length with hc
  have hopt : c.opts ivCells = { maxBins := some 2 } := by
    simp only [hc, ParamsC.cfg, ParamsC.options, ivParamsC, resolveTrendC, bind, Except.bind, pure, Except.pure]
    rfl
  have hwf : (c.input ivCells).Wf := ⟨rfl, rfl, show 0 < 3 by decide, show ∀ x ∈ [1, 2, 2], 0 < x by decide⟩
  have hch : ChangeInRange (c.opts ivCells) (c.input ivCells) := by rw [hopt]; intro tc h; simp at h
  have hacc : ∀ x y : Bool, (x && y) = false → ∃ a, acceptsCont (c.opts ivCells) (c.input ivCells) a ∧ ∀ k, (a.x k k != 0) = sol3 x y k := by
    intro x y hxy
    refine (C48_exact_partial hwf hch (Or.inl (by rw [hopt]; simp)) (sol3 x y)).2 ⟨?_, ?_, ?_⟩
    · rw [hopt]
      refine ⟨⟨show 0 < 3 by decide, rfl⟩, by simp [AtLeast], ?_, by simp [AtLeast], by simp [AtMost], trivial, by simp⟩
      intro b hb
      simp only [Option.some.injEq] at hb
      subst hb
      show ((numBins 3 (sol3 x y) : ℕ) : ℤ) ≤ 2
      cases x <;> cases y <;> first | (simp at hxy; done) | decide
    · rintro s e s' e' - - - - ⟨t, ht, -⟩
      simp [hc, ParamsC.cfg, ivParamsC, SolverCfgC.input] at ht
    · rintro s e s' e' - - - - ⟨h, -⟩
      simp [hc, ParamsC.cfg, ivParamsC, SolverCfgC.input, XQ.value] at h
  have hval : ∀ a, acceptsCont (c.opts ivCells) (c.input ivCells) a →
      contObjective (c.opts ivCells) c.gamma (c.input ivCells) a = totalOverBins 3 (sol3 (a.x 0 0 != 0) (a.x 1 1 != 0)) (fun s e =>
        ⌊|binMean (c.input ivCells).recs (c.input ivCells).sum s e - binMean (c.input ivCells).recs (c.input ivCells).sum 0 2| * 1000000⌋) ∧
      ((a.x 0 0 != 0) && (a.x 1 1 != 0)) = false := by
    intro a ha
    have hadm := (ha.sound hwf hch).1
    have hdiag : ∀ k < 3, diag a.x k = sol3 (a.x 0 0 != 0) (a.x 1 1 != 0) k := by
      intro k hk
      have h2 : (a.x 2 2 != 0) = true := hadm.binning.2
      interval_cases k
      · rfl
      · rfl
      · exact h2
    constructor
    · have e1 : contObjective (c.opts ivCells) c.gamma (c.input ivCells) a = contObjectivePlain (c.input ivCells) a.x := by
        unfold contObjective; rw [hopt]; simp
      rw [e1, contObjective_eq hwf ha.core]
      unfold totalOverBins
      rw [show binsOf (c.input ivCells).n (diag a.x) = binsOf 3 (sol3 (a.x 0 0 != 0) (a.x 1 1 != 0)) from binsOf_congr hdiag]
      rfl
    · have hmax := hadm.maxBins 2 (by rw [hopt])
      by_contra h
      have h' : ((a.x 0 0 != 0) && (a.x 1 1 != 0)) = true := by simpa using h
      rw [Bool.and_eq_true] at h'
      have hn : numBins 3 (diag a.x) = 3 := by
        unfold numBins
        rw [Finset.filter_true_of_mem]
        · rfl
        · intro k hk
          rw [mem_range] at hk
          rw [hdiag k hk, h'.1, h'.2]
          unfold sol3
          split_ifs <;> rfl
      have : ((numBins 3 (diag a.x) : ℕ) : ℤ) ≤ 2 := hmax
      rw [hn] at this
      norm_num at this
  obtain ⟨a, ha, hda⟩ := hacc true false rfl
  obtain ⟨a', ha', hda'⟩ := hacc false true rfl
  let solver : SolverC := fun cells => if cells = ivCells then .optimal a else .other "UNKNOWN"
  let solver' : SolverC := fun cells => if cells = ivCells then .feasible a' else .other "UNKNOWN"
  have hcells : prebinCells false 3 [1, 2] (splitDataC .none none ivRecsC).clean = ivCells := by decide +kernel
  have hpb : computePrebinsC false (splitDataC .none none ivRecsC).clean {} [1, 2] = .ok ⟨{}, [1, 2], ivCells⟩ := by
    rw [computePrebinsC]
    simp only [List.length_cons, List.length_nil, prebinNumber, Bool.false_eq_true, if_false, hcells]
    rw [dif_neg (by decide), dif_neg (by decide)]
  have hs : specialRows .none (splitDataC .none none ivRecsC).special = .ok [⟨0, some 0, none, none, none, 0⟩] := by decide +kernel
  have hm : missingRow {} (splitDataC .none none ivRecsC).missing = ⟨0, some 0, none, none, none, 0⟩ := by decide +kernel
  have hne : (splitDataC .none none ivRecsC).clean ≠ [] := by decide +kernel
  have hfo : fitOptimizerC false solver [1, 2] ivCells = ⟨"OPTIMAL", [1], [true, false, true]⟩ := by
    have : (List.range ivCells.length).map (fun i => a.x i i != 0) = [true, false, true] := by
      simp [ivCells, List.range_succ, hda 0, hda 1, hda 2, sol3]
    simp only [fitOptimizerC, solver, solve, this, if_true]
    rfl
  have hfo' : fitOptimizerC false solver' [1, 2] ivCells = ⟨"FEASIBLE", [2], [false, true, true]⟩ := by
    have : (List.range ivCells.length).map (fun i => a'.x i i != 0) = [false, true, true] := by
      simp [ivCells, List.range_succ, hda' 0, hda' 1, hda' 2, sol3]
    simp only [fitOptimizerC, solver', solve, this, if_true]
    rfl
  have hf : fitParamsC ivParamsC .none none (fun _ => [1, 2]) solver {} ivRecsC = .ok (⟨none, none, none⟩, ⟨"OPTIMAL", [1],
        [⟨1, some 10, some 0, some 10, some 10, 0⟩, ⟨4, some 10, some (25 / 4), some 0, some 5, 2⟩, ⟨0, some 0, none, none, none, 0⟩,
         ⟨0, some 0, none, none, none, 0⟩]⟩) := by
    unfold fitParamsC
    rw [ivAccepted]
    simp only [fitNumericalC, hs, hm, fitCoreC, hpb, bind, Except.bind, pure, Except.pure, List.length_cons, List.length_nil, hne, if_false, hfo]
    rw [if_neg (by decide)]
    simp only [hfo, Except.ok.injEq, Prod.mk.injEq, true_and, FittedC.mk.injEq, Option.toList_none, List.append_nil]
    decide +kernel
  have hf' : fitParamsC ivParamsC .none none (fun _ => [1, 2]) solver' {} ivRecsC = .ok (⟨none, none, none⟩, ⟨"FEASIBLE", [2],
        [⟨3, some 20, some (50 / 9), some 5, some 10, 0⟩, ⟨2, some 0, some 0, some 0, some 0, 2⟩, ⟨0, some 0, none, none, none, 0⟩,
         ⟨0, some 0, none, none, none, 0⟩]⟩) := by
    unfold fitParamsC
    rw [ivAccepted]
    simp only [fitNumericalC, hs, hm, fitCoreC, hpb, bind, Except.bind, pure, Except.pure, List.length_cons, List.length_nil, hne, if_false, hfo']
    rw [if_neg (by decide)]
    simp only [hfo', Except.ok.injEq, Prod.mk.injEq, true_and, FittedC.mk.injEq, Option.toList_none, List.append_nil]
    decide +kernel
  refine ⟨solver, solver', _, _, _, _, 12 / 5, 16 / 5, ?_, ?_, hf, rfl, rfl, hf', rfl, rfl, by decide +kernel, by decide +kernel, by norm_num⟩
  · intro cells
    by_cases h : cells = ivCells
    · subst h
      show SolverAnswer.Valid _ _ (.optimal a)
      refine ⟨ha, fun y hy => ?_⟩
      obtain ⟨e1, -⟩ := hval a ha
      obtain ⟨e2, e3⟩ := hval y hy
      rw [e1, e2, hda 0, hda 1, ivValue]
      have : sol3 true false 0 = true ∧ sol3 true false 1 = false := ⟨rfl, rfl⟩
      rw [this.1, this.2, ivValue]
      generalize (y.x 0 0 != 0) = u at *
      generalize (y.x 1 1 != 0) = w at *
      cases u <;> cases w <;> first | (simp at e3; done) | norm_num
    · show SolverAnswer.Valid _ _ (if cells = ivCells then .optimal a else .other "UNKNOWN")
      rw [if_neg h]
      exact ⟨by decide, by decide⟩
  · intro cells
    by_cases h : cells = ivCells
    · subst h
      exact ha'
    · show SolverAnswer.Valid _ _ (if cells = ivCells then .feasible a' else .other "UNKNOWN")
      rw [if_neg h]
      exact ⟨by decide, by decide⟩

/-- Non-vacuity of `C105_optimal`: the fit above meets its hypotheses, and the other selection of cut points meets the arguments. -/
example (hull : List ℚ → Option ℚ) (pv : ℚ → ℝ → ℕ → ℚ → ℝ → ℕ → ℝ) : ∃ solver old f,
    RespectsC (ivParamsC.cfg hull pv ivRecsC.length) solver ∧ UnitWeights ivRecsC ∧ (∀ l : List (RecC ℕ), ((fun _ => [1, 2]) l : List ℕ).Pairwise (· ≤ ·)) ∧
      PlainTrendC ivParamsC (splitDataC (α := ℕ) .none none ivRecsC).clean ∧
      fitParamsC ivParamsC .none none (fun _ => [1, 2]) solver {} ivRecsC = .ok (old, f) ∧ f.status = "OPTIMAL" ∧
      CutsMeetC ivParamsC pv ivRecsC.length (splitDataC .none none ivRecsC).clean [2] := by
  obtain ⟨-, hu, -, solver, -, old, -, f, -, -, -, hr, -, hf, hst, -⟩ := C105_iv_not_maximal hull pv
  refine ⟨solver, old, f, hr, hu, fun l => by simp, Or.inl (Or.inl rfl), hf, hst, ?_⟩
  constructor <;> simp [ivParamsC, AtLeast, AtMost]

end OptBinning
