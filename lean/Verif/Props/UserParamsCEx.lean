import Verif.Props.UserParamsC
import Verif.Props.FitOptimalCEx

/-!
# C120: a concrete fit, flags given as a numpy array
-/
namespace OptBinning
open Finset Spec

/-- `ContinuousOptimalBinning(monotonic_trend=None, max_n_bins=2, user_splits=[2, 1], user_splits_fixed=[True, False])` on five records: the
flagged split 2 is kept, although the fit without flags keeps the split 1 (`C105_iv_not_maximal`). -/
theorem flaggedFitC (hull : List ℚ → Option ℚ) (pv : ℚ → ℝ → ℕ → ℚ → ℝ → ℕ → ℝ) :
    ∃ (solver : SolverC) (old' : MissingStats) (u' : UserSplits ℕ) (f : FittedC ℕ),
      fitUserParamsC ivParamsC .none none (fun _ => id) solver {} ⟨[2, 1], some ⟨[true, false], false⟩⟩ ivRecsC = .ok (old', u', f) ∧
      RespectsC (ivParamsC.cfgFixed hull pv ivRecsC.length u'.fixed) solver ∧ f.status = "OPTIMAL" ∧ f.splits = [2] := by
  set c := ivParamsC.cfgFixed hull pv ivRecsC.length (some ⟨[false, true], true⟩) with hc
  have hopt : c.opts ivCells = { maxBins := some 2, fixed := some fun i => [false, true].getD i false } := by
    simp only [hc, ParamsC.cfgFixed, ParamsC.cfg, ParamsC.options, ivParamsC, resolveTrendC, bind, Except.bind, pure, Except.pure]
    rfl
  have hwf : (c.input ivCells).Wf := ⟨rfl, rfl, show 0 < 3 by decide, show ∀ x ∈ [1, 2, 2], 0 < x by decide⟩
  have hch : ChangeInRange (c.opts ivCells) (c.input ivCells) := by rw [hopt]; intro tc h; simp at h
  obtain ⟨a, ha, hda⟩ : ∃ a, acceptsCont (c.opts ivCells) (c.input ivCells) a ∧ ∀ k, (a.x k k != 0) = sol3 false true k := by
    refine (C48_exact_partial hwf hch (Or.inl (by rw [hopt]; simp)) (sol3 false true)).2 ⟨?_, ?_, ?_⟩
    · rw [hopt]
      refine ⟨⟨show 0 < 3 by decide, rfl⟩, by simp [AtLeast], ?_, by simp [AtLeast], by simp [AtMost], trivial, ?_⟩
      · intro b hb
        simp only [Option.some.injEq] at hb
        subst hb
        show ((numBins 3 (sol3 false true) : ℕ) : ℤ) ≤ 2
        decide
      · intro g hg i hi hgi
        simp only [Option.some.injEq] at hg
        subst hg
        have hn : (c.input ivCells).n = 3 := rfl
        rw [hn] at hi
        have : i < 2 := by omega
        interval_cases i
        · simp at hgi
        · rfl
    · rintro s e s' e' - - - - ⟨t, ht, -⟩
      simp [hc, ParamsC.cfgFixed, ParamsC.cfg, ivParamsC, SolverCfgC.input] at ht
    · rintro s e s' e' - - - - ⟨h, -⟩
      simp [hc, ParamsC.cfgFixed, ParamsC.cfg, ivParamsC, SolverCfgC.input, XQ.value] at h
  have hval : ∀ b, acceptsCont (c.opts ivCells) (c.input ivCells) b → contObjective (c.opts ivCells) c.gamma (c.input ivCells) b =
      totalOverBins 3 (sol3 false true) (fun s e =>
        ⌊|binMean (c.input ivCells).recs (c.input ivCells).sum s e - binMean (c.input ivCells).recs (c.input ivCells).sum 0 2| * 1000000⌋) := by
    intro b hb
    have hadm := (hb.sound hwf hch).1
    have h2 : (b.x 2 2 != 0) = true := hadm.binning.2
    have h1 : (b.x 1 1 != 0) = true := hadm.fixed _ (by rw [hopt]) 1 (show 1 + 1 < 3 by decide) rfl
    have h0 : (b.x 0 0 != 0) = false := by
      have hmax := hadm.maxBins 2 (by rw [hopt])
      by_contra h
      have h' : (b.x 0 0 != 0) = true := by simpa using h
      have hn : numBins 3 (diag b.x) = 3 := by
        unfold numBins
        rw [Finset.filter_true_of_mem]
        · rfl
        · intro k hk
          rw [mem_range] at hk
          interval_cases k
          · exact h'
          · exact h1
          · exact h2
      have : ((numBins 3 (diag b.x) : ℕ) : ℤ) ≤ 2 := hmax
      rw [hn] at this
      norm_num at this
    have e1 : contObjective (c.opts ivCells) c.gamma (c.input ivCells) b = contObjectivePlain (c.input ivCells) b.x := by
      unfold contObjective; rw [hopt]; simp
    rw [e1, contObjective_eq hwf hb.core]
    unfold totalOverBins
    rw [show binsOf (c.input ivCells).n (diag b.x) = binsOf 3 (sol3 false true) from binsOf_congr (n := 3) fun k hk => by
      interval_cases k
      · exact h0
      · exact h1
      · exact h2]
    rfl
  let solver : SolverC := fun cells => if cells = ivCells then .optimal a else .other "UNKNOWN"
  have hcells : prebinCells false 3 [1, 2] (splitDataC .none none ivRecsC).clean = ivCells := by decide +kernel
  have hpb : computePrebinsC false (splitDataC .none none ivRecsC).clean { userSplits := [2, 1], fixed := some [false, true] } [1, 2] =
      .ok ⟨{ userSplits := [2, 1], fixed := some [false, true] }, [1, 2], ivCells⟩ := by
    rw [computePrebinsC]
    simp only [List.length_cons, List.length_nil, prebinNumber, Bool.false_eq_true, if_false, hcells]
    rw [dif_neg (by decide), dif_neg (by decide)]
  have hs : specialRows .none (splitDataC .none none ivRecsC).special = .ok [⟨0, some 0, none, none, none, 0⟩] := by decide +kernel
  have hm : missingRow {} (splitDataC .none none ivRecsC).missing = ⟨0, some 0, none, none, none, 0⟩ := by decide +kernel
  have hne : (splitDataC .none none ivRecsC).clean ≠ [] := by decide +kernel
  have hso : sortUserSplits { userSplits := [2, 1], fixed := some [true, false] } =
      .ok (({ userSplits := [2, 1], fixed := some [false, true] } : PrebinState ℕ), [1, 2]) := rfl
  have hfo : fitOptimizerC false solver [1, 2] ivCells = ⟨"OPTIMAL", [2], [false, true, true]⟩ := by
    have : (List.range ivCells.length).map (fun i => a.x i i != 0) = [false, true, true] := by
      simp [ivCells, List.range_succ, hda 0, hda 1, hda 2, sol3]
    simp only [fitOptimizerC, solver, solve, this, if_true]
    rfl
  have key : ∃ old' f, fitUserParamsC ivParamsC .none none (fun _ => id) solver {} ⟨[2, 1], some ⟨[true, false], false⟩⟩ ivRecsC =
      .ok (old', ⟨[2, 1], some ⟨[false, true], true⟩⟩, f) ∧ f.status = "OPTIMAL" ∧ f.splits = [2] := by
    unfold fitUserParamsC
    rw [ivAccepted]
    have hr : ivParamsC.rounded (fun _ => (id : ℕ → ℕ)) = id := rfl
    simp only [checkUserSplits, Option.map_some, fitUserRoundedC, hso, hs, hm, hr, List.map_id, fitCoreC, hpb, List.length_cons, List.length_nil, hne, if_false, hfo,
      bind, Except.bind, pure, Except.pure, Bool.false_and, Bool.false_eq_true]
    simp
  obtain ⟨old', f, k1, k2, k3⟩ := key
  refine ⟨solver, old', _, f, k1, fun cells => ?_, k2, k3⟩
  by_cases h : cells = ivCells
  · subst h
    show SolverAnswer.Valid _ _ (if ivCells = ivCells then .optimal a else .other "UNKNOWN")
    rw [if_pos rfl]
    exact ⟨ha, fun y hy => le_of_eq ((hval y hy).trans (hval a ha).symm)⟩
  · show SolverAnswer.Valid _ _ (if cells = ivCells then .optimal a else .other "UNKNOWN")
    rw [if_neg h]
    exact ⟨by decide, by decide⟩

/-- Non-vacuity of `C120_optimal`, `C120_fixed`, `C120_limits`, `C120_second_fit_refused`: the fit above meets their hypotheses, and the flagged
split is among its cut points; the set of cut points `[2]` meets the arguments. -/
example (hull : List ℚ → Option ℚ) (pv : ℚ → ℝ → ℕ → ℚ → ℝ → ℕ → ℝ) :
    ∃ (solver : SolverC) (old' : MissingStats) (u' : UserSplits ℕ) (f : FittedC ℕ),
      fitUserParamsC ivParamsC .none none (fun _ => id) solver {} ⟨[2, 1], some ⟨[true, false], false⟩⟩ ivRecsC = .ok (old', u', f) ∧
      RespectsC (ivParamsC.cfgFixed hull pv ivRecsC.length u'.fixed) solver ∧ f.status = "OPTIMAL" ∧ f.splits = [2] ∧ UnitWeights ivRecsC ∧
      PlainTrendC ivParamsC (splitDataC (α := ℕ) .none none ivRecsC).clean ∧ ([2, 1].map (asCutC ivParamsC fun _ => (id : ℕ → ℕ))).Nodup ∧
      IsFixed (⟨[2, 1], some ⟨[true, false], false⟩⟩ : UserSplits ℕ) 2 ∧
      CutsMeetC ivParamsC pv ivRecsC.length (splitDataC .none none ivRecsC).clean [2] ∧
      CutsFilled (splitDataC (α := ℕ) .none none ivRecsC).clean [1, 2] ∧
      ∃ e, fitUserParamsC ivParamsC .none none (fun _ => id) solver {} u' ivRecsC = .error e := by
  obtain ⟨solver, old', u', f, h1, h2, h3, h4⟩ := flaggedFitC hull pv
  refine ⟨solver, old', u', f, h1, h2, h3, h4, by unfold UnitWeights ivRecsC; simp, Or.inl (Or.inl rfl), by decide, ⟨_, rfl, by decide⟩, ?_, ?_,
    C120_second_fit_refused h1 (by simp) _ _ _ _ _ _ _⟩
  · constructor <;> simp [ivParamsC, AtLeast, AtMost]
  · have hcl : (splitDataC (α := ℕ) .none none ivRecsC).clean = ivRecsC := by decide +kernel
    intro k hk
    have hk : k ≤ 2 := hk
    rw [hcl]
    interval_cases k <;> simp [cutTargets, targetsOf, ivRecsC, InInterval]

/-- C120, finding: flags given as a numpy array (documented as "array-like") are refused, whatever the splits and the data. -/
theorem C120_numpy_flags_refused {α : Type*} [LinearOrder α] (p : ParamsC) (sc : SpecialCodes α) (det : Option (List (RecC α) → List Bool)) (rnd : ℤ → α → α)
    (solver : SolverC) (old : MissingStats) (splits : List α) (flags : List Bool) (recs : List (RecC α)) :
    ∃ e, fitUserParamsC p sc det rnd solver old ⟨splits, some ⟨flags, true⟩⟩ recs = .error e := by
  cases hres : fitUserParamsC p sc det rnd solver old ⟨splits, some ⟨flags, true⟩⟩ recs with
  | error e => exact ⟨e, rfl⟩
  | ok r =>
    obtain ⟨-, -, -, g⟩ := C120_accepted (old' := r.1) (u' := r.2.1) (f := r.2.2) hres
    exact absurd (g _ rfl).2 (by simp)

end OptBinning
