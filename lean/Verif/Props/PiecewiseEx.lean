import Verif.Props.PiecewiseC

/-! # Concrete piecewise binnings: the hypotheses of C80–C85 are met -/
set_option linter.unusedSectionVars false
namespace OptBinning
open Spec

/-! ## binary target -/

/-- Fifteen records: values 1 to 8, four with special codes, three missing. -/
def exPwRecs : List (Rec ℚ) :=
  [⟨some 1, some false, 1⟩, ⟨some 99, some true, 1⟩, ⟨some 2, some true, 1⟩, ⟨none, some false, 1⟩, ⟨some 3, some false, 1⟩,
   ⟨some 4, some true, 1⟩, ⟨some 5, some true, 1⟩, ⟨some 6, some false, 1⟩, ⟨none, some true, 1⟩, ⟨some 98, some false, 1⟩,
   ⟨some 7, some true, 1⟩, ⟨some 8, some false, 1⟩, ⟨some 98, some true, 1⟩, ⟨some 97, some false, 1⟩, ⟨none, some true, 1⟩]

def exPwCodes : SpecialCodes ℚ := .dict [("a", [some 99]), ("b", [some 98, some 97])]

/-- Four straight pieces, increasing, which meet at the split points 3, 5, 7. -/
def exPwCoef : List (List ℚ) := [[1/10, 1/20], [1/4, 0], [-1/4, 1/10], [9/20, 0]]

noncomputable def exPw : PWCfg ℚ :=
  { sc := exPwCodes, prebin := fun _ => [3, 5, 7], solver := exSolver fun _ _ => 0, regress := fun _ _ _ _ => exPwCoef }

/-- The fitted object. -/
def exPwFitted : PWFitted ℚ :=
  { splits := [3, 5, 7], coef := exPwCoef, nonevent := [1, 1, 1, 1, 0, 2, 1], event := [1, 1, 1, 1, 1, 1, 2],
    neSpecial := [0, 2], evSpecial := [1, 1], neMissing := 1, evMissing := 2 }

theorem exPw_inner : pwInner exPw (splitData exPwCodes {} exPwRecs).clean =
    .ok ⟨"FEASIBLE", [3, 5, 7], [1, 1, 1, 1, 0, 0], [1, 1, 1, 1, 0, 0]⟩ := by
  have h3 := exSolver_solve (fun _ _ => 0) [1, 1, 1, 1] [1, 1, 1, 1] (by decide)
  have hpb : computePrebins {} (splitData .none {} (splitData exPwCodes {} exPwRecs).clean).clean {} [3, 5, 7] =
      .ok ⟨{}, [3, 5, 7], [1, 1, 1, 1], [1, 1, 1, 1]⟩ := by
    rw [computePrebins]
    have h1 : prebinCounts false 4 [3, 5, 7] (splitData .none {} (splitData exPwCodes {} exPwRecs).clean).clean false = [1, 1, 1, 1] := by
      decide +kernel
    have h2 : prebinCounts false 4 [3, 5, 7] (splitData .none {} (splitData exPwCodes {} exPwRecs).clean).clean true = [1, 1, 1, 1] := by
      decide +kernel
    simp [prebinNumber, h1, h2, pureMask]
  have hs : ∀ e, specialCounts .none (splitData .none {} (splitData exPwCodes {} exPwRecs).clean).special e = [0] := by
    decide +kernel
  have hm : ∀ e, truncWeight ((splitData .none {} (splitData exPwCodes {} exPwRecs).clean).missing.filter
      fun q => q.isEvent == e) = 0 := by
    decide +kernel
  simp only [pwInner, exPw, fitNumerical, fitFrom, fitCore, hpb, bind, Except.bind, pure, Except.pure, hs, hm]
  rw [show fitOptimizer false (exSolver fun _ _ => 0) ([3, 5, 7] : List ℚ) [1, 1, 1, 1] [1, 1, 1, 1] =
    ⟨"FEASIBLE", [3, 5, 7], [true, true, true, true]⟩ by
      rw [fitOptimizer, h3]; rfl]
  rfl

theorem exPw_fit : pwFit exPw none none exPwRecs = .ok exPwFitted := by
  have h1 := exPw_inner
  have hs0 : specialCounts exPwCodes (splitData exPwCodes {} exPwRecs).special false = [0, 2] := by decide +kernel
  have hs1 : specialCounts exPwCodes (splitData exPwCodes {} exPwRecs).special true = [1, 1] := by decide +kernel
  have hm0 : pwMissingCount (splitData exPwCodes {} exPwRecs).missing false = 1 := by decide +kernel
  have hm1 : pwMissingCount (splitData exPwCodes {} exPwRecs).missing true = 2 := by decide +kernel
  have hsc : exPw.sc = exPwCodes := rfl
  have hou : exPw.outlier = none := rfl
  unfold pwFit
  simp only [hsc, hou, h1, hs0, hs1, hm0, hm1, bind, Except.bind]
  rw [if_neg (by decide +kernel)]
  rfl

theorem exPw_hyps : exPw.outlier = none ∧ Respects { div := fun _ _ => 0 } exPw.solver ∧
    (∀ l, (exPw.prebin l).Pairwise (· ≤ ·)) ∧ ProperCodes exPw.sc ∧ KnownTargets exPwRecs ∧ (∀ r ∈ exPwRecs, r.w = 1) := by
  refine ⟨rfl, exSolver_respects _, fun _ => by simp [exPw]; norm_num, ⟨?_, ?_⟩, ?_, ?_⟩
  · simp [exPw, exPwCodes, IsSpecialValue]
  · simp [exPw, exPwCodes]
  · unfold KnownTargets exPwRecs; simp
  · unfold exPwRecs; simp

/-- C80 on the example: row 5 (codes 98 and 97) counts two non-events and one event. -/
example : Spec.countClass exPwRecs false (InRow [3, 5, 7] exPwCodes 5) = 2 ∧ Spec.countClass exPwRecs true (InRow [3, 5, 7] exPwCodes 5) = 1 := by
  obtain ⟨a, b, c, d, e, g⟩ := exPw_hyps
  obtain ⟨-, -, -, h⟩ := C80_histogram a b c d e g exPw_fit
  exact ⟨((h 5).1).symm, ((h 5).2).symm⟩

/-- C80 on the example: column `c0` shows the event rate 1/3 in that row. -/
example : (exPwFitted.coefColumn exPwCodes 0) = [1/10, 1/4, -1/4, 9/20, 0, 1/3, 2/3] := by decide +kernel

/-- C82 on the example: `"empirical"` returns the share of the non-events, 2/3, for the code 98, and 1/3 for missing values. -/
example : exPwFitted.rate exPwCodes .empirical .empirical none none (some 98) = 2/3 ∧
    exPwFitted.rate exPwCodes .empirical .empirical none none none = 1/3 := by decide +kernel

/-- C81 on the example: the pieces are increasing and meet at the split points. -/
theorem exPw_ascending : AscendingPieces [3, 5, 7] (pieces exPwCoef) ∧ PiecesAgree [3, 5, 7] (pieces exPwCoef) := by
  have hp : ∀ v : ℚ, pieces exPwCoef 0 v = 1/10 + 1/20 * v ∧ pieces exPwCoef 1 v = 1/4 + 0 * v ∧
      pieces exPwCoef 2 v = -1/4 + 1/10 * v ∧ pieces exPwCoef 3 v = 9/20 + 0 * v := by
    intro v
    simp [pieces, exPwCoef, polyAt, Finset.sum_range_succ]
  refine ⟨⟨fun k hk v w _ _ h => ?_, fun k a ha => ?_⟩, fun k a ha => ?_⟩
  · obtain ⟨v0, v1, v2, v3⟩ := hp v
    obtain ⟨w0, w1, w2, w3⟩ := hp w
    simp only [List.length_cons, List.length_nil] at hk
    obtain rfl | rfl | rfl | rfl : k = 0 ∨ k = 1 ∨ k = 2 ∨ k = 3 := by omega
    all_goals simp only [v0, v1, v2, v3, w0, w1, w2, w3]; linarith
  all_goals
    obtain ⟨v0, v1, v2, v3⟩ := hp a
    have hk : k < 3 := (List.getElem?_eq_some_iff.1 ha).1
    obtain rfl | rfl | rfl : k = 0 ∨ k = 1 ∨ k = 2 := by omega
    all_goals
      simp at ha
      subst ha
      simp only [Nat.zero_add, Nat.reduceAdd, v0, v1, v2, v3]
      norm_num

example : exPwFitted.rate exPwCodes .empirical .empirical none none (some 2) ≤
    exPwFitted.rate exPwCodes .empirical .empirical none none (some 6) :=
  C81_ascending (f := exPwFitted) (by decide +kernel) exPw_ascending.1 (by norm_num)
    (by simp [exPwCodes, IsSpecialValue]) (by simp [exPwCodes, IsSpecialValue])

/-- A fitted object over the real numbers. -/
noncomputable def exPwReal : PWFitted ℝ :=
  { splits := [3], coef := [[1/10, 1/20], [1/4, 0]], nonevent := [1, 1, 0, 1], event := [1, 1, 0, 2],
    neSpecial := [0], evSpecial := [0], neMissing := 1, evMissing := 2 }

/-- C83 on an example: with the bounds 1/10 and 9/10 the WoE of every number is finite. -/
example : ∃ y w, exPwReal.transform .none "woe" (.number 0) .empirical (some (1/10)) (some (9/10)) [some 2, none] = .ok y ∧
    y[0]? = some (.fin w) := by
  obtain ⟨y, hy, -⟩ := (C83_no_other_error (f := exPwReal) (sc := .none) (lb := some (1/10)) (ub := some (9/10))
    (ms := .number 0) (mm := .empirical) rfl rfl [some 2, none]).2 (by simp [exPwReal])
  obtain ⟨w, hw, -⟩ := C83_bounded (f := exPwReal) (by simp [exPwReal]) (by simp [exPwReal]) (l := 1/10) (u := 9/10) (by norm_num)
    (by norm_num) (by norm_num) hy (i := 0) (v := 2) rfl (by simp [IsSpecialValue])
  exact ⟨y, w, hy, hw⟩

/-! ### a fit over the real numbers -/

def exPwRecsR : List (Rec ℝ) := [⟨some 1, some false, 1⟩, ⟨some 2, some true, 1⟩, ⟨some 3, some true, 1⟩]

noncomputable def exPwR : PWCfg ℝ :=
  { prebin := fun _ => [], solver := exSolver fun _ _ => 0, regress := fun _ _ _ _ => [[0, 1/4]] }

theorem exPwR_fit : pwFit exPwR none none exPwRecsR =
    .ok { splits := [], coef := [[0, 1/4]], nonevent := [1, 0, 0], event := [2, 0, 0], neSpecial := [0], evSpecial := [0],
          neMissing := 0, evMissing := 0 } := by
  have hsplit : splitData (.none : SpecialCodes ℝ) {} exPwRecsR = ⟨exPwRecsR, [], []⟩ := by
    simp [splitData, exPwRecsR, Rec.isMissing, Rec.isSpecial, SpecialCodes.codes, fixBounds]
  have h0 : truncWeight (exPwRecsR.filter fun q => q.isEvent == false) = 1 := by
    simp [truncWeight, exPwRecsR, Rec.isEvent, List.filter]
  have h1 : truncWeight (exPwRecsR.filter fun q => q.isEvent == true) = 2 := by
    simp [truncWeight, exPwRecsR, Rec.isEvent, List.filter]
    norm_num
  have hi : pwInner exPwR exPwRecsR = .ok ⟨"OPTIMAL", [], [1, 0, 0], [2, 0, 0]⟩ := by
    simp only [pwInner, exPwR, fitNumerical, fitFrom, fitCore, hsplit, bind, Except.bind, pure, Except.pure]
    rw [computePrebins]
    have h2 : truncWeight ([] : List (Rec ℝ)) = 0 := by simp [truncWeight]
    simp only [List.length_nil, dif_pos, fitOptimizer, Nat.zero_le, if_true, binInfo, accumBins, h0, h1, h2, specialCounts, List.filter_nil]
    rfl
  have hsc : exPwR.sc = .none := rfl
  have hou : exPwR.outlier = none := rfl
  unfold pwFit
  simp only [hsc, hou, hsplit, hi, bind, Except.bind]
  rw [if_neg (by decide)]
  simp [specialCounts, pwMissingCount, truncWeight, exPwR, pure, Except.pure]

theorem exPwR_hyps : exPwR.outlier = none ∧ Respects { div := fun _ _ => 0 } exPwR.solver ∧
    (∀ l, (exPwR.prebin l).Pairwise (· ≤ ·)) ∧ ProperCodes exPwR.sc ∧ KnownTargets exPwRecsR ∧ (∀ r ∈ exPwRecsR, r.w = 1) := by
  refine ⟨rfl, exSolver_respects _, fun _ => by simp [exPwR], ⟨?_, ?_⟩, ?_, ?_⟩
  · simp [exPwR, IsSpecialValue]
  · simp [exPwR]
  · unfold KnownTargets exPwRecsR; simp
  · unfold exPwRecsR; simp

/-- C83 on the example: the training data has no missing record, so `metric="woe"` with `metric_missing="empirical"` raises. -/
example : ∃ f, pwFit exPwR none none exPwRecsR = .ok f ∧
    f.transform exPwR.sc "woe" (.number 0) .empirical none none [some 1] = .error "ZeroDivisionError" := by
  refine ⟨_, exPwR_fit, C83_empirical_missing_raises (c := exPwR) (recs := exPwRecsR) rfl exPwR_hyps.2.2.2.2.1 exPwR_fit ?_ rfl _⟩
  simp [Spec.countClass, exPwRecsR]

/-- C84 on the example. -/
example : ∃ f, pwFit exPwR none none exPwRecsR = .ok f ∧
    0 ≤ f.divergence exPwR.sc (splitData exPwR.sc {} exPwRecsR).clean jeffrey := by
  obtain ⟨a, b, c, d, e, g⟩ := exPwR_hyps
  exact ⟨_, exPwR_fit, (C84_fitted a b c d e g exPwR_fit).2 _ (by simp)⟩

/-! ### the outlier detector runs twice -/

/-- A detector that declares the greatest of the values an outlier (any detector that works relative to its data behaves so). -/
def exDet (l : List (Rec ℚ)) : List Bool := l.map fun r => l.all fun q => match q.x, r.x with
  | some a, some b => decide (a ≤ b)
  | _, _ => true

noncomputable def exPwDet : PWCfg ℚ := { exPw with sc := .none, outlier := some exDet, prebin := fun _ => [3] }

def exDetRecs : List (Rec ℚ) :=
  [⟨some 1, some false, 1⟩, ⟨some 2, some true, 1⟩, ⟨some 3, some false, 1⟩, ⟨some 4, some true, 1⟩, ⟨some 5, some false, 1⟩,
   ⟨some 6, some false, 1⟩]

/-- C80, finding: the detector is applied to the records and again, inside the inner binning, to those which are left.  Here it
removes one record of six each time: five records are used for the regression and in `n_samples` minus outliers, but the table
counts four. -/
theorem C80_outlier_twice : (splitData exPwDet.sc { outlier := exPwDet.outlier } exDetRecs).clean.length = 5 ∧
    ∃ f, pwFit exPwDet none none exDetRecs = .ok f ∧ f.nonevent.sum + f.event.sum = 4 := by
  refine ⟨by decide +kernel, ?_⟩
  have h3 := exSolver_solve (fun _ _ => 0) [1, 1] [1, 1] (by decide)
  have hpb : computePrebins {} (splitData .none { outlier := some exDet }
      (splitData .none { outlier := some exDet } exDetRecs).clean).clean {} [3] = .ok ⟨{}, [3], [1, 1], [1, 1]⟩ := by
    rw [computePrebins]
    have h1 : prebinCounts false 2 [3] (splitData .none { outlier := some exDet }
      (splitData .none { outlier := some exDet } exDetRecs).clean).clean false = [1, 1] := by decide +kernel
    have h2 : prebinCounts false 2 [3] (splitData .none { outlier := some exDet }
      (splitData .none { outlier := some exDet } exDetRecs).clean).clean true = [1, 1] := by decide +kernel
    simp [prebinNumber, h1, h2, pureMask]
  have hs : ∀ e, specialCounts .none (splitData .none { outlier := some exDet }
      (splitData .none { outlier := some exDet } exDetRecs).clean).special e = [0] := by
    decide +kernel
  have hm : ∀ e, truncWeight ((splitData .none { outlier := some exDet }
      (splitData .none { outlier := some exDet } exDetRecs).clean).missing.filter fun q => q.isEvent == e) = 0 := by
    decide +kernel
  have hi : pwInner exPwDet (splitData .none { outlier := some exDet } exDetRecs).clean =
      .ok ⟨"FEASIBLE", [3], [1, 1, 0, 0], [1, 1, 0, 0]⟩ := by
    simp only [pwInner, exPwDet, exPw, fitNumerical, fitFrom, fitCore, hpb, bind, Except.bind, pure, Except.pure, hs, hm]
    rw [show fitOptimizer false (exSolver fun _ _ => 0) ([3] : List ℚ) [1, 1] [1, 1] = ⟨"FEASIBLE", [3], [true, true]⟩ by
        rw [fitOptimizer, h3]; rfl]
    rfl
  have hs0 : ∀ e, specialCounts .none (splitData .none { outlier := some exDet } exDetRecs).special e = [0] := by decide +kernel
  have hm0 : ∀ e, pwMissingCount (splitData .none { outlier := some exDet } exDetRecs).missing e = 0 := by decide +kernel
  have hsc : exPwDet.sc = .none := rfl
  have hou : exPwDet.outlier = some exDet := rfl
  unfold pwFit
  simp only [hsc, hou, hi, hs0, hm0, bind, Except.bind]
  rw [if_neg (by decide +kernel)]
  exact ⟨_, rfl, rfl⟩

/-! ## continuous target -/

def exPwRecsC : List (RecC ℚ) :=
  [⟨some 1, some 2, 1⟩, ⟨some 99, some 7, 1⟩, ⟨some 2, some 4, 1⟩, ⟨some 4, some 0, 1⟩, ⟨none, some 5, 1⟩,
   ⟨some 5, some (-3), 1⟩, ⟨some 6, some 0, 1⟩, ⟨some 98, some 1, 1⟩, ⟨some 8, some 10, 1⟩]

/-- External regression returning horizontal pieces; a lower bound is respected. -/
noncomputable def exPwC : PWCfgC ℚ :=
  { sc := exPwCodes, prebin := fun _ => [3, 7], solver := exSolverC,
    regress := fun _ _ lb _ => [[3], [match lb with | some l => max (-1) l | none => -1], [10]] }

/-- The rows of the table. -/
def exPwRowsC : List RowC :=
  [⟨2, some 6, some 1, some 2, some 4, 0⟩, ⟨3, some (-3), some 2, some (-3), some 0, 2⟩, ⟨1, some 10, some 0, some 10, some 10, 0⟩,
   ⟨1, some 7, some 0, some 7, some 7, 0⟩, ⟨1, some 1, some 0, some 1, some 1, 0⟩, ⟨1, some 5, some 0, some 5, some 5, 0⟩]

theorem exPwC_fit (lb ub : Option ℚ) : pwFitC exPwC lb ub {} exPwRecsC = .ok (⟨some 0, some 5, some 5⟩,
    { splits := [3, 7], coef := exPwC.regress (splitDataC exPwCodes none exPwRecsC).clean [3, 7] lb ub, rows := exPwRowsC,
      special := [⟨1, some 7, some 0, some 7, some 7, 0⟩, ⟨1, some 1, some 0, some 1, some 1, 0⟩],
      missing := ⟨1, some 5, some 0, some 5, some 5, 0⟩ }) := by
  have hs : specialRows exPwCodes (splitDataC exPwCodes none exPwRecsC).special =
      .ok [⟨1, some 7, some 0, some 7, some 7, 0⟩, ⟨1, some 1, some 0, some 1, some 1, 0⟩] := by decide +kernel
  have hm : missingRow {} (splitDataC exPwCodes none exPwRecsC).missing = ⟨1, some 5, some 0, some 5, some 5, 0⟩ := by
    decide +kernel
  have hcells : prebinCells false 3 [3, 7] (splitDataC .none none (splitDataC exPwCodes none exPwRecsC).clean).clean =
      [⟨2, 6, 20, 0, some 2, some 4⟩, ⟨3, -3, 9, 2, some (-3), some 0⟩, ⟨1, 10, 100, 0, some 10, some 10⟩] := by
    decide +kernel
  have hpb : computePrebinsC false (splitDataC .none none (splitDataC exPwCodes none exPwRecsC).clean).clean {} [3, 7] =
      .ok ⟨{}, [3, 7], [⟨2, 6, 20, 0, some 2, some 4⟩, ⟨3, -3, 9, 2, some (-3), some 0⟩,
        ⟨1, 10, 100, 0, some 10, some 10⟩]⟩ := by
    rw [computePrebinsC]
    simp only [List.length_cons, List.length_nil, prebinNumber, Bool.false_eq_true, if_false, hcells]
    rw [dif_neg (by decide), dif_neg (by decide)]
  have hsolve := exSolverC_solve [⟨2, 6, 20, 0, some 2, some 4⟩, ⟨3, -3, 9, 2, some (-3), some 0⟩,
        ⟨1, 10, 100, 0, some 10, some 10⟩] (by decide) (by decide)
  have hne : (splitDataC .none none (splitDataC exPwCodes none exPwRecsC).clean).clean ≠ [] := by decide +kernel
  have hs' : specialRows (.none : SpecialCodes ℚ) (splitDataC .none none (splitDataC exPwCodes none exPwRecsC).clean).special =
      .ok [⟨0, some 0, none, none, none, 0⟩] := by decide +kernel
  have hm' : missingRow {} (splitDataC .none none (splitDataC exPwCodes none exPwRecsC).clean).missing =
      ⟨0, some 0, none, none, none, 0⟩ := by decide +kernel
  have hinner : fitNumericalC .none none (fun _ => [3, 7]) exSolverC {} (splitDataC exPwCodes none exPwRecsC).clean =
      .ok (⟨none, none, none⟩, ⟨"FEASIBLE", [3, 7], exPwRowsC.take 3 ++ [⟨0, some 0, none, none, none, 0⟩, ⟨0, some 0, none, none, none, 0⟩]⟩) := by
    simp only [fitNumericalC, hs', hm', fitCoreC, hpb, bind, Except.bind, pure, Except.pure, List.length_cons, List.length_nil,
      fitOptimizerC, hne, if_false]
    rw [if_neg (by decide), if_neg (by decide)]
    simp only [List.length_cons, List.length_nil] at hsolve
    rw [hsolve]
    simp only [Except.ok.injEq, Prod.mk.injEq, true_and, FittedC.mk.injEq, Option.toList_none, List.append_nil]
    constructor
    · decide +kernel
    · decide +kernel
  have e1 : exPwC.sc = exPwCodes := rfl
  have e2 : exPwC.outlier = none := rfl
  have hin : pwInnerC exPwC (splitDataC exPwCodes none exPwRecsC).clean = fitNumericalC .none none (fun _ => [3, 7]) exSolverC {}
    (splitDataC exPwCodes none exPwRecsC).clean := rfl
  unfold pwFitC
  simp only [e1, e2, hin, hinner, hs, hm, bind, Except.bind, pure, Except.pure]
  rfl

theorem exPwC_hyps : exPwC.outlier = none ∧ RespectsC {} exPwC.solver ∧
    (exPwC.userSplits = none → ∀ l, (exPwC.prebin l).Pairwise (· ≤ ·)) ∧ ProperCodes exPwC.sc ∧ KnownTargetsC exPwRecsC ∧ UnitWeights exPwRecsC := by
  refine ⟨rfl, exSolverC_respects, fun _ _ => by simp [exPwC]; norm_num, exPw_hyps.2.2.2.1, ?_, ?_⟩
  · unfold KnownTargetsC exPwRecsC; simp
  · unfold UnitWeights exPwRecsC; simp

/-- C85 on the example: the targets behind row 1 are 0, -3, 0. -/
example : ∃ row, exPwRowsC[1]? = some row ∧
    Summarises (targetsIn exPwRecsC (InRow [3, 7] exPwCodes 1)) row.cnt row.sum row.var row.mn row.mx row.zeros := by
  obtain ⟨a, b, c, d, e, g⟩ := exPwC_hyps
  exact (C85_rows a b c d e g (exPwC_fit none none)).2.2 1 (by decide)

/-- The same fit with the cut points given as user splits, unsorted, the first one fixed. -/
noncomputable def exPwCUser : PWCfgC ℚ :=
  { exPwC with userSplits := some [7, 3], fixed := some ⟨[true, false], false⟩, prebin := fun _ => [] }

theorem exPwCUser_fit (lb ub : Option ℚ) : pwFitC exPwCUser lb ub {} exPwRecsC = .ok (⟨some 0, some 5, some 5⟩,
    { splits := [3, 7], coef := exPwC.regress (splitDataC exPwCodes none exPwRecsC).clean [3, 7] lb ub, rows := exPwRowsC,
      special := [⟨1, some 7, some 0, some 7, some 7, 0⟩, ⟨1, some 1, some 0, some 1, some 1, 0⟩],
      missing := ⟨1, some 5, some 0, some 5, some 5, 0⟩ }) := by
  have h := exPwC_fit lb ub
  have hcells : prebinCells false 3 [3, 7] (splitDataC .none none (splitDataC exPwCodes none exPwRecsC).clean).clean =
      [⟨2, 6, 20, 0, some 2, some 4⟩, ⟨3, -3, 9, 2, some (-3), some 0⟩, ⟨1, 10, 100, 0, some 10, some 10⟩] := by
    decide +kernel
  have hpb : ∀ st : PrebinState ℚ, computePrebinsC false (splitDataC .none none (splitDataC exPwCodes none exPwRecsC).clean).clean st [3, 7] =
      .ok ⟨st, [3, 7], [⟨2, 6, 20, 0, some 2, some 4⟩, ⟨3, -3, 9, 2, some (-3), some 0⟩,
        ⟨1, 10, 100, 0, some 10, some 10⟩]⟩ := by
    intro st
    rw [computePrebinsC]
    simp only [List.length_cons, List.length_nil, prebinNumber, Bool.false_eq_true, if_false, hcells]
    rw [dif_neg (by decide), dif_neg (by decide)]
  have hne : (splitDataC .none none (splitDataC exPwCodes none exPwRecsC).clean).clean ≠ [] := by decide +kernel
  have hso : sortUserSplits ({ userSplits := [7, 3], fixed := some [true, false] } : PrebinState ℚ) =
      .ok ({ userSplits := [7, 3], fixed := some [false, true] }, [3, 7]) := by
    have hi : (([7, 3] : List ℚ).zip [true, false]).insertionSort (fun a b => a.1 ≤ b.1) = [(3, false), (7, true)] := by decide +kernel
    unfold sortUserSplits
    rw [if_pos (by decide +kernel)]
    simp only [hi, List.map_cons, List.map_nil]
  have hs' : specialRows (.none : SpecialCodes ℚ) (splitDataC .none none (splitDataC exPwCodes none exPwRecsC).clean).special =
      .ok [⟨0, some 0, none, none, none, 0⟩] := by decide +kernel
  have hin : pwInnerC exPwCUser (splitDataC exPwCodes none exPwRecsC).clean = pwInnerC exPwC (splitDataC exPwCodes none exPwRecsC).clean := by
    have e1 : pwInnerC exPwC (splitDataC exPwCodes none exPwRecsC).clean = fitNumericalC .none none (fun _ => [3, 7]) exSolverC {}
      (splitDataC exPwCodes none exPwRecsC).clean := rfl
    set cl := (splitDataC exPwCodes none exPwRecsC).clean with hcl
    obtain ⟨B, hB⟩ : ∃ B : FittedC ℚ, ∀ st : PrebinState ℚ, fitCoreC false exSolverC (splitDataC .none none cl).clean none
        [⟨0, some 0, none, none, none, 0⟩] (missingRow {} (splitDataC .none none cl).missing) st [3, 7] = .ok (st, B) := by
      apply Exists.intro
      intro st
      have := fitCoreC_eq (solver := exSolverC) (others := none) (special := [⟨0, some 0, none, none, none, 0⟩])
        (missing := missingRow {} (splitDataC .none none cl).missing) hne (by simp) (hpb st)
      simp only at this
      exact this
    have q1 : fitNumericalC .none none (fun _ => [3, 7]) exSolverC {} cl = .ok (⟨(missingRow {} (splitDataC .none none cl).missing).var,
        (missingRow {} (splitDataC .none none cl).missing).mn, (missingRow {} (splitDataC .none none cl).missing).mx⟩, B) := by
      unfold fitNumericalC
      simp only [hs', bind, Except.bind, pure, Except.pure, hB]
    have q2 : fitUserC .none none exSolverC {} ({ userSplits := [7, 3], fixed := some [true, false] } : PrebinState ℚ) cl =
        .ok (⟨(missingRow {} (splitDataC .none none cl).missing).var, (missingRow {} (splitDataC .none none cl).missing).mn,
          (missingRow {} (splitDataC .none none cl).missing).mx⟩, { userSplits := [7, 3], fixed := some [false, true] }, B) := by
      unfold fitUserC
      rw [if_neg (by simp)]
      simp only [hso, hs', bind, Except.bind, pure, Except.pure, hB]
    have hc : checkUserSplits (⟨[7, 3], some ⟨[true, false], false⟩⟩ : UserSplits ℚ) = .ok () := rfl
    rw [e1, q1]
    unfold pwInnerC
    have f1 : exPwCUser.userSplits = some [7, 3] := rfl
    have f2 : exPwCUser.fixed = some ⟨[true, false], false⟩ := rfl
    have f3 : exPwCUser.outlier = none := rfl
    have f4 : exPwCUser.solver = exSolverC := rfl
    rw [f1, f2, f3, f4]
    simp only [hc, Option.map_some, q2]
  have hp : pwFitC exPwCUser lb ub {} exPwRecsC = pwFitC exPwC lb ub {} exPwRecsC := by
    unfold pwFitC
    have e1 : exPwCUser.sc = exPwCodes := rfl
    have e2 : exPwCUser.outlier = none := rfl
    have e3 : exPwC.sc = exPwCodes := rfl
    have e4 : exPwC.outlier = none := rfl
    have e5 : exPwCUser.regress = exPwC.regress := rfl
    simp only [e1, e2, e3, e4, e5, hin]
  rw [hp, h]

/-- C85_user_splits and C85_rows on the example. -/
example : (∀ s ∈ ([3, 7] : List ℚ), s ∈ ([7, 3] : List ℚ)) ∧ ∃ row, exPwRowsC[1]? = some row ∧
    Summarises (targetsIn exPwRecsC (InRow [3, 7] exPwCodes 1)) row.cnt row.sum row.var row.mn row.mx row.zeros := by
  obtain ⟨-, b, -, d, e, g⟩ := exPwC_hyps
  have hn : exPwCUser.userSplits = none → ∀ l, (exPwCUser.prebin l).Pairwise (· ≤ ·) := fun h => by simp [exPwCUser] at h
  exact ⟨(C85_user_splits (c := exPwCUser) rfl b e g rfl (exPwCUser_fit none none)).2.2,
    (C85_rows (c := exPwCUser) rfl b hn d e g (exPwCUser_fit none none)).2.2 1 (by decide)⟩

/-- C85, finding: `fit_transform(x, y)` fits with the lower bound `check_input = False`, that is 0, so its result differs from
that of `fit(x, y).transform(x)`: here 0 instead of -1 for the value 4. -/
theorem C85_fit_transform_not_fit_then_transform : ∃ f st y,
    pwFitC exPwC none none {} exPwRecsC = .ok (st, f) ∧
    f.value exPwC.sc .empirical .empirical none none (some 4) = .num (-1) ∧
    pwFitTransformC exPwC {} exPwRecsC .empirical .empirical none none false = .ok y ∧ exPwRecsC[3]?.map RecC.x = some (some 4) ∧
    y[3]? = some (.num 0) := by
  refine ⟨_, _, _, exPwC_fit none none, ?_, by
    unfold pwFitTransformC; rw [exPwC_fit]; rfl, rfl, ?_⟩
  · have e1 : exPwC.sc = exPwCodes := rfl
    rw [e1]
    simp only [exPwC]
    decide +kernel
  · have e1 : exPwC.sc = exPwCodes := rfl
    rw [e1]
    simp only [exPwC]
    decide +kernel

end OptBinning
