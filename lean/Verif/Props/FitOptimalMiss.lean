import Verif.Props.FitOptimalEx
import Verif.Props.FitOptimalPure
import Mathlib.Tactic.IntervalCases

/-!
# C103: with missing values the reported divergence need not be maximal
-/
namespace OptBinning
open Finset Spec

/-- Fifteen records: value 0 with 1 non-event and 4 events, value 1 with 1 and 2, value 2 with 1 and 1, five missing values with non-events. -/
def missRecs : List (Rec ℕ) :=
  [⟨some 0, some false, 1⟩, ⟨some 0, some true, 1⟩, ⟨some 0, some true, 1⟩, ⟨some 0, some true, 1⟩, ⟨some 0, some true, 1⟩,
   ⟨some 1, some false, 1⟩, ⟨some 1, some true, 1⟩, ⟨some 1, some true, 1⟩, ⟨some 2, some false, 1⟩, ⟨some 2, some true, 1⟩,
   ⟨none, some false, 1⟩, ⟨none, some false, 1⟩, ⟨none, some false, 1⟩, ⟨none, some false, 1⟩, ⟨none, some false, 1⟩]

/-- `OptimalBinning(monotonic_trend=None, divergence="triangular", max_n_bins=2)`. -/
def missParams : Params := { trend := .none, divergence := .triangular, maxBins := some 2 }

theorem missAccepted : checkParameters missParams = .ok () := by decide +kernel

/-- The binning of three pre-bins given by two choices. -/
def sol3 (a b : Bool) (k : ℕ) : Bool := if k = 0 then a else if k = 1 then b else true

theorem isBin_icc {n : ℕ} {sol : ℕ → Bool} (s e : ℕ) :
    IsBin n sol s e ↔ s ≤ e ∧ e < n ∧ sol e = true ∧ (s = 0 ∨ sol (s - 1) = true) ∧ ∀ k ∈ Finset.Ico s e, sol k = false := by
  simp only [IsBin, Finset.mem_Ico, and_imp]

theorem totalOverBins_sol3 {R : Type*} [AddCommMonoid R] (a b : Bool) (v : ℕ → ℕ → R) :
    totalOverBins 3 (sol3 a b) v = match a, b with
      | true, true => v 0 0 + v 1 1 + v 2 2
      | true, false => v 0 0 + v 1 2
      | false, true => v 0 1 + v 2 2
      | false, false => v 0 2 := by
  classical
  have h : ∀ T : Finset (ℕ × ℕ), (∀ s e, IsBin 3 (sol3 a b) s e ↔ (s, e) ∈ T) → totalOverBins 3 (sol3 a b) v = ∑ q ∈ T, v q.1 q.2 := by
    intro T hT
    unfold totalOverBins
    congr 1
    ext ⟨s, e⟩
    simp only [binsOf, mem_filter, mem_product, mem_range]
    rw [hT]
    constructor
    · exact fun h => h.2
    · intro h
      have := (hT s e).2 h
      exact ⟨⟨lt_of_le_of_lt this.1 this.2.1, this.2.1⟩, h⟩
  have hd : ∀ (a b : Bool) (T : Finset (ℕ × ℕ)), (∀ s ∈ range 3, ∀ e ∈ range 3, (s ≤ e ∧ e < 3 ∧ sol3 a b e = true ∧ (s = 0 ∨ sol3 a b (s - 1) = true) ∧
      ∀ k ∈ Finset.Ico s e, sol3 a b k = false) ↔ (s, e) ∈ T) → (∀ q ∈ T, q.1 < 3 ∧ q.2 < 3) → ∀ s e, IsBin 3 (sol3 a b) s e ↔ (s, e) ∈ T := by
    intro a b T h1 h2 s e
    rw [isBin_icc]
    constructor
    · intro h
      exact (h1 s (mem_range.2 (lt_of_le_of_lt h.1 h.2.1)) e (mem_range.2 h.2.1)).1 h
    · intro h
      exact (h1 s (mem_range.2 (h2 _ h).1) e (mem_range.2 (h2 _ h).2)).2 h
  cases a <;> cases b
  · rw [h {(0, 2)} (hd _ _ _ (by decide) (by decide))]; simp
  · rw [h {(0, 1), (2, 2)} (hd _ _ _ (by decide) (by decide))]; simp
  · rw [h {(0, 0), (1, 2)} (hd _ _ _ (by decide) (by decide))]; simp
  · rw [h {(0, 0), (1, 1), (2, 2)} (hd _ _ _ (by decide) (by decide))]; simp [add_assoc]

/-- Values of the objective. -/
theorem missValue (a b : Bool) : totalOverBins 3 (sol3 a b) (binDivergence triangular 3 (fun k => (([1, 1, 1].getD k 0 : ℕ) : ℤ)) (fun k => (([4, 2, 1].getD k 0 : ℕ) : ℤ))) =
    match a, b with
      | true, true => triangular (4 / 7) (1 / 3) + triangular (2 / 7) (1 / 3) + triangular (1 / 7) (1 / 3)
      | true, false => 50 / 437
      | false, true => 1 / 10
      | false, false => 0 := by
  have hb : ∀ s e : ℕ, binDivergence triangular 3 (fun k => (([1, 1, 1].getD k 0 : ℕ) : ℤ)) (fun k => (([4, 2, 1].getD k 0 : ℕ) : ℤ)) s e =
      triangular (((binTotal (fun k => (([4, 2, 1].getD k 0 : ℕ) : ℤ)) s e : ℤ) : ℝ) / 7) (((binTotal (fun k => (([1, 1, 1].getD k 0 : ℕ) : ℤ)) s e : ℤ) : ℝ) / 3) := by
    intro s e
    have e1 : binTotal (fun k => (([4, 2, 1].getD k 0 : ℕ) : ℤ)) 0 2 = 7 := by decide
    have e2 : binTotal (fun k => (([1, 1, 1].getD k 0 : ℕ) : ℤ)) 0 2 = 3 := by decide
    unfold binDivergence
    norm_num only [e1, e2]
  have v : ∀ s e : ℕ, ∀ x y : ℤ, binTotal (fun k => (([4, 2, 1].getD k 0 : ℕ) : ℤ)) s e = x → binTotal (fun k => (([1, 1, 1].getD k 0 : ℕ) : ℤ)) s e = y →
      binDivergence triangular 3 (fun k => (([1, 1, 1].getD k 0 : ℕ) : ℤ)) (fun k => (([4, 2, 1].getD k 0 : ℕ) : ℤ)) s e = triangular ((x : ℝ) / 7) ((y : ℝ) / 3) := by
    intro s e x y hx hy
    rw [hb, hx, hy]
  rw [totalOverBins_sol3, v 0 0 4 1 (by decide) (by decide), v 1 1 2 1 (by decide) (by decide), v 2 2 1 1 (by decide) (by decide),
    v 1 2 3 2 (by decide) (by decide), v 0 1 6 2 (by decide) (by decide), v 0 2 7 3 (by decide) (by decide)]
  cases a <;> cases b <;> simp only [triangular] <;> norm_num

/-- C103, negative: fifteen records, five of them with missing values; the fit with status OPTIMAL reports a smaller `triangular` divergence in its
binning table than another fit allowed by the same arguments. -/
theorem C103_missing_not_maximal (hull : List ℚ → Option ℚ) (pv : ℕ → ℕ → ℕ → ℕ → ℝ) (sort : List Row → List Row) :
    checkParameters missParams = .ok () ∧
    ∃ solver solver' : Solver, ∃ f f' : Fitted ℕ, ∃ b b' : BuiltTable,
      RespectsMIP (missParams.cfg hull false pv missRecs.length) 0 solver ∧
      RespectsMIP (missParams.cfg hull false pv missRecs.length) 0 solver' ∧
      fitParams missParams .none {} (fun _ => [1, 2]) solver missRecs = .ok f ∧ f.status = "OPTIMAL" ∧
      fitParams missParams .none {} (fun _ => [1, 2]) solver' missRecs = .ok f' ∧ f'.status = "FEASIBLE" ∧
      buildTable sort f.rows = .ok b ∧ buildTable sort f'.rows = .ok b' ∧ b.tTriangular < b'.tTriangular := by
  refine ⟨missAccepted, ?_⟩
  set c := missParams.cfg hull false pv missRecs.length with hc
  have hopt : c.opts [1, 1, 1] [4, 2, 1] = { maxBins := some 2 } := by
    simp only [hc, Params.cfg, Params.options, missParams, resolveTrend, bind, Except.bind, pure, Except.pure]
    rfl
  have hwf : (c.input [1, 1, 1] [4, 2, 1]).Wf := ⟨rfl, show 0 < 3 by decide⟩
  have hdiv : binDivergence (c.input [1, 1, 1] [4, 2, 1]).div (c.input [1, 1, 1] [4, 2, 1]).n (c.input [1, 1, 1] [4, 2, 1]).ne (c.input [1, 1, 1] [4, 2, 1]).ev =
      binDivergence triangular 3 (fun k => (([1, 1, 1].getD k 0 : ℕ) : ℤ)) (fun k => (([4, 2, 1].getD k 0 : ℕ) : ℤ)) := rfl
  have hacc : ∀ x y : Bool, (x && y) = false → ∃ a, acceptsMIP (c.opts [1, 1, 1] [4, 2, 1]) (c.input [1, 1, 1] [4, 2, 1]) a ∧ ∀ k < 3, (a.x k k != 0) = sol3 x y k := by
    intro x y hxy
    rw [hopt]
    refine (C18_exact_mip_partial hwf ⟨Or.inl (Or.inl rfl), by simp, by simp⟩ (sol3 x y)).2 ⟨?_, ?_, ?_⟩
    · refine ⟨⟨show 0 < 3 by decide, rfl⟩, by simp [AtLeast], ?_, by simp [AtLeast], by simp [AtMost],
        by simp [AtLeast], by simp [AtMost], by simp [AtLeast], by simp [AtMost], trivial, by simp⟩
      intro b hb
      simp only [Option.some.injEq] at hb
      subst hb
      show ((numBins 3 (sol3 x y) : ℕ) : ℤ) ≤ 2
      cases x <;> cases y <;> first | (simp at hxy; done) | decide
    · rintro s e s' e' - - - - ⟨t, ht, -⟩
      simp [hc, Params.cfg, missParams, SolverCfg.input] at ht
    · rintro s e s' e' - - - - ⟨h, -⟩
      simp [hc, Params.cfg, missParams, SolverCfg.input, XQ.value] at h
  have hval : ∀ a, acceptsMIP (c.opts [1, 1, 1] [4, 2, 1]) (c.input [1, 1, 1] [4, 2, 1]) a →
      objectiveMIP (c.opts [1, 1, 1] [4, 2, 1]) (c.input [1, 1, 1] [4, 2, 1]) 0 a = totalOverBins 3 (sol3 (a.x 0 0 != 0) (a.x 1 1 != 0))
        (binDivergence triangular 3 (fun k => (([1, 1, 1].getD k 0 : ℕ) : ℤ)) (fun k => (([4, 2, 1].getD k 0 : ℕ) : ℤ))) ∧
      ((a.x 0 0 != 0) && (a.x 1 1 != 0)) = false := by
    intro a ha
    have hadm := ha.admissible hwf
    have hdiag : ∀ k < 3, (a.x k k != 0) = sol3 (a.x 0 0 != 0) (a.x 1 1 != 0) k := by
      intro k hk
      have h2 : (a.x 2 2 != 0) = true := hadm.binning.2
      interval_cases k
      · rfl
      · rfl
      · rw [h2]; rfl
    constructor
    · rw [C17_objective_mip hwf ha (by rw [hopt]), hdiv]
      unfold totalOverBins
      rw [show binsOf (c.input [1, 1, 1] [4, 2, 1]).n (fun k => a.x k k != 0) = binsOf 3 (sol3 (a.x 0 0 != 0) (a.x 1 1 != 0)) from binsOf_congr hdiag]
    · have hmax := hadm.maxBins 2 (by rw [hopt])
      by_contra h
      have h' : ((a.x 0 0 != 0) && (a.x 1 1 != 0)) = true := by simpa using h
      rw [Bool.and_eq_true] at h'
      have hn : numBins 3 (fun k => a.x k k != 0) = 3 := by
        unfold numBins
        rw [Finset.filter_true_of_mem]
        · rfl
        · intro k hk
          rw [mem_range] at hk
          show (a.x k k != 0) = true
          rw [hdiag k hk, h'.1, h'.2]
          unfold sol3
          split_ifs <;> rfl
      have : ((numBins 3 (fun k => a.x k k != 0) : ℕ) : ℤ) ≤ 2 := hmax
      rw [hn] at this
      norm_num at this
  obtain ⟨a, ha, hda⟩ := hacc true false rfl
  obtain ⟨a', ha', hda'⟩ := hacc false true rfl
  let solver : Solver := fun nev ev => if nev = [1, 1, 1] ∧ ev = [4, 2, 1] then .optimal a else .other "UNKNOWN"
  let solver' : Solver := fun nev ev => if nev = [1, 1, 1] ∧ ev = [4, 2, 1] then .feasible a' else .other "UNKNOWN"
  have h1 : prebinCounts false 3 [1, 2] (splitData .none {} missRecs).clean false = [1, 1, 1] := by decide +kernel
  have h2 : prebinCounts false 3 [1, 2] (splitData .none {} missRecs).clean true = [4, 2, 1] := by decide +kernel
  have h0 : computePrebins { keepPure := true } (splitData .none {} missRecs).clean {} [1, 2] = .ok ⟨{}, [1, 2], [1, 1, 1], [4, 2, 1]⟩ := by
    rw [computePrebins]
    simp [prebinNumber, h1, h2, pureMask]
  have hs : ∀ e, specialCounts .none (splitData .none {} missRecs).special e = [0] := by decide +kernel
  have hm1 : truncWeight ((splitData .none {} missRecs).missing.filter fun q => q.isEvent == false) = 5 := by decide +kernel
  have hm2 : truncWeight ((splitData .none {} missRecs).missing.filter fun q => q.isEvent == true) = 0 := by decide +kernel
  have hfo : fitOptimizer false solver [1, 2] [1, 1, 1] [4, 2, 1] = ⟨"OPTIMAL", [1], [true, false, true]⟩ := by
    have : (List.range 3).map (fun i => a.x i i != 0) = [true, false, true] := by
      simp [List.range_succ, hda 0 (by decide), hda 1 (by decide), hda 2 (by decide), sol3]
    simp only [fitOptimizer, solver, solve, List.length_cons, List.length_nil, this, and_self, if_true]
    rfl
  have hfo' : fitOptimizer false solver' [1, 2] [1, 1, 1] [4, 2, 1] = ⟨"FEASIBLE", [2], [false, true, true]⟩ := by
    have : (List.range 3).map (fun i => a'.x i i != 0) = [false, true, true] := by
      simp [List.range_succ, hda' 0 (by decide), hda' 1 (by decide), hda' 2 (by decide), sol3]
    simp only [fitOptimizer, solver', solve, List.length_cons, List.length_nil, this, and_self, if_true]
    rfl
  have hk : missParams.divergence.keepsPure = true := rfl
  have hf : fitParams missParams .none {} (fun _ => [1, 2]) solver missRecs = .ok ⟨"OPTIMAL", [1], [1, 2, 0, 5], [4, 3, 0, 0]⟩ := by
    unfold fitParams
    rw [missAccepted]
    simp only [hk, fitNumerical, fitFrom, fitCore, h0, bind, Except.bind, pure, Except.pure, hs, hm1, hm2, hfo]
    rfl
  have hf' : fitParams missParams .none {} (fun _ => [1, 2]) solver' missRecs = .ok ⟨"FEASIBLE", [2], [2, 1, 0, 5], [6, 1, 0, 0]⟩ := by
    unfold fitParams
    rw [missAccepted]
    simp only [hk, fitNumerical, fitFrom, fitCore, h0, bind, Except.bind, pure, Except.pure, hs, hm1, hm2, hfo']
    rfl
  refine ⟨solver, solver', _, _, _, _, ?_, ?_, hf, rfl, hf', rfl, by rw [buildTable, if_neg (by decide)], by rw [buildTable, if_neg (by decide)], ?_⟩
  · intro nev ev
    by_cases h : nev = [1, 1, 1] ∧ ev = [4, 2, 1]
    · obtain ⟨rfl, rfl⟩ := h
      show SolverAnswer.Valid _ _ (.optimal a)
      refine ⟨ha, fun y hy => ?_⟩
      obtain ⟨e1, -⟩ := hval a ha
      obtain ⟨e2, e3⟩ := hval y hy
      rw [e1, e2, hda 0 (by decide), hda 1 (by decide), missValue]
      have : sol3 true false 0 = true ∧ sol3 true false 1 = false := ⟨rfl, rfl⟩
      rw [this.1, this.2, missValue]
      generalize (y.x 0 0 != 0) = u at *
      generalize (y.x 1 1 != 0) = w at *
      cases u <;> cases w <;> first | (simp at e3; done) | norm_num
    · show SolverAnswer.Valid _ _ (if nev = [1, 1, 1] ∧ ev = [4, 2, 1] then .optimal a else .other "UNKNOWN")
      rw [if_neg h]
      exact ⟨by decide, by decide⟩
  · intro nev ev
    by_cases h : nev = [1, 1, 1] ∧ ev = [4, 2, 1]
    · obtain ⟨rfl, rfl⟩ := h
      exact ha'
    · show SolverAnswer.Valid _ _ (if nev = [1, 1, 1] ∧ ev = [4, 2, 1] then .feasible a' else .other "UNKNOWN")
      rw [if_neg h]
      exact ⟨by decide, by decide⟩
  · simp only [buildCore, Fitted.rows, List.zipWith, Spec.Row.mixed, List.filter, List.map, List.sum_cons, List.sum_nil, triangular]
    norm_num

end OptBinning
