import Verif.Lemmas.Continuous2
import Verif.Props.ContinuousSolver

/-!
# Properties C50–C53: fit, binning table and transform of a numerical variable with a continuous target
-/
set_option linter.unusedSectionVars false
set_option linter.unusedSimpArgs false
namespace OptBinning
open Spec Finset

variable {α : Type*} [LinearOrder α]

theorem RespectsC.last {c : SolverCfgC} {solver : SolverC} (h : RespectsC c solver) (cells : List CellC)
    (hn : 0 < cells.length) : (solve cells.length (solver cells)).2.getLast? = some true := by
  have hc : ∀ a, acceptsCont (c.opts cells) (c.input cells) a → Core cells.length a.x := by
    intro a ha
    have := ha.core
    simpa [ContInput.n, SolverCfgC.input] using this
  exact solve_last hn hc (h cells)

theorem fitNumericalC_cases {sc : SpecialCodes α} {det : Option (List (RecC α) → List Bool)}
    {prebin : List (RecC α) → List α} {solver : SolverC} {old old' : MissingStats} {recs : List (RecC α)} {f : FittedC α}
    (h : fitNumericalC sc det prebin solver old recs = .ok (old', f)) :
    ∃ special st', specialRows sc (splitDataC sc det recs).special = .ok special ∧
      fitCoreC false solver (splitDataC sc det recs).clean none special (missingRow old (splitDataC sc det recs).missing) {}
        (prebin (splitDataC sc det recs).clean) = .ok (st', f) := by
  unfold fitNumericalC at h
  cases hs : specialRows sc (splitDataC sc det recs).special with
  | error e => simp [hs, throw, throwThe, MonadExceptOf.throw] at h
  | ok special =>
    cases hf : fitCoreC false solver (splitDataC sc det recs).clean none special
        (missingRow old (splitDataC sc det recs).missing) {} (prebin (splitDataC sc det recs).clean) with
    | error e => simp [hs, hf, bind, Except.bind] at h
    | ok r =>
      simp only [hs, hf, bind, Except.bind, pure, Except.pure, Except.ok.injEq, Prod.mk.injEq] at h
      exact ⟨special, r.1, rfl, by rw [hf, ← h.2]⟩

/-! ## C50 -/

theorem targetsOf_eq (recs : List (RecC α)) (f : FittedC α) (sc : SpecialCodes α) (k : ℕ) :
    targetsOf recs (fun r => transformIndicesC f sc .empirical .empirical [r.x] = [(k : ℤ)]) =
      ysOf (recs.filter fun r => decide (idxC f.splits sc r.x = (k : ℤ))) := by
  unfold targetsOf ysOf
  congr 1
  refine List.filter_congr fun r _ => ?_
  rw [decide_eq_decide]
  simp [transformIndicesC, idxC, MetricOpt.forIndices]

/-- C50: the table has one row per interval, special group and one for missing values, and the row with number `k` is the
summary (count, sum, population variance, minimum, maximum, number of zeros) of exactly the training targets whose records
`transform(metric="indices")` sends to `k`. -/
theorem C50_rows {sc : SpecialCodes α} {prebin : List (RecC α) → List α} {solver : SolverC} {c : SolverCfgC}
    {old old' : MissingStats} {recs : List (RecC α)} {f : FittedC α} (hp : ProperCodes sc) (hk : KnownTargetsC recs)
    (hu : UnitWeights recs) (hsort : ∀ l, (prebin l).Pairwise (· ≤ ·)) (hr : RespectsC c solver)
    (h : fitNumericalC sc none prebin solver old recs = .ok (old', f)) :
    f.rows.length = f.splits.length + 1 + sc.count + 1 ∧
    ∀ k < f.rows.length, ∃ row, f.rows[k]? = some row ∧
      Summarises (targetsOf recs fun r => transformIndicesC f sc .empirical .empirical [r.x] = [(k : ℤ)])
        row.cnt row.sum row.var row.mn row.mx row.zeros := by
  obtain ⟨special, st', hs, hf⟩ := fitNumericalC_cases h
  have hpl : PlainC recs := ⟨hk, hu⟩
  have hcl : PlainC (splitDataC sc none recs).clean := hpl.subset fun r hr => (splitC_clean_x hr).1
  have hsp : PlainC (splitDataC sc none recs).special := hpl.subset List.filter_sublist.subset
  have hmi : PlainC (splitDataC sc none recs).missing := hpl.subset List.filter_sublist.subset
  obtain ⟨-, reg, hrows, hlen, hreg⟩ := fitCoreC_rows (fun cells hn => hr.last cells hn)
    (fun r hr => (splitC_clean_x hr).2.1) hcl.whole (hsort _) hf
  obtain ⟨hsl, hspec⟩ := specialRows_spec hsp hs
  have htot : f.rows.length = f.splits.length + 1 + sc.count + 1 := by
    rw [hrows]; simp [hlen, hsl]; omega
  refine ⟨htot, fun k hkl => ?_⟩
  rw [targetsOf_eq]
  simp only [Option.toList_none, List.nil_append] at hrows
  by_cases h1 : k ≤ f.splits.length
  · obtain ⟨l, hperm, hl⟩ := hreg k h1
    have hlp : PlainC l := hcl.subset fun r hr => (List.filter_sublist.subset (hperm.subset hr))
    have hget : f.rows[k]? = reg[k]? := by rw [hrows, List.getElem?_append_left (by omega)]
    have hy : (ysOf l).Perm (ysOf (recs.filter fun r => decide (idxC f.splits sc r.x = (k : ℤ)))) := by
      rw [idx_regular hp hk h1]
      exact hperm.filterMap _
    rcases hl with hl | hl
    · exact ⟨_, hget.trans hl, (cellOf_summarises hlp).perm hy⟩
    · exact ⟨_, hget.trans hl, (summaryC_summarises hlp).perm hy⟩
  · by_cases h2 : k < f.splits.length + 1 + sc.count
    · obtain ⟨j, rfl⟩ : ∃ j, k = f.splits.length + 1 + j := ⟨k - (f.splits.length + 1), by omega⟩
      have hj : j < sc.count := by omega
      obtain ⟨row, hrow, hsum⟩ := hspec j hj
      refine ⟨row, ?_, ?_⟩
      · rw [hrows, List.getElem?_append_right (by omega), hlen, Nat.add_sub_cancel_left,
          List.getElem?_append_left (by omega), hrow]
      · rw [idx_special hp hj]; exact hsum
    · have h3 : k = f.splits.length + 1 + sc.count := by omega
      subst h3
      refine ⟨missingRow old (splitDataC sc none recs).missing, ?_, ?_⟩
      · rw [hrows, List.getElem?_append_right (by omega), hlen, Nat.add_sub_cancel_left,
          List.getElem?_append_right (by omega), hsl]
        simp
      · rw [idx_missing hp hk]; exact missingRow_spec hmi

/-! ### a running example -/

/-- A solver that keeps all pre-bins apart. -/
noncomputable def exSolverC : SolverC := fun cells => by
  classical
  exact if h : (∃ a, acceptsCont {} (SolverCfgC.input {} cells) a ∧ ∀ k, (a.x k k != 0) = true)
    then .feasible (Classical.choose h) else .other "UNKNOWN"

theorem exSolverC_respects : RespectsC {} exSolverC := by
  intro cells
  unfold exSolverC
  split_ifs with h
  · exact (Classical.choose_spec h).1
  · exact ⟨by decide, by decide⟩

theorem exSolverC_solve (cells : List CellC) (h : 0 < cells.length) (h0 : ∀ c ∈ cells, 0 < c.cnt) :
    solve cells.length (exSolverC cells) = ("FEASIBLE", List.replicate cells.length true) := by
  have hw : (SolverCfgC.input {} cells).Wf := by
    refine ⟨by simp [SolverCfgC.input], by simp [SolverCfgC.input], by simpa [SolverCfgC.input] using h, ?_⟩
    intro c hc
    simp only [SolverCfgC.input, List.mem_map] at hc
    obtain ⟨d, hd, rfl⟩ := hc
    exact h0 d hd
  have hex : ∃ a, acceptsCont {} (SolverCfgC.input {} cells) a ∧ ∀ k, (a.x k k != 0) = true := by
    refine (C48_exact_partial hw (by intro tc h; simp at h) (Or.inl (by simp)) (fun _ => true)).2 ⟨⟨?_, ?_, ?_, ?_, ?_, ?_, ?_⟩, ?_, ?_⟩
    · exact ⟨by simpa [ContInput.n, SolverCfgC.input] using h, rfl⟩
    · simp [AtLeast]
    · simp [AtMost]
    · simp [AtLeast]
    · simp [AtMost]
    · trivial
    · simp
    · rintro s e s' e' - - - - ⟨t, ht, -⟩
      simp [SolverCfgC.input] at ht
    · rintro s e s' e' - - - - ⟨ht, -⟩
      simp [SolverCfgC.input] at ht
  unfold exSolverC
  rw [dif_pos hex]
  simp only [solve]
  congr 1
  rw [List.eq_replicate_iff]
  refine ⟨by simp, fun b hb => ?_⟩
  obtain ⟨i, -, rfl⟩ := List.mem_map.1 hb
  exact (Classical.choose_spec hex).2 i

/-- Nine records: six regular ones, two with special codes, one missing. -/
def exRecsC : List (RecC ℕ) :=
  [⟨some 1, some 2, 1⟩, ⟨some 99, some 7, 1⟩, ⟨some 2, some 4, 1⟩, ⟨some 4, some 0, 1⟩, ⟨none, some 5, 1⟩,
   ⟨some 5, some (-3), 1⟩, ⟨some 6, some 0, 1⟩, ⟨some 98, some 1, 1⟩, ⟨some 8, some 10, 1⟩]

theorem exRecsC_plain : KnownTargetsC exRecsC ∧ UnitWeights exRecsC := by
  constructor
  · unfold KnownTargetsC exRecsC; simp
  · unfold UnitWeights exRecsC; simp

def exCodesC : SpecialCodes ℕ := .dict [("a", [some 99]), ("b", [some 98, some 97])]

theorem exCodesC_proper : ProperCodes exCodesC := by
  refine ⟨by simp [exCodesC, IsSpecialValue], ?_⟩
  simp [exCodesC]

theorem exFitC : fitNumericalC exCodesC none (fun _ => [3, 7]) exSolverC {} exRecsC = .ok (⟨some 0, some 5, some 5⟩,
    ⟨"FEASIBLE", [3, 7],
     [⟨2, some 6, some 1, some 2, some 4, 0⟩, ⟨3, some (-3), some 2, some (-3), some 0, 2⟩,
      ⟨1, some 10, some 0, some 10, some 10, 0⟩, ⟨1, some 7, some 0, some 7, some 7, 0⟩,
      ⟨1, some 1, some 0, some 1, some 1, 0⟩, ⟨1, some 5, some 0, some 5, some 5, 0⟩]⟩) := by
  have hs : specialRows exCodesC (splitDataC exCodesC none exRecsC).special =
      .ok [⟨1, some 7, some 0, some 7, some 7, 0⟩, ⟨1, some 1, some 0, some 1, some 1, 0⟩] := by decide +kernel
  have hm : missingRow {} (splitDataC exCodesC none exRecsC).missing = ⟨1, some 5, some 0, some 5, some 5, 0⟩ := by
    decide +kernel
  have hcells : prebinCells false 3 [3, 7] (splitDataC exCodesC none exRecsC).clean =
      [⟨2, 6, 20, 0, some 2, some 4⟩, ⟨3, -3, 9, 2, some (-3), some 0⟩, ⟨1, 10, 100, 0, some 10, some 10⟩] := by
    decide +kernel
  have hpb : computePrebinsC false (splitDataC exCodesC none exRecsC).clean {} [3, 7] =
      .ok ⟨{}, [3, 7], [⟨2, 6, 20, 0, some 2, some 4⟩, ⟨3, -3, 9, 2, some (-3), some 0⟩,
        ⟨1, 10, 100, 0, some 10, some 10⟩]⟩ := by
    rw [computePrebinsC]
    simp only [List.length_cons, List.length_nil, prebinNumber, Bool.false_eq_true, if_false, hcells]
    rw [dif_neg (by decide), dif_neg (by decide)]
  have hsolve := exSolverC_solve [⟨2, 6, 20, 0, some 2, some 4⟩, ⟨3, -3, 9, 2, some (-3), some 0⟩,
        ⟨1, 10, 100, 0, some 10, some 10⟩] (by decide) (by decide)
  have hne : (splitDataC exCodesC none exRecsC).clean ≠ [] := by decide +kernel
  simp only [fitNumericalC, hs, hm, fitCoreC, hpb, bind, Except.bind, pure, Except.pure, List.length_cons, List.length_nil,
    fitOptimizerC, hne, if_false]
  rw [if_neg (by decide), if_neg (by decide)]
  simp only [List.length_cons, List.length_nil] at hsolve
  rw [hsolve]
  simp only [Except.ok.injEq, Prod.mk.injEq, true_and, FittedC.mk.injEq, Option.toList_none, List.append_nil]
  constructor
  · decide
  · decide +kernel

example : ∃ row : RowC, Summarises [0, -3, 0] row.cnt row.sum row.var row.mn row.mx row.zeros := by
  obtain ⟨-, h⟩ := C50_rows exCodesC_proper exRecsC_plain.1 exRecsC_plain.2 (prebin := fun _ => [3, 7])
    (fun _ => by simp) exSolverC_respects exFitC
  obtain ⟨row, -, hs⟩ := h 1 (by decide)
  refine ⟨row, ?_⟩
  have : targetsOf exRecsC (fun r => transformIndicesC (⟨"FEASIBLE", [3, 7],
     [⟨2, some 6, some 1, some 2, some 4, 0⟩, ⟨3, some (-3), some 2, some (-3), some 0, 2⟩,
      ⟨1, some 10, some 0, some 10, some 10, 0⟩, ⟨1, some 7, some 0, some 7, some 7, 0⟩,
      ⟨1, some 1, some 0, some 1, some 1, 0⟩, ⟨1, some 5, some 0, some 5, some 5, 0⟩]⟩ : FittedC ℕ) exCodesC .empirical .empirical
        [r.x] = [((1 : ℕ) : ℤ)]) = [0, -3, 0] := by decide +kernel
  rw [this] at hs
  exact hs

end OptBinning
