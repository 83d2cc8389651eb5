import Verif.Model.Analysis
import Verif.Props.Continuous
import Mathlib.Analysis.SpecialFunctions.Pow.Real

/-!
# C101: significance tests of a continuous binning table
-/
namespace OptBinning
open Finset Spec

/-- Squared standard error of the difference of the means of two samples, with population variances. -/
def Spec.squaredError (A B : List ℚ) : ℚ := variance A / (A.length : ℚ) + variance B / (B.length : ℚ)

/-- Sample variance (divisor `n - 1`). -/
def Spec.sampleVariance (ys : List ℚ) : ℚ := (ys.map fun y => (y - mean ys) ^ 2).sum / ((ys.length : ℚ) - 1)

/-- Welch's t statistic of two samples. -/
noncomputable def Spec.welch (A B : List ℚ) : ℝ :=
  ((mean A - mean B : ℚ) : ℝ) / Real.sqrt ((sampleVariance A / (A.length : ℚ) + sampleVariance B / (B.length : ℚ) : ℚ) : ℝ)

theorem variance_nonneg (ys : List ℚ) : 0 ≤ variance ys := by
  unfold variance
  refine div_nonneg (List.sum_nonneg ?_) (Nat.cast_nonneg _)
  intro x hx
  obtain ⟨y, -, rfl⟩ := List.mem_map.1 hx
  positivity

section
variable {α : Type*} [LinearOrder α]

theorem rowC_meanA {ys : List ℚ} {row : RowC} (h : Summarises ys row.cnt row.sum row.var row.mn row.mx row.zeros) (hne : ys ≠ []) :
    row.mean = some (mean ys) := by
  have hl : 0 < ys.length := List.length_pos_iff.mpr hne
  unfold RowC.mean
  rw [h.count, if_pos hl, h.sum]
  rfl

theorem welchT_summaries {A B : List ℚ} {a b : RowC} (hA : Summarises A a.cnt a.sum a.var a.mn a.mx a.zeros)
    (hB : Summarises B b.cnt b.sum b.var b.mn b.mx b.zeros) :
    ((A = [] ∨ B = []) → welchT a.mean a.var a.cnt b.mean b.var b.cnt = .nan) ∧
    (A ≠ [] → B ≠ [] → welchT a.mean a.var a.cnt b.mean b.var b.cnt =
      if squaredError A B = 0 then (if mean A = mean B then .nan else if mean A < mean B then .neg else .pos)
      else .real (((mean A - mean B : ℚ) : ℝ) / Real.sqrt ((squaredError A B : ℚ) : ℝ))) := by
  constructor
  · intro h
    have hz : a.cnt = 0 ∨ b.cnt = 0 := by
      rcases h with h | h
      · left; rw [hA.count, h]; rfl
      · right; rw [hB.count, h]; rfl
    unfold welchT
    split
    · rw [if_pos hz]
    · rfl
  · intro h1 h2
    have l1 : A.length ≠ 0 := fun h => h1 (List.length_eq_zero_iff.1 h)
    have l2 : B.length ≠ 0 := fun h => h2 (List.length_eq_zero_iff.1 h)
    rw [rowC_meanA hA h1, rowC_meanA hB h2, hA.spread h1, hB.spread h2, hA.count, hB.count]
    unfold welchT squaredError
    simp only
    rw [if_neg (by tauto)]

/-- C101: `analysis` after a fit compares each regular bin with the next one and no others; the statistic is the difference
of the mean targets of the records of the two bins divided by the root of the sum of their population variances over their
numbers; if all targets are constant within both bins it is infinite (NaN if the means agree). -/
theorem C101_pairs {sc : SpecialCodes α} {prebin : List (RecC α) → List α} {solver : SolverC} {c : SolverCfgC}
    {old old' : MissingStats} {recs : List (RecC α)} {f : FittedC α} (hp : ProperCodes sc) (hk : KnownTargetsC recs)
    (hu : UnitWeights recs) (hsort : ∀ l, (prebin l).Pairwise (· ≤ ·)) (hr : RespectsC c solver)
    (h : fitNumericalC sc none prebin solver old recs = .ok (old', f)) :
    (analysisC f.rows sc.count false).length = f.splits.length ∧
    ∀ i < f.splits.length, ∀ A B, A = targetsOf recs (fun r => transformIndicesC f sc .empirical .empirical [r.x] = [(i : ℤ)]) →
      B = targetsOf recs (fun r => transformIndicesC f sc .empirical .empirical [r.x] = [((i + 1 : ℕ) : ℤ)]) →
      ∃ t, (analysisC f.rows sc.count false)[i]? = some (i, i + 1, t) ∧
        ((A = [] ∨ B = []) → t = .nan) ∧
        (A ≠ [] → B ≠ [] → squaredError A B ≠ 0 →
          t = .real (((mean A - mean B : ℚ) : ℝ) / Real.sqrt ((squaredError A B : ℚ) : ℝ))) ∧
        (A ≠ [] → B ≠ [] → squaredError A B = 0 →
          t = if mean A = mean B then .nan else if mean A < mean B then .neg else .pos) := by
  obtain ⟨hlen, hrows⟩ := C50_rows hp hk hu hsort hr h
  have hm : nMetric f.rows.length sc.count false = f.splits.length + 1 := by
    unfold nMetric; rw [hlen]; simp only [Bool.false_eq_true, if_false]; omega
  unfold analysisC
  simp only [hm, Nat.add_sub_cancel]
  refine ⟨by simp, fun i hi A B hA hB => ?_⟩
  obtain ⟨a, ha1, ha2⟩ := hrows i (by omega)
  obtain ⟨b, hb1, hb2⟩ := hrows (i + 1) (by omega)
  rw [← hA] at ha2
  rw [← hB] at hb2
  have ga : (f.rows.take (f.splits.length + 1))[i]? = some a := by rw [List.getElem?_take_of_lt (by omega), ha1]
  have gb : (f.rows.take (f.splits.length + 1))[i + 1]? = some b := by rw [List.getElem?_take_of_lt (by omega), hb1]
  obtain ⟨w1, w2⟩ := welchT_summaries ha2 hb2
  refine ⟨welchT a.mean a.var a.cnt b.mean b.var b.cnt, ?_, w1, fun h1 h2 h3 => ?_, fun h1 h2 h3 => ?_⟩
  · rw [List.getElem?_map, List.getElem?_range hi]
    simp only [Option.map_some, ga, gb]
  · rw [w2 h1 h2, if_neg h3]
  · rw [w2 h1 h2, if_pos h3]

end

/-- C101: the sign of the statistic tells which bin has the larger mean; it is zero exactly if the means agree. -/
theorem C101_sign (A B : List ℚ) (h : squaredError A B ≠ 0) :
    (0 < ((mean A - mean B : ℚ) : ℝ) / Real.sqrt ((squaredError A B : ℚ) : ℝ) ↔ mean B < mean A) ∧
    (((mean A - mean B : ℚ) : ℝ) / Real.sqrt ((squaredError A B : ℚ) : ℝ) = 0 ↔ mean A = mean B) := by
  have hn : 0 ≤ squaredError A B := by
    unfold squaredError
    have := variance_nonneg A
    have := variance_nonneg B
    positivity
  have hp : 0 < squaredError A B := lt_of_le_of_ne hn (Ne.symm h)
  have hr : 0 < Real.sqrt ((squaredError A B : ℚ) : ℝ) := Real.sqrt_pos.2 (by exact_mod_cast hp)
  constructor
  · rw [div_pos_iff_of_pos_right hr]
    rw [Rat.cast_pos, sub_pos]
  · rw [div_eq_zero_iff]
    simp only [hr.ne', or_false, Rat.cast_eq_zero, sub_eq_zero]

theorem sampleVariance_eq {A : List ℚ} (h : 2 ≤ A.length) : sampleVariance A = variance A * (A.length : ℚ) / ((A.length : ℚ) - 1) := by
  have h1 : (A.length : ℚ) ≠ 0 := by
    have : A.length ≠ 0 := by omega
    exact_mod_cast this
  unfold sampleVariance variance
  field_simp

theorem sampleVariance_ge {A : List ℚ} (h : 2 ≤ A.length) : variance A ≤ sampleVariance A ∧ (0 < variance A → variance A < sampleVariance A) := by
  have h1 : (2 : ℚ) ≤ (A.length : ℚ) := by exact_mod_cast h
  have hv := variance_nonneg A
  rw [sampleVariance_eq h]
  constructor
  · rw [le_div_iff₀ (by linarith)]; nlinarith
  · intro hp; rw [lt_div_iff₀ (by linarith)]; nlinarith

/-- Finding: scipy's `ttest_ind_from_stats` expects standard deviations with divisor `n - 1`, the table holds those with divisor
`n`; the reported statistic is therefore larger in absolute value than Welch's t statistic of the two bins, whenever the means
differ and the targets vary. -/
theorem C101_overstated (A B : List ℚ) (hA : 2 ≤ A.length) (hB : 2 ≤ B.length) (h : squaredError A B ≠ 0) :
    |welch A B| ≤ |((mean A - mean B : ℚ) : ℝ) / Real.sqrt ((squaredError A B : ℚ) : ℝ)| ∧
    (mean A ≠ mean B → |welch A B| < |((mean A - mean B : ℚ) : ℝ) / Real.sqrt ((squaredError A B : ℚ) : ℝ)|) := by
  have va := variance_nonneg A
  have vb := variance_nonneg B
  have lA : (0 : ℚ) < (A.length : ℚ) := by exact_mod_cast (by omega : 0 < A.length)
  have lB : (0 : ℚ) < (B.length : ℚ) := by exact_mod_cast (by omega : 0 < B.length)
  have hn : 0 ≤ squaredError A B := by unfold squaredError; positivity
  have hp : 0 < squaredError A B := lt_of_le_of_ne hn (Ne.symm h)
  obtain ⟨a1, a2⟩ := sampleVariance_ge hA
  obtain ⟨b1, b2⟩ := sampleVariance_ge hB
  have hlt : squaredError A B < sampleVariance A / (A.length : ℚ) + sampleVariance B / (B.length : ℚ) := by
    unfold squaredError at hp ⊢
    by_cases h0 : 0 < variance A
    · exact add_lt_add_of_lt_of_le (div_lt_div_of_pos_right (a2 h0) lA) (div_le_div_of_nonneg_right b1 lB.le)
    · have h0' : variance A = 0 := le_antisymm (not_lt.1 h0) va
      have : 0 < variance B := by
        rcases vb.lt_or_eq with h | h
        · exact h
        · rw [h0', ← h] at hp; simp at hp
      exact add_lt_add_of_le_of_lt (div_le_div_of_nonneg_right a1 lA.le) (div_lt_div_of_pos_right (b2 this) lB)
  have hr : 0 < Real.sqrt ((squaredError A B : ℚ) : ℝ) := Real.sqrt_pos.2 (by exact_mod_cast hp)
  have hs : Real.sqrt ((squaredError A B : ℚ) : ℝ) <
      Real.sqrt ((sampleVariance A / (A.length : ℚ) + sampleVariance B / (B.length : ℚ) : ℚ) : ℝ) :=
    Real.sqrt_lt_sqrt (by exact_mod_cast hn) (by exact_mod_cast hlt)
  unfold welch
  rw [abs_div, abs_div, abs_of_pos hr, abs_of_pos (hr.trans hs)]
  constructor
  · exact div_le_div_of_nonneg_left (abs_nonneg _) hr hs.le
  · intro hne
    refine div_lt_div_of_pos_left (abs_pos.2 ?_) hr hs
    rw [Rat.cast_ne_zero]
    exact sub_ne_zero.2 hne

/-! ### a concrete case: bins with targets 2, 4 and 0, 0, -3 -/

example : squaredError [2, 4] [0, 0, -3] = 7 / 6 := by decide +kernel

example : mean [2, 4] = 3 ∧ mean [0, 0, -3] = -1 ∧ variance [0, 0, -3] = 2 := by decide +kernel

end OptBinning
