import Verif.Props.Analysis

/-!
# C99: Cramer's V of a binary binning table
-/
namespace OptBinning
open Finset Spec

/-- Share of the records of bin `i` times the squared difference between the rate of the bin and the overall rate, summed. -/
def Spec.rateVariance (ne e : List ℕ) : ℚ :=
  ∑ i ∈ range ne.length, (((e.getD i 0 : ℕ) : ℚ) + ((ne.getD i 0 : ℕ) : ℚ)) / (((e.sum : ℕ) : ℚ) + ((ne.sum : ℕ) : ℚ)) *
    (rateOf (e.getD i 0) (ne.getD i 0) - rateOf e.sum ne.sum) ^ 2

theorem cramer_term (a b A B : ℚ) (h1 : b + a ≠ 0) (h2 : A ≠ 0) (h3 : B ≠ 0) (h4 : B + A ≠ 0) :
    (a - A * (a + b) / (A + B)) ^ 2 / (A * (a + b) / (A + B)) + (b - B * (a + b) / (A + B)) ^ 2 / (B * (a + b) / (A + B)) =
      (B + A) / (B / (B + A) * (1 - B / (B + A))) * ((b + a) / (B + A) * (b / (b + a) - B / (B + A)) ^ 2) := by
  have h1' : a + b ≠ 0 := by rw [add_comm]; exact h1
  have h4' : A + B ≠ 0 := by rw [add_comm]; exact h4
  have e1 : 1 - B / (B + A) = A / (B + A) := by field_simp; ring
  rw [e1]
  field_simp
  ring

/-- C99: Cramer's V is zero for a single regular bin; otherwise its square is the variance of the event rate between the bins
divided by `p (1 - p)`; it lies in [0, 1], is 0 exactly if all bins have the same event rate and 1 exactly if each bin holds
records of one class only. -/
theorem C99_cramer (s : ScipyTests) (test : String) (nSamples : ℤ) (shuffle : List ℕ → List ℕ) (nonevent event : List ℕ)
    (nSpecials : ℕ) (others : Bool) (iv hhiN : ℝ) (ne e : List ℕ) (ht : TableB nonevent event nSpecials others ne e) (r : AnalysisB)
    (h : analysisB s test nSamples shuffle nonevent event nSpecials others iv hhiN = .ok r) :
    (ne.length < 2 → r.cramer = .real 0) ∧
    (2 ≤ ne.length → ne.sum + e.sum = 0 → r.cramer = .nan) ∧
    (2 ≤ ne.length → ne.sum + e.sum ≠ 0 → ∃ v : ℝ, r.cramer = .real v ∧ 0 ≤ v ∧ v ≤ 1 ∧
      v ^ 2 * ((rateOf e.sum ne.sum * (1 - rateOf e.sum ne.sum) : ℚ) : ℝ) = ((rateVariance ne e : ℚ) : ℝ) ∧
      (v = 0 ↔ ∀ i < ne.length, rateOf (e.getD i 0) (ne.getD i 0) = rateOf e.sum ne.sum) ∧
      (v = 1 ↔ ∀ i < ne.length, e.getD i 0 = 0 ∨ ne.getD i 0 = 0)) := by
  obtain ⟨-, hv, -, -⟩ := analysisB_ok ht h
  have hse := ht.same
  refine ⟨fun hl => ?_, fun hl h0 => ?_, fun hl h0 => ?_⟩
  · rw [if_neg (by omega)] at hv; injection hv with hv; exact hv.symm
  · rw [if_pos hl, chi2CramerV_eq, chi2Table_nan (by rw [classByBin_all hse]; exact h0)] at hv
    injection hv with hv; exact hv.symm
  · rw [if_pos hl, chi2CramerV_eq] at hv
    cases hx : chi2Table 2 ne.length (classByBin ne e) with
    | error m => rw [hx] at hv; cases hv
    | ok x =>
      rw [hx] at hv
      injection hv with hv
      rcases chi2Table_cases hx with ⟨h1, -⟩ | ⟨hn, hr, hc, hxe⟩
      · rw [classByBin_all hse] at h1; exact absurd h1 h0
      have hX0 : 0 ≤ ∑ i ∈ range 2, ∑ j ∈ range ne.length,
        ((classByBin ne e i j : ℚ) - (tableRow ne.length (classByBin ne e) i : ℚ) * (tableCol 2 (classByBin ne e) j : ℚ) /
          (tableAll 2 ne.length (classByBin ne e) : ℚ)) ^ 2 / ((tableRow ne.length (classByBin ne e) i : ℚ) *
          (tableCol 2 (classByBin ne e) j : ℚ) / (tableAll 2 ne.length (classByBin ne e) : ℚ)) :=
        sum_nonneg fun i _ => sum_nonneg fun j _ => chi2_term_nonneg _ _ _ _
      have hz := chi2_zero_iff hn hr hc
      have hex := chi2_expand hn hr hc
      have hle := sumsq_le_rows (k := ne.length) (o := classByBin ne e) hr
      have heq := sumsq_eq_rows hr hc
      have hE0 : ne.sum ≠ 0 := by rw [← classByBin_row0 ne e]; exact hr 0 (by omega)
      have hE1 : e.sum ≠ 0 := by rw [← classByBin_row1 hse]; exact hr 1 (by omega)
      have hcol : ∀ j < ne.length, ne.getD j 0 + e.getD j 0 ≠ 0 := fun j hj => by rw [← classByBin_col]; exact hc j hj
      have hvar : ∑ i ∈ range 2, ∑ j ∈ range ne.length,
        ((classByBin ne e i j : ℚ) - (tableRow ne.length (classByBin ne e) i : ℚ) * (tableCol 2 (classByBin ne e) j : ℚ) /
          (tableAll 2 ne.length (classByBin ne e) : ℚ)) ^ 2 / ((tableRow ne.length (classByBin ne e) i : ℚ) *
          (tableCol 2 (classByBin ne e) j : ℚ) / (tableAll 2 ne.length (classByBin ne e) : ℚ)) =
        (((e.sum : ℕ) : ℚ) + ((ne.sum : ℕ) : ℚ)) / (rateOf e.sum ne.sum * (1 - rateOf e.sum ne.sum)) * rateVariance ne e := by
        unfold rateVariance
        rw [sum_comm, mul_sum]
        refine sum_congr rfl fun j hj => ?_
        rw [sum_range_succ, sum_range_one, classByBin_row0, classByBin_row1 hse, classByBin_col, classByBin_all hse]
        have c0 : classByBin ne e 0 j = ne.getD j 0 := rfl
        have c1 : classByBin ne e 1 j = e.getD j 0 := rfl
        rw [c0, c1]
        have q2 : ((ne.sum : ℕ) : ℚ) ≠ 0 := by exact_mod_cast hE0
        have q3 : ((e.sum : ℕ) : ℚ) ≠ 0 := by exact_mod_cast hE1
        have q4 : ((e.sum : ℕ) : ℚ) + ((ne.sum : ℕ) : ℚ) ≠ 0 := by
          have : e.sum + ne.sum ≠ 0 := by omega
          exact_mod_cast this
        have q1 : ((e.getD j 0 : ℕ) : ℚ) + ((ne.getD j 0 : ℕ) : ℚ) ≠ 0 := by
          have : e.getD j 0 + ne.getD j 0 ≠ 0 := by have := hcol j (mem_range.1 hj); omega
          exact_mod_cast this
        have := cramer_term ((ne.getD j 0 : ℕ) : ℚ) ((e.getD j 0 : ℕ) : ℚ) ((ne.sum : ℕ) : ℚ) ((e.sum : ℕ) : ℚ) q1 q2 q3 q4
        simp only [Nat.cast_add]
        unfold rateOf
        exact this
      generalize hXd : ∑ i ∈ range 2, ∑ j ∈ range ne.length,
        ((classByBin ne e i j : ℚ) - (tableRow ne.length (classByBin ne e) i : ℚ) * (tableCol 2 (classByBin ne e) j : ℚ) /
          (tableAll 2 ne.length (classByBin ne e) : ℚ)) ^ 2 / ((tableRow ne.length (classByBin ne e) i : ℚ) *
          (tableCol 2 (classByBin ne e) j : ℚ) / (tableAll 2 ne.length (classByBin ne e) : ℚ)) = X at *
      subst hxe
      rw [classByBin_all hse] at hex
      have hN : (0 : ℚ) < ((ne.sum + e.sum : ℕ) : ℚ) := by
        have : 0 < ne.sum + e.sum := by omega
        exact_mod_cast this
      have hle' : X ≤ ((ne.sum + e.sum : ℕ) : ℚ) := by
        rw [hex]
        have := mul_le_mul_of_nonneg_left (sub_le_sub_right hle 1) hN.le
        norm_num at this ⊢
        linarith
      have hcr : r.cramer = .real (Real.sqrt ((X / ((ne.sum + e.sum : ℕ) : ℚ) : ℚ) : ℝ)) := by
        rw [← hv]; unfold cramerRoot; simp
      have hq0 : (0 : ℝ) ≤ ((X / ((ne.sum + e.sum : ℕ) : ℚ) : ℚ) : ℝ) := by
        exact_mod_cast div_nonneg hX0 hN.le
      refine ⟨_, hcr, Real.sqrt_nonneg _, ?_, ?_, ?_, ?_⟩
      · refine Real.sqrt_le_iff.2 ⟨zero_le_one, ?_⟩
        rw [one_pow]
        have : X / ((ne.sum + e.sum : ℕ) : ℚ) ≤ 1 := (div_le_one hN).2 hle'
        exact_mod_cast this
      · rw [Real.sq_sqrt hq0]
        have hp : rateOf e.sum ne.sum * (1 - rateOf e.sum ne.sum) ≠ 0 := by
          have := rate_lt_one (c := e.sum) (a := ne.sum) (by omega)
          have a := this.1.2 (by omega)
          have b := this.2.2 (by omega)
          have : 0 < 1 - rateOf e.sum ne.sum := by linarith
          positivity
        have : X / ((ne.sum + e.sum : ℕ) : ℚ) * (rateOf e.sum ne.sum * (1 - rateOf e.sum ne.sum)) = rateVariance ne e := by
          rw [hvar]
          have hN' : (((e.sum : ℕ) : ℚ) + ((ne.sum : ℕ) : ℚ)) ≠ 0 := by rw [Nat.cast_add] at hN; linarith
          have e0 : ((ne.sum + e.sum : ℕ) : ℚ) = ((e.sum : ℕ) : ℚ) + ((ne.sum : ℕ) : ℚ) := by rw [Nat.cast_add]; ring
          rw [e0]
          have gen : ∀ c p v : ℚ, c ≠ 0 → p ≠ 0 → c / p * v / c * p = v := by
            intro c p v h1 h2; field_simp
          exact gen _ _ _ hN' hp
        exact_mod_cast this
      · rw [Real.sqrt_eq_zero hq0]
        have e0 : ((X / ((ne.sum + e.sum : ℕ) : ℚ) : ℚ) : ℝ) = 0 ↔ X = 0 := by
          rw [Rat.cast_eq_zero, div_eq_zero_iff]
          exact ⟨fun h => h.resolve_right hN.ne', Or.inl⟩
        rw [e0, hz]
        have hiff : ∀ j < ne.length, (e.getD j 0 * (ne.sum + e.sum) = e.sum * (ne.getD j 0 + e.getD j 0) ↔
            rateOf (e.getD j 0) (ne.getD j 0) = rateOf e.sum ne.sum) := by
          intro j hj
          have q1 : ((e.getD j 0 : ℕ) : ℚ) + ((ne.getD j 0 : ℕ) : ℚ) ≠ 0 := by
            have : e.getD j 0 + ne.getD j 0 ≠ 0 := by have := hcol j hj; omega
            exact_mod_cast this
          have q4 : ((e.sum : ℕ) : ℚ) + ((ne.sum : ℕ) : ℚ) ≠ 0 := by rw [Nat.cast_add] at hN; linarith
          unfold rateOf
          rw [div_eq_div_iff q1 q4]
          constructor
          · intro h
            have : ((e.getD j 0 : ℕ) : ℚ) * (((ne.sum : ℕ) : ℚ) + ((e.sum : ℕ) : ℚ)) =
              ((e.sum : ℕ) : ℚ) * (((ne.getD j 0 : ℕ) : ℚ) + ((e.getD j 0 : ℕ) : ℚ)) := by exact_mod_cast h
            linarith
          · intro h
            have : ((e.getD j 0 : ℕ) : ℚ) * (((ne.sum : ℕ) : ℚ) + ((e.sum : ℕ) : ℚ)) =
              ((e.sum : ℕ) : ℚ) * (((ne.getD j 0 : ℕ) : ℚ) + ((e.getD j 0 : ℕ) : ℚ)) := by linarith
            exact_mod_cast this
        unfold Independent
        rw [classByBin_all hse]
        constructor
        · intro h j hj
          have := h 1 (by omega) j hj
          rw [classByBin_row1 hse, classByBin_col] at this
          exact (hiff j hj).1 this
        · intro h i hi j hj
          have h1 := (hiff j hj).2 (h j hj)
          have : i = 0 ∨ i = 1 := by omega
          rcases this with rfl | rfl
          · rw [classByBin_row0, classByBin_col]
            have c0 : classByBin ne e 0 j = ne.getD j 0 := rfl
            rw [c0]
            nlinarith
          · rw [classByBin_row1 hse, classByBin_col]
            exact h1
      · rw [Real.sqrt_eq_one]
        have e0 : ((X / ((ne.sum + e.sum : ℕ) : ℚ) : ℚ) : ℝ) = 1 ↔
            ∑ i ∈ range 2, ∑ j ∈ range ne.length, (classByBin ne e i j : ℚ) ^ 2 /
              ((tableRow ne.length (classByBin ne e) i : ℚ) * (tableCol 2 (classByBin ne e) j : ℚ)) = ((2 : ℕ) : ℚ) := by
          have : ((X / ((ne.sum + e.sum : ℕ) : ℚ) : ℚ) : ℝ) = 1 ↔ X / ((ne.sum + e.sum : ℕ) : ℚ) = 1 := by
            rw [← Rat.cast_one (α := ℝ)]; exact Rat.cast_inj
          rw [this, div_eq_one_iff_eq hN.ne', hex]
          constructor
          · intro h
            have := mul_left_cancel₀ hN.ne' (h.trans (mul_one _).symm)
            push_cast; linarith
          · intro h; rw [h]; push_cast; ring
        rw [e0, heq]
        constructor
        · intro h j hj
          have := h 1 (by omega) j hj
          rw [classByBin_col] at this
          have c1 : classByBin ne e 1 j = e.getD j 0 := rfl
          rw [c1] at this
          omega
        · intro h i hi j hj
          have h1 := h j hj
          have : i = 0 ∨ i = 1 := by omega
          rw [classByBin_col]
          rcases this with rfl | rfl
          · have c0 : classByBin ne e 0 j = ne.getD j 0 := rfl
            rw [c0]; omega
          · have c1 : classByBin ne e 1 j = e.getD j 0 := rfl
            rw [c1]; omega

end OptBinning
