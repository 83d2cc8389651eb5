import Verif.Model.Analysis
import Verif.Spec.Analysis
import Mathlib.Algebra.Order.BigOperators.Group.Finset
import Mathlib.Algebra.BigOperators.Field
import Mathlib.Tactic.FieldSimp
import Mathlib.Tactic.Ring
import Mathlib.Tactic.Linarith
import Mathlib.Tactic.Positivity
import Mathlib.Tactic.LinearCombination

/-!
# Pearson's statistic of a contingency table
-/
namespace OptBinning
open Finset Spec

theorem chi2Table_eq (m k : ℕ) (o : ℕ → ℕ → ℕ) : chi2Table m k o =
    if tableAll m k o = 0 then .ok .nan
    else if ∃ i < m, ∃ j < k, (tableRow k o i : ℚ) * (tableCol m o j : ℚ) / (tableAll m k o : ℚ) = 0 then .error "ValueError"
    else .ok (.num (∑ i ∈ range m, ∑ j ∈ range k,
      ((o i j : ℚ) - (tableRow k o i : ℚ) * (tableCol m o j : ℚ) / (tableAll m k o : ℚ)) ^ 2 /
        ((tableRow k o i : ℚ) * (tableCol m o j : ℚ) / (tableAll m k o : ℚ)))) := rfl

theorem grand_col (m k : ℕ) (o : ℕ → ℕ → ℕ) : ∑ j ∈ range k, tableCol m o j = tableAll m k o := by
  unfold tableCol tableAll; rw [sum_comm]

theorem grand_row (m k : ℕ) (o : ℕ → ℕ → ℕ) : ∑ i ∈ range m, tableRow k o i = tableAll m k o := rfl

theorem grand_pos_dims {m k : ℕ} {o : ℕ → ℕ → ℕ} (h : tableAll m k o ≠ 0) : 0 < m ∧ 0 < k := by
  constructor
  · rcases Nat.eq_zero_or_pos m with h0 | h0
    · exact absurd (by simp [tableAll, h0]) h
    · exact h0
  · rcases Nat.eq_zero_or_pos k with h0 | h0
    · exact absurd (by simp [tableAll, h0]) h
    · exact h0

theorem margin_zero {r c n : ℕ} (hn : n ≠ 0) : (r : ℚ) * (c : ℚ) / (n : ℚ) = 0 ↔ r = 0 ∨ c = 0 := by
  have : (n : ℚ) ≠ 0 := by exact_mod_cast hn
  rw [div_eq_zero_iff]; simp [this]

/-- It fails exactly if a row or a column of a non-empty table is empty. -/
theorem chi2Table_error_iff (m k : ℕ) (o : ℕ → ℕ → ℕ) : (∃ e, chi2Table m k o = .error e) ↔
    tableAll m k o ≠ 0 ∧ ((∃ i < m, tableRow k o i = 0) ∨ ∃ j < k, tableCol m o j = 0) := by
  rw [chi2Table_eq]
  by_cases hn : tableAll m k o = 0
  · simp [hn]
  · rw [if_neg hn]
    obtain ⟨hm, hk⟩ := grand_pos_dims hn
    have hiff : (∃ i < m, ∃ j < k, (tableRow k o i : ℚ) * (tableCol m o j : ℚ) / (tableAll m k o : ℚ) = 0) ↔
        ((∃ i < m, tableRow k o i = 0) ∨ ∃ j < k, tableCol m o j = 0) := by
      simp only [margin_zero hn]
      constructor
      · rintro ⟨i, hi, j, hj, h | h⟩
        · exact Or.inl ⟨i, hi, h⟩
        · exact Or.inr ⟨j, hj, h⟩
      · rintro (⟨i, hi, h⟩ | ⟨j, hj, h⟩)
        · exact ⟨i, hi, 0, hk, Or.inl h⟩
        · exact ⟨0, hm, j, hj, Or.inr h⟩
    rw [← hiff]
    by_cases hc : ∃ i < m, ∃ j < k, (tableRow k o i : ℚ) * (tableCol m o j : ℚ) / (tableAll m k o : ℚ) = 0
    · rw [if_pos hc]; exact ⟨fun _ => ⟨hn, hc⟩, fun _ => ⟨_, rfl⟩⟩
    · rw [if_neg hc]; constructor
      · rintro ⟨e, he⟩; cases he
      · rintro ⟨-, h⟩; exact absurd h hc

theorem chi2Table_error_value {m k : ℕ} {o : ℕ → ℕ → ℕ} {e : String} (h : chi2Table m k o = .error e) : e = "ValueError" := by
  rw [chi2Table_eq] at h
  split_ifs at h
  injection h with h; exact h.symm

theorem chi2Table_nan {m k : ℕ} {o : ℕ → ℕ → ℕ} (h : tableAll m k o = 0) : chi2Table m k o = .ok .nan := by
  rw [chi2Table_eq, if_pos h]

/-- The statistic as `n (Σ o² / (r c) - 1)`. -/
theorem chi2_expand {m k : ℕ} {o : ℕ → ℕ → ℕ} (hn : tableAll m k o ≠ 0) (hr : ∀ i < m, tableRow k o i ≠ 0)
    (hc : ∀ j < k, tableCol m o j ≠ 0) :
    ∑ i ∈ range m, ∑ j ∈ range k,
      ((o i j : ℚ) - (tableRow k o i : ℚ) * (tableCol m o j : ℚ) / (tableAll m k o : ℚ)) ^ 2 /
        ((tableRow k o i : ℚ) * (tableCol m o j : ℚ) / (tableAll m k o : ℚ)) =
      (tableAll m k o : ℚ) * (∑ i ∈ range m, ∑ j ∈ range k, (o i j : ℚ) ^ 2 / ((tableRow k o i : ℚ) * (tableCol m o j : ℚ)) - 1) := by
  have hn' : (tableAll m k o : ℚ) ≠ 0 := by exact_mod_cast hn
  have h1 : ∀ i ∈ range m, ∀ j ∈ range k,
      ((o i j : ℚ) - (tableRow k o i : ℚ) * (tableCol m o j : ℚ) / (tableAll m k o : ℚ)) ^ 2 /
        ((tableRow k o i : ℚ) * (tableCol m o j : ℚ) / (tableAll m k o : ℚ)) =
      (tableAll m k o : ℚ) * ((o i j : ℚ) ^ 2 / ((tableRow k o i : ℚ) * (tableCol m o j : ℚ))) - 2 * (o i j : ℚ) +
        (tableRow k o i : ℚ) * (tableCol m o j : ℚ) / (tableAll m k o : ℚ) := by
    intro i hi j hj
    have a : (tableRow k o i : ℚ) ≠ 0 := by exact_mod_cast hr i (mem_range.1 hi)
    have b : (tableCol m o j : ℚ) ≠ 0 := by exact_mod_cast hc j (mem_range.1 hj)
    field_simp
    ring
  rw [sum_congr rfl fun i hi => sum_congr rfl (h1 i hi)]
  simp only [sum_add_distrib, sum_sub_distrib, ← mul_sum]
  have e1 : ∑ i ∈ range m, ∑ j ∈ range k, (o i j : ℚ) = (tableAll m k o : ℚ) := by
    unfold tableAll; push_cast; rfl
  have e2 : ∑ i ∈ range m, ∑ j ∈ range k, (tableRow k o i : ℚ) * (tableCol m o j : ℚ) / (tableAll m k o : ℚ) =
      (tableAll m k o : ℚ) := by
    simp only [← sum_div, ← mul_sum, ← sum_mul]
    have q1 : ∑ i ∈ range m, (tableRow k o i : ℚ) = (tableAll m k o : ℚ) := by rw [← grand_row]; push_cast; rfl
    have q2 : ∑ j ∈ range k, (tableCol m o j : ℚ) = (tableAll m k o : ℚ) := by rw [← grand_col]; push_cast; rfl
    rw [q1, q2]; field_simp
  rw [e1, e2]
  ring

theorem chi2Table_num {m k : ℕ} {o : ℕ → ℕ → ℕ} (hn : tableAll m k o ≠ 0) (hr : ∀ i < m, tableRow k o i ≠ 0)
    (hc : ∀ j < k, tableCol m o j ≠ 0) :
    chi2Table m k o = .ok (.num (∑ i ∈ range m, ∑ j ∈ range k,
      ((o i j : ℚ) - (tableRow k o i : ℚ) * (tableCol m o j : ℚ) / (tableAll m k o : ℚ)) ^ 2 /
        ((tableRow k o i : ℚ) * (tableCol m o j : ℚ) / (tableAll m k o : ℚ)))) := by
  rw [chi2Table_eq, if_neg hn, if_neg]
  rintro ⟨i, hi, j, hj, h⟩
  rw [margin_zero hn] at h
  exact h.elim (hr i hi) (hc j hj)

theorem chi2Table_cases {m k : ℕ} {o : ℕ → ℕ → ℕ} {x : XQ} (h : chi2Table m k o = .ok x) :
    (tableAll m k o = 0 ∧ x = .nan) ∨
    (tableAll m k o ≠ 0 ∧ (∀ i < m, tableRow k o i ≠ 0) ∧ (∀ j < k, tableCol m o j ≠ 0) ∧
      x = .num (∑ i ∈ range m, ∑ j ∈ range k,
      ((o i j : ℚ) - (tableRow k o i : ℚ) * (tableCol m o j : ℚ) / (tableAll m k o : ℚ)) ^ 2 /
        ((tableRow k o i : ℚ) * (tableCol m o j : ℚ) / (tableAll m k o : ℚ)))) := by
  by_cases hn : tableAll m k o = 0
  · rw [chi2Table_nan hn] at h; injection h with h; exact Or.inl ⟨hn, h.symm⟩
  · have hne : ¬ ∃ e, chi2Table m k o = .error e := by rintro ⟨e, he⟩; rw [h] at he; cases he
    rw [chi2Table_error_iff] at hne
    push Not at hne
    obtain ⟨a, b⟩ := hne hn
    rw [chi2Table_num hn a b] at h
    injection h with h
    exact Or.inr ⟨hn, a, b, h.symm⟩

theorem chi2_term_nonneg (a : ℚ) (r c n : ℕ) : 0 ≤ (a - (r : ℚ) * (c : ℚ) / (n : ℚ)) ^ 2 / ((r : ℚ) * (c : ℚ) / (n : ℚ)) := by
  positivity

theorem chi2_zero_iff {m k : ℕ} {o : ℕ → ℕ → ℕ} (hn : tableAll m k o ≠ 0) (hr : ∀ i < m, tableRow k o i ≠ 0)
    (hc : ∀ j < k, tableCol m o j ≠ 0) :
    ∑ i ∈ range m, ∑ j ∈ range k,
      ((o i j : ℚ) - (tableRow k o i : ℚ) * (tableCol m o j : ℚ) / (tableAll m k o : ℚ)) ^ 2 /
        ((tableRow k o i : ℚ) * (tableCol m o j : ℚ) / (tableAll m k o : ℚ)) = 0 ↔ Independent m k o := by
  have hn' : (tableAll m k o : ℚ) ≠ 0 := by exact_mod_cast hn
  rw [sum_eq_zero_iff_of_nonneg fun i _ => sum_nonneg fun j _ => chi2_term_nonneg _ _ _ _]
  unfold Independent
  refine ⟨fun h i hi j hj => ?_, fun h i hi => ?_⟩
  · have h1 := (sum_eq_zero_iff_of_nonneg fun j _ => chi2_term_nonneg _ _ _ _).1 (h i (mem_range.2 hi)) j (mem_range.2 hj)
    have a : (tableRow k o i : ℚ) ≠ 0 := by exact_mod_cast hr i hi
    have b : (tableCol m o j : ℚ) ≠ 0 := by exact_mod_cast hc j hj
    rw [div_eq_zero_iff] at h1
    rcases h1 with h1 | h1
    · have h2 := pow_eq_zero_iff (n := 2) (by norm_num) |>.1 h1
      rw [sub_eq_zero, eq_div_iff hn'] at h2
      exact_mod_cast h2
    · exfalso; revert h1; positivity
  · refine sum_eq_zero fun j hj => ?_
    have h2 := h i (mem_range.1 hi) j (mem_range.1 hj)
    have h3 : (o i j : ℚ) * (tableAll m k o : ℚ) = (tableRow k o i : ℚ) * (tableCol m o j : ℚ) := by exact_mod_cast h2
    rw [← h3, mul_div_assoc, div_self hn']
    simp

theorem cell_le_row {k : ℕ} {o : ℕ → ℕ → ℕ} (i : ℕ) {j : ℕ} (hj : j < k) : o i j ≤ tableRow k o i := by
  unfold tableRow
  exact single_le_sum (f := fun j => o i j) (fun _ _ => Nat.zero_le _) (mem_range.2 hj)

theorem cell_le_col {m : ℕ} {o : ℕ → ℕ → ℕ} {i : ℕ} (j : ℕ) (hi : i < m) : o i j ≤ tableCol m o j := by
  unfold tableCol
  exact single_le_sum (f := fun i => o i j) (fun _ _ => Nat.zero_le _) (mem_range.2 hi)

theorem sum_over_cols {m k : ℕ} {o : ℕ → ℕ → ℕ} (hc : ∀ j < k, tableCol m o j ≠ 0) :
    ∑ i ∈ range m, ∑ j ∈ range k, (o i j : ℚ) / (tableCol m o j : ℚ) = (k : ℚ) := by
  rw [sum_comm]
  have : ∀ j ∈ range k, ∑ i ∈ range m, (o i j : ℚ) / (tableCol m o j : ℚ) = 1 := by
    intro j hj
    have b : (tableCol m o j : ℚ) ≠ 0 := by exact_mod_cast hc j (mem_range.1 hj)
    rw [← sum_div, div_eq_one_iff_eq b]
    unfold tableCol; push_cast; rfl
  rw [sum_congr rfl this]; simp

theorem sum_over_rows {m k : ℕ} {o : ℕ → ℕ → ℕ} (hr : ∀ i < m, tableRow k o i ≠ 0) :
    ∑ i ∈ range m, ∑ j ∈ range k, (o i j : ℚ) / (tableRow k o i : ℚ) = (m : ℚ) := by
  have : ∀ i ∈ range m, ∑ j ∈ range k, (o i j : ℚ) / (tableRow k o i : ℚ) = 1 := by
    intro i hi
    have b : (tableRow k o i : ℚ) ≠ 0 := by exact_mod_cast hr i (mem_range.1 hi)
    rw [← sum_div, div_eq_one_iff_eq b]
    unfold tableRow; push_cast; rfl
  rw [sum_congr rfl this]; simp

theorem cell_term_le_col {a r c : ℕ} (ha : a ≤ r) : (a : ℚ) ^ 2 / ((r : ℚ) * (c : ℚ)) ≤ (a : ℚ) / (c : ℚ) := by
  rcases Nat.eq_zero_or_pos r with h | h
  · subst h; have : a = 0 := by omega
    subst this; simp
  rcases Nat.eq_zero_or_pos c with h' | h'
  · subst h'; simp
  have q1 : (0 : ℚ) < r := by exact_mod_cast h
  have q2 : (0 : ℚ) < c := by exact_mod_cast h'
  have q3 : (a : ℚ) ≤ r := by exact_mod_cast ha
  rw [div_le_div_iff₀ (by positivity) q2]
  have := mul_le_mul_of_nonneg_left q3 (show (0 : ℚ) ≤ (a : ℚ) * c by positivity)
  nlinarith

theorem cell_term_eq_col {a r c : ℕ} (hr : r ≠ 0) (hc : c ≠ 0) : (a : ℚ) ^ 2 / ((r : ℚ) * (c : ℚ)) = (a : ℚ) / (c : ℚ) ↔ a = 0 ∨ a = r := by
  have q1 : (r : ℚ) ≠ 0 := by exact_mod_cast hr
  have q2 : (c : ℚ) ≠ 0 := by exact_mod_cast hc
  rw [div_eq_div_iff (mul_ne_zero q1 q2) q2]
  constructor
  · intro h
    have : (a : ℚ) * ((a : ℚ) - r) = 0 := by
      have := mul_right_cancel₀ q2 (show (a : ℚ) * ((a : ℚ) - r) * c = 0 * c by linear_combination h)
      exact this
    rcases mul_eq_zero.1 this with h | h
    · left; exact_mod_cast h
    · right; rw [sub_eq_zero] at h; exact_mod_cast h
  · rintro (h | h)
    · subst h; simp
    · subst h; ring

theorem sumsq_le_cols {m k : ℕ} {o : ℕ → ℕ → ℕ} (hc : ∀ j < k, tableCol m o j ≠ 0) :
    ∑ i ∈ range m, ∑ j ∈ range k, (o i j : ℚ) ^ 2 / ((tableRow k o i : ℚ) * (tableCol m o j : ℚ)) ≤ (k : ℚ) := by
  rw [← sum_over_cols hc]
  exact sum_le_sum fun i _ => sum_le_sum fun j hj => cell_term_le_col (cell_le_row i (mem_range.1 hj))

theorem sumsq_le_rows {m k : ℕ} {o : ℕ → ℕ → ℕ} (hr : ∀ i < m, tableRow k o i ≠ 0) :
    ∑ i ∈ range m, ∑ j ∈ range k, (o i j : ℚ) ^ 2 / ((tableRow k o i : ℚ) * (tableCol m o j : ℚ)) ≤ (m : ℚ) := by
  rw [← sum_over_rows hr]
  refine sum_le_sum fun i hi => sum_le_sum fun j _ => ?_
  rw [mul_comm]
  exact cell_term_le_col (cell_le_col j (mem_range.1 hi))

/-- Equality exactly if each row (bin) holds records of one column (class) only. -/
theorem sumsq_eq_cols {m k : ℕ} {o : ℕ → ℕ → ℕ} (hr : ∀ i < m, tableRow k o i ≠ 0) (hc : ∀ j < k, tableCol m o j ≠ 0) :
    ∑ i ∈ range m, ∑ j ∈ range k, (o i j : ℚ) ^ 2 / ((tableRow k o i : ℚ) * (tableCol m o j : ℚ)) = (k : ℚ) ↔
    ∀ i < m, ∀ j < k, o i j = 0 ∨ o i j = tableRow k o i := by
  rw [← sum_over_cols hc]
  rw [sum_eq_sum_iff_of_le fun i _ => sum_le_sum fun j hj => cell_term_le_col (cell_le_row i (mem_range.1 hj))]
  constructor
  · intro h i hi j hj
    have h1 := h i (mem_range.2 hi)
    rw [sum_eq_sum_iff_of_le fun j hj => cell_term_le_col (cell_le_row i (mem_range.1 hj))] at h1
    exact (cell_term_eq_col (hr i hi) (hc j hj)).1 (h1 j (mem_range.2 hj))
  · intro h i hi
    refine sum_congr rfl fun j hj => ?_
    exact (cell_term_eq_col (hr i (mem_range.1 hi)) (hc j (mem_range.1 hj))).2 (h i (mem_range.1 hi) j (mem_range.1 hj))

/-- Equality with the number of rows exactly if each column holds records of one row only. -/
theorem sumsq_eq_rows {m k : ℕ} {o : ℕ → ℕ → ℕ} (hr : ∀ i < m, tableRow k o i ≠ 0) (hc : ∀ j < k, tableCol m o j ≠ 0) :
    ∑ i ∈ range m, ∑ j ∈ range k, (o i j : ℚ) ^ 2 / ((tableRow k o i : ℚ) * (tableCol m o j : ℚ)) = (m : ℚ) ↔
    ∀ i < m, ∀ j < k, o i j = 0 ∨ o i j = tableCol m o j := by
  have hsw : ∑ i ∈ range m, ∑ j ∈ range k, (o i j : ℚ) ^ 2 / ((tableRow k o i : ℚ) * (tableCol m o j : ℚ)) =
      ∑ i ∈ range m, ∑ j ∈ range k, (o i j : ℚ) ^ 2 / ((tableCol m o j : ℚ) * (tableRow k o i : ℚ)) :=
    sum_congr rfl fun i _ => sum_congr rfl fun j _ => by rw [mul_comm (tableRow k o i : ℚ)]
  rw [hsw, ← sum_over_rows hr]
  rw [sum_eq_sum_iff_of_le fun i hi => sum_le_sum fun j _ => cell_term_le_col (cell_le_col j (mem_range.1 hi))]
  constructor
  · intro h i hi j hj
    have h1 := h i (mem_range.2 hi)
    rw [sum_eq_sum_iff_of_le fun j _ => cell_term_le_col (cell_le_col j hi)] at h1
    exact (cell_term_eq_col (hc j hj) (hr i hi)).1 (h1 j (mem_range.2 hj))
  · intro h i hi
    refine sum_congr rfl fun j hj => ?_
    exact (cell_term_eq_col (hc j (mem_range.1 hj)) (hr i (mem_range.1 hi))).2 (h i (mem_range.1 hi) j (mem_range.1 hj))

end OptBinning
