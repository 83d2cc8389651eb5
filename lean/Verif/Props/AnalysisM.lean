import Verif.Props.Analysis
import Verif.Props.MulticlassTable

/-!
# C100: significance tests of a multiclass binning table
-/
namespace OptBinning
open Finset Spec

theorem Spec.TableM.metric {cols : List (List ℕ)} {nSpecials m : ℕ} (h : TableM cols nSpecials m) :
    nMetric (rowsM cols) nSpecials false = m := by
  obtain ⟨c, l, rfl⟩ := List.exists_cons_of_ne_nil h.nonempty
  have := h.column c (by simp)
  unfold nMetric rowsM
  simp only [List.getD_cons_zero, this, Bool.false_eq_true, if_false]
  omega

theorem analysisM_eq (s : ScipyTests) {cols : List (List ℕ)} {nSpecials m : ℕ} (h : TableM cols nSpecials m) (js hhiN : ℝ) :
    analysisM s cols nSpecials js hhiN =
      match (if 2 ≤ m then chi2CramerVMulti m cols.length (binClass cols) else .ok (.real 0)) with
      | .error e => .error e
      | .ok v =>
        match (List.range (m - 1)).mapM (pairTestM s cols.length (binClass cols)) with
        | .error e => .error e
        | .ok tests => .ok (v, tests, qualityFlt (js / Real.log cols.length) (tests.map PairTest2.pvalue) hhiN) := by
  unfold analysisM
  simp only [h.metric]
  rfl

theorem pair_row (k : ℕ) (o : ℕ → ℕ → ℕ) (i c : ℕ) : tableRow k (fun c j => o (i + c) j) c = tableRow k o (i + c) := rfl

theorem pair_col (o : ℕ → ℕ → ℕ) (i j : ℕ) : tableCol 2 (fun c j => o (i + c) j) j = o i j + o (i + 1) j := by
  unfold tableCol; rw [sum_range_succ, sum_range_one]; rfl

theorem pair_all (k : ℕ) (o : ℕ → ℕ → ℕ) (i : ℕ) : tableAll 2 k (fun c j => o (i + c) j) = tableRow k o i + tableRow k o (i + 1) := by
  rw [← grand_row, sum_range_succ, sum_range_one]; rfl

theorem pairTestM_error_iff {s : ScipyTests} {k : ℕ} {o : ℕ → ℕ → ℕ} {i : ℕ} : (∃ m, pairTestM s k o i = .error m) ↔
    tableRow k o i + tableRow k o (i + 1) ≠ 0 ∧ (tableRow k o i = 0 ∨ tableRow k o (i + 1) = 0 ∨ ∃ j < k, o i j + o (i + 1) j = 0) := by
  have h0 : (∃ m, pairTestM s k o i = .error m) ↔ ∃ m, chi2Table 2 k (fun c j => o (i + c) j) = .error m := by
    unfold pairTestM
    cases chi2Table 2 k (fun c j => o (i + c) j) <;> simp
  rw [h0, chi2Table_error_iff, pair_all]
  simp only [pair_row, pair_col]
  constructor
  · rintro ⟨h1, ⟨c, hc, h2⟩ | h2⟩
    · have : c = 0 ∨ c = 1 := by omega
      rcases this with rfl | rfl
      · exact ⟨h1, Or.inl h2⟩
      · exact ⟨h1, Or.inr (Or.inl h2)⟩
    · exact ⟨h1, Or.inr (Or.inr h2)⟩
  · rintro ⟨h1, h2 | h2 | h2⟩
    · exact ⟨h1, Or.inl ⟨0, by omega, h2⟩⟩
    · exact ⟨h1, Or.inl ⟨1, by omega, h2⟩⟩
    · exact ⟨h1, Or.inr h2⟩

theorem chi2CramerVMulti_error_iff {r k : ℕ} {o : ℕ → ℕ → ℕ} : (∃ m, chi2CramerVMulti r k o = .error m) ↔
    tableAll r k o ≠ 0 ∧ ((∃ i < r, tableRow k o i = 0) ∨ ∃ j < k, tableCol r o j = 0) := by
  rw [← chi2Table_error_iff]
  unfold chi2CramerVMulti
  cases chi2Table r k o <;> simp

theorem tableRow_cellM (cols : List (List ℕ)) (i : ℕ) : tableRow cols.length (binClass cols) i = binSizeM cols i := rfl

theorem analysisM_ok {s : ScipyTests} {cols : List (List ℕ)} {nSpecials m : ℕ} (h : TableM cols nSpecials m) {js hhiN : ℝ}
    {v : Flt} {tests : List PairTest2} {q : Flt} (ha : analysisM s cols nSpecials js hhiN = .ok (v, tests, q)) :
    (if 2 ≤ m then chi2CramerVMulti m cols.length (binClass cols) else .ok (.real 0)) = .ok v ∧
    (List.range (m - 1)).mapM (pairTestM s cols.length (binClass cols)) = .ok tests ∧
    q = qualityFlt (js / Real.log cols.length) (tests.map PairTest2.pvalue) hhiN := by
  rw [analysisM_eq s h] at ha
  split at ha
  · cases ha
  · rename_i v' hv
    split at ha
    · cases ha
    · rename_i t' ht
      simp only [Except.ok.injEq, Prod.mk.injEq] at ha
      obtain ⟨rfl, rfl, rfl⟩ := ha
      exact ⟨hv, ht, rfl⟩

/-- C100: `analysis` of a multiclass table fails exactly if, with at least two regular bins holding records, a regular bin is
empty or a class is absent from two neighbouring regular bins. -/
theorem C100_fails (s : ScipyTests) (cols : List (List ℕ)) (nSpecials m : ℕ) (h : TableM cols nSpecials m) (js hhiN : ℝ) :
    (∃ e, analysisM s cols nSpecials js hhiN = .error e) ↔
      2 ≤ m ∧ (∃ i < m, binSizeM cols i ≠ 0) ∧ ((∃ i < m, binSizeM cols i = 0) ∨
        ∃ i, i + 1 < m ∧ ∃ j < cols.length, binClass cols i j = 0 ∧ binClass cols (i + 1) j = 0) := by
  have hall : tableAll m cols.length (binClass cols) ≠ 0 ↔ ∃ i < m, binSizeM cols i ≠ 0 := by
    rw [← grand_row]
    simp only [tableRow_cellM, ne_eq, sum_eq_zero_iff, mem_range]
    push Not
    rfl
  have h0 : (∃ e, analysisM s cols nSpecials js hhiN = .error e) ↔
      (2 ≤ m ∧ ∃ e, chi2CramerVMulti m cols.length (binClass cols) = .error e) ∨
      ∃ i < m - 1, ∃ e, pairTestM s cols.length (binClass cols) i = .error e := by
    rw [analysisM_eq s h]
    have hp : (∃ i < m - 1, ∃ e, pairTestM s cols.length (binClass cols) i = .error e) ↔
        ∃ e, (List.range (m - 1)).mapM (pairTestM s cols.length (binClass cols)) = .error e := by
      rw [mapM_error_iff]; simp
    rw [hp]
    by_cases hl : 2 ≤ m
    · simp only [hl, if_true, true_and]
      cases chi2CramerVMulti m cols.length (binClass cols) with
      | error m => simp
      | ok v => cases (List.range (m - 1)).mapM (pairTestM s cols.length (binClass cols)) <;> simp
    · simp only [hl, if_false, false_and, false_or]
      cases (List.range (m - 1)).mapM (pairTestM s cols.length (binClass cols)) <;> simp
  rw [h0]
  simp only [chi2CramerVMulti_error_iff, pairTestM_error_iff, hall, tableRow_cellM]
  constructor
  · rintro (⟨h1, h2, h3 | ⟨j, hj, h3⟩⟩ | ⟨i, hi, h1, h2⟩)
    · exact ⟨h1, h2, Or.inl h3⟩
    · refine ⟨h1, h2, Or.inr ⟨0, by omega, j, hj, ?_⟩⟩
      have q := fun i hi => (cell_le_col (o := binClass cols) (m := m) (i := i) j hi).trans h3.le
      exact ⟨Nat.le_zero.1 (q 0 (by omega)), Nat.le_zero.1 (q 1 (by omega))⟩
    · have : ∃ i < m, binSizeM cols i ≠ 0 := by
        by_cases hz : binSizeM cols i = 0
        · exact ⟨i + 1, by omega, by omega⟩
        · exact ⟨i, by omega, hz⟩
      refine ⟨by omega, this, ?_⟩
      rcases h2 with h2 | h2 | ⟨j, hj, h2⟩
      · exact Or.inl ⟨i, by omega, h2⟩
      · exact Or.inl ⟨i + 1, by omega, h2⟩
      · exact Or.inr ⟨i, by omega, j, hj, by omega⟩
  · rintro ⟨h1, h2, h3 | ⟨i, hi, j, hj, h3⟩⟩
    · exact Or.inl ⟨h1, h2, Or.inl h3⟩
    · by_cases h4 : binSizeM cols i = 0
      · exact Or.inl ⟨h1, h2, Or.inl ⟨i, by omega, h4⟩⟩
      · exact Or.inr ⟨i, by omega, by omega, Or.inr (Or.inr ⟨j, hj, by omega⟩)⟩

theorem homogeneity_term (a b A B : ℚ) (h1 : a + b ≠ 0) (h2 : A ≠ 0) (h3 : B ≠ 0) (h4 : A + B ≠ 0) :
    (a - A * (a + b) / (A + B)) ^ 2 / (A * (a + b) / (A + B)) + (b - B * (a + b) / (A + B)) ^ 2 / (B * (a + b) / (A + B)) =
      A * B / (a + b) * (a / A - b / B) ^ 2 := by
  field_simp
  ring

/-- C100: the tests compare each regular bin with the next one and no others; the statistic is the homogeneity statistic of
the two bins, zero exactly if the classes have the same shares in both. -/
theorem C100_pairs (s : ScipyTests) (cols : List (List ℕ)) (nSpecials m : ℕ) (h : TableM cols nSpecials m) (js hhiN : ℝ)
    (v : Flt) (tests : List PairTest2) (q : Flt) (ha : analysisM s cols nSpecials js hhiN = .ok (v, tests, q)) :
    tests.length + 1 = m ∧ ∀ i, i + 1 < m → ∃ t, tests[i]? = some t ∧ t.binA = i ∧ t.binB = i + 1 ∧
      ((binSizeM cols i = 0 ∧ binSizeM cols (i + 1) = 0 ∧ t.statistic = .nan ∧ t.pvalue = .nan) ∨
       (0 < binSizeM cols i ∧ 0 < binSizeM cols (i + 1) ∧ ∃ x : ℚ, x = homogeneity cols i (i + 1) ∧ 0 ≤ x ∧
         (x = 0 ↔ ∀ j < cols.length, (binClass cols i j : ℚ) / (binSizeM cols i : ℚ) = (binClass cols (i + 1) j : ℚ) / (binSizeM cols (i + 1) : ℚ)) ∧
         t.statistic = .real (x : ℝ) ∧ t.pvalue = .real (s.sf (cols.length - 1) x))) := by
  obtain ⟨-, hm, -⟩ := analysisM_ok h ha
  have hf := mapM_except_forall₂ _ _ hm
  have hlen := hf.length_eq
  have hpos := h.pos
  rw [List.length_range] at hlen
  refine ⟨by omega, fun i hi => ?_⟩
  have hi' : i < tests.length := by omega
  refine ⟨tests[i], List.getElem?_eq_getElem hi', ?_⟩
  have hp : pairTestM s cols.length (binClass cols) i = .ok tests[i] := by
    have := hf.get (i := i) (by rw [List.length_range]; omega) hi'
    simpa using this
  unfold pairTestM at hp
  cases hc : chi2Table 2 cols.length (fun c j => binClass cols (i + c) j) with
  | error e => rw [hc] at hp; cases hp
  | ok x =>
    rw [hc] at hp
    simp only [Except.ok.injEq] at hp
    rw [← hp]
    refine ⟨rfl, rfl, ?_⟩
    rcases chi2Table_cases hc with ⟨h1, h2⟩ | ⟨hn, hr, hcol, h2⟩
    · subst h2
      rw [pair_all] at h1
      simp only [tableRow_cellM] at h1
      exact Or.inl ⟨by omega, by omega, rfl, rfl⟩
    · right
      have r0 := hr 0 (by omega)
      have r1 := hr 1 (by omega)
      rw [pair_row] at r0 r1
      simp only [tableRow_cellM, add_zero] at r0 r1
      have q0 : (binSizeM cols i : ℚ) ≠ 0 := by exact_mod_cast r0
      have q1 : (binSizeM cols (i + 1) : ℚ) ≠ 0 := by exact_mod_cast r1
      have p0 : (0 : ℚ) < (binSizeM cols i : ℚ) := by exact_mod_cast Nat.pos_of_ne_zero r0
      have p1 : (0 : ℚ) < (binSizeM cols (i + 1) : ℚ) := by exact_mod_cast Nat.pos_of_ne_zero r1
      have hx : x = .num (homogeneity cols i (i + 1)) := by
        rw [h2]
        congr 1
        unfold homogeneity
        rw [sum_comm]
        refine sum_congr rfl fun j hj => ?_
        rw [sum_range_succ, sum_range_one, pair_row, pair_row, pair_col, pair_all]
        simp only [tableRow_cellM, add_zero, Nat.cast_add]
        have hcj := hcol j (mem_range.1 hj)
        rw [pair_col] at hcj
        refine homogeneity_term _ _ _ _ ?_ q0 q1 (by positivity)
        exact_mod_cast hcj
      subst hx
      have hterm : ∀ j ∈ range cols.length, 0 ≤ (binSizeM cols i : ℚ) * (binSizeM cols (i + 1) : ℚ) /
          ((binClass cols i j : ℚ) + (binClass cols (i + 1) j : ℚ)) *
          ((binClass cols i j : ℚ) / (binSizeM cols i : ℚ) - (binClass cols (i + 1) j : ℚ) / (binSizeM cols (i + 1) : ℚ)) ^ 2 := by
        intro j _; positivity
      refine ⟨Nat.pos_of_ne_zero r0, Nat.pos_of_ne_zero r1, _, rfl, sum_nonneg hterm, ?_, rfl, rfl⟩
      unfold homogeneity
      rw [sum_eq_zero_iff_of_nonneg hterm]
      constructor
      · intro hz j hj
        have := hz j (mem_range.2 hj)
        have hcj := hcol j hj
        rw [pair_col] at hcj
        have qc : (binClass cols i j : ℚ) + (binClass cols (i + 1) j : ℚ) ≠ 0 := by exact_mod_cast hcj
        rcases mul_eq_zero.1 this with h' | h'
        · rw [div_eq_zero_iff] at h'
          rcases h' with h' | h'
          · exact absurd h' (mul_ne_zero q0 q1)
          · exact absurd h' qc
        · exact sub_eq_zero.1 (pow_eq_zero_iff (by norm_num) |>.1 h')
      · intro hz j hj
        rw [hz j (mem_range.1 hj)]; simp

/-- C100: Cramer's V of a multiclass table with at least two classes. -/
theorem C100_cramer (s : ScipyTests) (cols : List (List ℕ)) (nSpecials m : ℕ) (h : TableM cols nSpecials m) (js hhiN : ℝ)
    (v : Flt) (tests : List PairTest2) (q : Flt) (ha : analysisM s cols nSpecials js hhiN = .ok (v, tests, q)) :
    (m < 2 → v = .real 0) ∧
    (2 ≤ m → 2 ≤ cols.length → (∃ i < m, binSizeM cols i ≠ 0) → ∃ x : ℝ, v = .real x ∧ 0 ≤ x ∧ x ≤ 1 ∧
      (x = 0 ↔ Independent m cols.length (binClass cols)) ∧
      (cols.length ≤ m → (x = 1 ↔ ∀ i < m, ∀ j < cols.length, binClass cols i j = 0 ∨ binClass cols i j = binSizeM cols i)) ∧
      (m ≤ cols.length → (x = 1 ↔ ∀ i < m, ∀ j < cols.length, binClass cols i j = 0 ∨ binClass cols i j = ∑ i' ∈ range m, binClass cols i' j))) := by
  obtain ⟨hv, -, -⟩ := analysisM_ok h ha
  refine ⟨fun hl => ?_, fun hl hk he => ?_⟩
  · rw [if_neg (by omega)] at hv; injection hv with hv; exact hv.symm
  · rw [if_pos hl] at hv
    unfold chi2CramerVMulti at hv
    cases hc : chi2Table m cols.length (binClass cols) with
    | error e => rw [hc] at hv; cases hv
    | ok x =>
      rw [hc] at hv
      injection hv with hv
      have hall : tableAll m cols.length (binClass cols) ≠ 0 := by
        obtain ⟨i, hi, h0⟩ := he
        rw [← grand_row]
        intro hz
        rw [sum_eq_zero_iff] at hz
        exact h0 (hz i (mem_range.2 hi))
      rcases chi2Table_cases hc with ⟨h1, -⟩ | ⟨hn, hr, hcol, hx⟩
      · exact absurd h1 hall
      have hX0 : 0 ≤ ∑ i ∈ range m, ∑ j ∈ range cols.length,
        ((binClass cols i j : ℚ) - (tableRow cols.length (binClass cols) i : ℚ) * (tableCol m (binClass cols) j : ℚ) /
          (tableAll m cols.length (binClass cols) : ℚ)) ^ 2 / ((tableRow cols.length (binClass cols) i : ℚ) *
          (tableCol m (binClass cols) j : ℚ) / (tableAll m cols.length (binClass cols) : ℚ)) :=
        sum_nonneg fun i _ => sum_nonneg fun j _ => chi2_term_nonneg _ _ _ _
      have hz := chi2_zero_iff hn hr hcol
      have hex := chi2_expand hn hr hcol
      have hle1 := sumsq_le_rows (k := cols.length) (o := binClass cols) hr
      have hle2 := sumsq_le_cols (k := cols.length) (o := binClass cols) hcol
      have heq1 := sumsq_eq_rows hr hcol
      have heq2 := sumsq_eq_cols hr hcol
      generalize ∑ i ∈ range m, ∑ j ∈ range cols.length,
        ((binClass cols i j : ℚ) - (tableRow cols.length (binClass cols) i : ℚ) * (tableCol m (binClass cols) j : ℚ) /
          (tableAll m cols.length (binClass cols) : ℚ)) ^ 2 / ((tableRow cols.length (binClass cols) i : ℚ) *
          (tableCol m (binClass cols) j : ℚ) / (tableAll m cols.length (binClass cols) : ℚ)) = X at *
      generalize ∑ i ∈ range m, ∑ j ∈ range cols.length, (binClass cols i j : ℚ) ^ 2 /
        ((tableRow cols.length (binClass cols) i : ℚ) * (tableCol m (binClass cols) j : ℚ)) = S at *
      subst hx
      have hN : (0 : ℚ) < (tableAll m cols.length (binClass cols) : ℚ) := by exact_mod_cast Nat.pos_of_ne_zero hn
      have hd0 : min (cols.length - 1) (m - 1) ≠ 0 := by omega
      have hd : (0 : ℚ) < ((min (cols.length - 1) (m - 1) : ℕ) : ℚ) := by exact_mod_cast Nat.pos_of_ne_zero hd0
      have hq : X / (tableAll m cols.length (binClass cols) : ℚ) / ((min (cols.length - 1) (m - 1) : ℕ) : ℚ) =
          (S - 1) / ((min (cols.length - 1) (m - 1) : ℕ) : ℚ) := by
        rw [hex]; field_simp
      have hS : 0 ≤ S - 1 := by
        rw [hex] at hX0
        exact nonneg_of_mul_nonneg_right hX0 hN
      have hcr : v = .real (Real.sqrt (((S - 1) / ((min (cols.length - 1) (m - 1) : ℕ) : ℚ) : ℚ) : ℝ)) := by
        rw [← hv, ← hq]; simp only [cramerRoot]; rw [if_neg hd0]; rfl
      have hq0 : (0 : ℝ) ≤ (((S - 1) / ((min (cols.length - 1) (m - 1) : ℕ) : ℚ) : ℚ) : ℝ) := by
        exact_mod_cast div_nonneg hS hd.le
      have hone : (((S - 1) / ((min (cols.length - 1) (m - 1) : ℕ) : ℚ) : ℚ) : ℝ) = 1 ↔
          S = ((min (cols.length - 1) (m - 1) : ℕ) : ℚ) + 1 := by
        have : (((S - 1) / ((min (cols.length - 1) (m - 1) : ℕ) : ℚ) : ℚ) : ℝ) = 1 ↔
            (S - 1) / ((min (cols.length - 1) (m - 1) : ℕ) : ℚ) = 1 := by
          rw [← Rat.cast_one (α := ℝ)]; exact Rat.cast_inj
        rw [this, div_eq_one_iff_eq hd.ne', sub_eq_iff_eq_add]
      refine ⟨_, hcr, Real.sqrt_nonneg _, ?_, ?_, ?_, ?_⟩
      · refine Real.sqrt_le_iff.2 ⟨zero_le_one, ?_⟩
        rw [one_pow]
        have : (S - 1) / ((min (cols.length - 1) (m - 1) : ℕ) : ℚ) ≤ 1 := by
          rw [div_le_one hd]
          rcases le_total (cols.length - 1) (m - 1) with hm | hm
          · rw [min_eq_left hm, Nat.cast_sub (by omega)]; push_cast; linarith
          · rw [min_eq_right hm, Nat.cast_sub (by omega)]; push_cast; linarith
        exact_mod_cast this
      · rw [Real.sqrt_eq_zero hq0, ← hz, hex]
        have : (((S - 1) / ((min (cols.length - 1) (m - 1) : ℕ) : ℚ) : ℚ) : ℝ) = 0 ↔
            (S - 1) / ((min (cols.length - 1) (m - 1) : ℕ) : ℚ) = 0 := Rat.cast_eq_zero
        rw [this, div_eq_zero_iff, mul_eq_zero]
        exact ⟨fun h => Or.inr (h.resolve_right hd.ne'), fun h => Or.inl (h.resolve_left hN.ne')⟩
      · intro hm
        rw [Real.sqrt_eq_one, hone, min_eq_left (by omega), Nat.cast_sub (by omega)]
        have : S = ((cols.length : ℕ) : ℚ) - ((1 : ℕ) : ℚ) + 1 ↔ S = (cols.length : ℚ) := by
          push_cast; rw [sub_add_cancel]
        rw [this, heq2]
        rfl
      · intro hm
        rw [Real.sqrt_eq_one, hone, min_eq_right (by omega), Nat.cast_sub (by omega)]
        have : S = ((m : ℕ) : ℚ) - ((1 : ℕ) : ℚ) + 1 ↔ S = (m : ℚ) := by
          push_cast; rw [sub_add_cancel]
        rw [this, heq1]
        rfl

end OptBinning

namespace OptBinning
open Finset Spec

section
variable {α κ : Type*} [LinearOrder α] [LinearOrder κ]
variable {sc : SpecialCodes α} {prebin : List (RecM α κ) → List α} {solver : SolverM} {c : SolverCfgM}
    {det : Option (List (RecM α κ) → List Bool)} {recs : List (RecM α κ)} {f : FittedM α κ}

theorem fitNumericalM_table (hr : RespectsM c solver) (hsort : ∀ l, (prebin l).Pairwise (· ≤ ·))
    (h : fitNumericalM sc det prebin solver recs = .ok f) (hne : f.classes ≠ []) :
    TableM f.event sc.count (f.splits.length + 1) ∧ f.event.length = f.classes.length := by
  obtain ⟨st', hf⟩ := fitNumericalM_from h
  obtain ⟨-, -, -, h4, h5, -⟩ := fitFromM_column hr.ends (fun r hr => (splitM_clean hr).2.1) (hsort _) hf
  refine ⟨⟨?_, by omega, fun col hc => ?_⟩, h4⟩
  · intro h0
    rw [h0] at h4
    exact hne (List.length_eq_zero_iff.1 (by simpa using h4.symm))
  · obtain ⟨i, hi, rfl⟩ := List.mem_iff_getElem.1 hc
    obtain ⟨reg, e1, e2, -⟩ := h5 i f.classes[i] (List.getElem?_eq_getElem (by omega))
    rw [List.getElem?_eq_getElem hi] at e1
    injection e1 with e1
    rw [e1]
    simp [e2, specialCountsM_length]
    omega

/-- C100: after every successful fit `analysis` succeeds. -/
theorem C100_fit_succeeds (hr : RespectsM c solver) (hsort : ∀ l, (prebin l).Pairwise (· ≤ ·))
    (h : fitNumericalM sc det prebin solver recs = .ok f) (hne : f.classes ≠ []) (s : ScipyTests) (js hhiN : ℝ) :
    ∃ v tests q, analysisM s f.event sc.count js hhiN = .ok (v, tests, q) ∧ tests.length = f.splits.length := by
  obtain ⟨ht, hl⟩ := fitNumericalM_table hr hsort h hne
  cases ha : analysisM s f.event sc.count js hhiN with
  | error e =>
    exfalso
    obtain ⟨h2, -, h3⟩ := (C100_fails s f.event sc.count _ ht js hhiN).1 ⟨e, ha⟩
    have hs : f.splits ≠ [] := fun h0 => by rw [h0] at h2; simp at h2
    have hpos : ∀ k ≤ f.splits.length, ∀ i < f.event.length, 0 < binClass f.event k i := fun k hk i hi =>
      (C56_nonpure hr h hs (by omega) hk).1
    rcases h3 with ⟨i, hi, h3⟩ | ⟨i, hi, j, hj, h3, -⟩
    · have h0 : 0 < f.event.length := List.length_pos_iff.mpr ht.nonempty
      have := hpos i (by omega) 0 h0
      have := cell_le_row (o := binClass f.event) i h0
      rw [tableRow_cellM] at this
      omega
    · have := hpos i (by omega) j hj; omega
  | ok r =>
    obtain ⟨v, tests, q⟩ := r
    exact ⟨v, tests, q, rfl, by have := (C100_pairs s _ _ _ ht js hhiN v tests q ha).1; omega⟩

end

/-! ### a concrete case -/

example : TableM exFittedM.event 1 3 := ⟨by decide, by decide, by decide⟩

example (s : ScipyTests) : ∃ v tests q, analysisM s exFittedM.event 1 0 0 = .ok (v, tests, q) ∧ tests.length = 2 :=
  C100_fit_succeeds (f := exFittedM) exSolverM_respects (fun _ => by decide) exFitM (by decide) s 0 0

/-- The statistic of the first two bins of the running example: (1, 1, 2) and (2, 1, 1). -/
example : homogeneity exFittedM.event 0 1 = 2 / 3 := by decide +kernel

end OptBinning
