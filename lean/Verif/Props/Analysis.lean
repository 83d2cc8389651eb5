import Verif.Lemmas.Analysis
import Verif.Props.MonitorSystem
import Verif.Lemmas.ProcessTransform
import Mathlib.Algebra.BigOperators.Fin

/-!
# C99: significance tests of a binary binning table
-/
namespace OptBinning
open Finset Spec

theorem Spec.TableB.metric {nonevent event : List ℕ} {nSpecials : ℕ} {others : Bool} {ne e : List ℕ}
    (h : TableB nonevent event nSpecials others ne e) :
    nMetric nonevent.length nSpecials others = ne.length ∧ nonevent.take ne.length = ne ∧ event.take ne.length = e := by
  obtain ⟨t, ht, hl⟩ := h.nonevent
  obtain ⟨t', ht'⟩ := h.event
  refine ⟨?_, ?_, ?_⟩
  · unfold nMetric; rw [ht, List.length_append, hl]; split_ifs <;> omega
  · rw [ht, List.take_left]
  · rw [ht', ← h.same, List.take_left]

/-- Contingency table of the classes and the bins, as `chi2_cramer_v` builds it. -/
def classByBin (ne e : List ℕ) : ℕ → ℕ → ℕ := fun c i => if c = 0 then ne.getD i 0 else e.getD i 0

theorem sum_getD (l : List ℕ) : ∑ i ∈ range l.length, l.getD i 0 = l.sum := by
  induction l with
  | nil => simp
  | cons a l ih => rw [List.length_cons, sum_range_succ', List.sum_cons, ← ih]; simp [add_comm]

theorem classByBin_row0 (ne e : List ℕ) : tableRow ne.length (classByBin ne e) 0 = ne.sum := by
  unfold tableRow classByBin; simpa using sum_getD ne

theorem classByBin_row1 {ne e : List ℕ} (h : e.length = ne.length) : tableRow ne.length (classByBin ne e) 1 = e.sum := by
  unfold tableRow classByBin; rw [← h]; simpa using sum_getD e

theorem classByBin_col (ne e : List ℕ) (i : ℕ) : tableCol 2 (classByBin ne e) i = ne.getD i 0 + e.getD i 0 := by
  unfold tableCol classByBin; rw [sum_range_succ, sum_range_one]; simp

theorem classByBin_all {ne e : List ℕ} (h : e.length = ne.length) : tableAll 2 ne.length (classByBin ne e) = ne.sum + e.sum := by
  rw [← grand_row, sum_range_succ, sum_range_one, classByBin_row0, classByBin_row1 h]

theorem chi2CramerV_eq (ne e : List ℕ) : chi2CramerV ne e = match chi2Table 2 ne.length (classByBin ne e) with
  | .error m => .error m
  | .ok t => .ok (cramerRoot (ne.sum + e.sum) 1 t) := rfl

theorem sum_zero_getD {l : List ℕ} (h : l.sum = 0) (i : ℕ) : l.getD i 0 = 0 := by
  by_cases hi : i < l.length
  · rw [← sum_getD] at h
    exact (sum_eq_zero_iff_of_nonneg (fun _ _ => Nat.zero_le _)).1 h i (mem_range.2 hi)
  · rw [List.getD_eq_getElem?_getD, List.getElem?_eq_none (by omega)]; rfl

theorem getD_le_sum (l : List ℕ) (i : ℕ) : l.getD i 0 ≤ l.sum := by
  by_cases hi : i < l.length
  · rw [← sum_getD]
    exact single_le_sum (f := fun i => l.getD i 0) (fun _ _ => Nat.zero_le _) (mem_range.2 hi)
  · rw [List.getD_eq_getElem?_getD, List.getElem?_eq_none (by omega)]; simp

theorem chi2CramerV_error_iff {ne e : List ℕ} (h : e.length = ne.length) : (∃ m, chi2CramerV ne e = .error m) ↔
    ne.sum + e.sum ≠ 0 ∧ ((∃ i < ne.length, ne.getD i 0 + e.getD i 0 = 0) ∨ ne.sum = 0 ∨ e.sum = 0) := by
  have h0 : (∃ m, chi2CramerV ne e = .error m) ↔ ∃ m, chi2Table 2 ne.length (classByBin ne e) = .error m := by
    rw [chi2CramerV_eq]
    cases chi2Table 2 ne.length (classByBin ne e) <;> simp
  rw [h0, chi2Table_error_iff, classByBin_all h]
  simp only [classByBin_col]
  constructor
  · rintro ⟨h1, ⟨i, hi, h2⟩ | h2⟩
    · refine ⟨h1, Or.inr ?_⟩
      have : i = 0 ∨ i = 1 := by omega
      rcases this with rfl | rfl
      · rw [classByBin_row0] at h2; exact Or.inl h2
      · rw [classByBin_row1 h] at h2; exact Or.inr h2
    · exact ⟨h1, Or.inl h2⟩
  · rintro ⟨h1, h2 | h2 | h2⟩
    · exact ⟨h1, Or.inr h2⟩
    · exact ⟨h1, Or.inl ⟨0, by omega, by rw [classByBin_row0]; exact h2⟩⟩
    · exact ⟨h1, Or.inl ⟨1, by omega, by rw [classByBin_row1 h]; exact h2⟩⟩

theorem mapM_error_iff {β γ : Type*} {f : β → Except String γ} (l : List β) :
    (∃ e, l.mapM f = .error e) ↔ ∃ x ∈ l, ∃ e, f x = .error e := by
  induction l with
  | nil => rw [List.mapM_nil]; simp [pure, Except.pure]
  | cons a l ih =>
    rw [List.mapM_cons]
    cases ha : f a with
    | error e => simp [bind, Except.bind, ha]
    | ok y =>
      cases hl : l.mapM f with
      | error e =>
        have := ih.1 ⟨e, hl⟩
        obtain ⟨x, hx, e', he'⟩ := this
        simp only [bind, Except.bind]
        refine ⟨fun _ => ⟨x, by simp [hx], e', he'⟩, fun _ => ⟨e, rfl⟩⟩
      | ok ys =>
        simp only [bind, Except.bind, pure, Except.pure]
        constructor
        · rintro ⟨e, he⟩; cases he
        · rintro ⟨x, hx, e, he⟩
          rcases List.mem_cons.1 hx with rfl | hx
          · rw [ha] at he; cases he
          · have := ih.2 ⟨x, hx, e, he⟩
            rw [hl] at this; obtain ⟨_, h⟩ := this; cases h

theorem analysisB_valid {s : ScipyTests} {test : String} {nSamples : ℤ} {shuffle : List ℕ → List ℕ} {nonevent event : List ℕ}
    {nSpecials : ℕ} {others : Bool} {iv hhiN : ℝ} {ne e : List ℕ} (ht : TableB nonevent event nSpecials others ne e)
    (h1 : test = "chi2" ∨ test = "fisher") (h2 : 0 < nSamples) :
    analysisB s test nSamples shuffle nonevent event nSpecials others iv hhiN =
      match (if 2 ≤ ne.length then chi2CramerV ne e else .ok (.real 0)) with
      | .error e => .error e
      | .ok v =>
        match (List.range (ne.length - 1)).mapM (pairTestB s test nSamples.toNat shuffle ne e) with
        | .error e => .error e
        | .ok tests => .ok ⟨v, tests, qualityFlt iv (tests.map PairTest.pvalue) hhiN⟩ := by
  obtain ⟨a, b, c⟩ := ht.metric
  unfold analysisB
  rw [if_neg (by tauto), if_neg (by omega)]
  simp only [a, b, c]
  rfl

theorem analysisB_ok {s : ScipyTests} {test : String} {nSamples : ℤ} {shuffle : List ℕ → List ℕ} {nonevent event : List ℕ}
    {nSpecials : ℕ} {others : Bool} {iv hhiN : ℝ} {ne e : List ℕ} (ht : TableB nonevent event nSpecials others ne e) {r : AnalysisB}
    (h : analysisB s test nSamples shuffle nonevent event nSpecials others iv hhiN = .ok r) :
    ((test = "chi2" ∨ test = "fisher") ∧ 0 < nSamples) ∧
    (if 2 ≤ ne.length then chi2CramerV ne e else .ok (.real 0)) = .ok r.cramer ∧
    (List.range (ne.length - 1)).mapM (pairTestB s test nSamples.toNat shuffle ne e) = .ok r.tests ∧
    r.quality = qualityFlt iv (r.tests.map PairTest.pvalue) hhiN := by
  have hv : (test = "chi2" ∨ test = "fisher") ∧ 0 < nSamples := by
    unfold analysisB at h
    split_ifs at h with a b
    exact ⟨by tauto, by omega⟩
  rw [analysisB_valid ht hv.1 hv.2] at h
  refine ⟨hv, ?_⟩
  split at h
  · cases h
  · rename_i v hv
    split at h
    · cases h
    · rename_i tests hts
      injection h with h
      subst h
      exact ⟨hv, hts, rfl⟩

theorem pairTestB_error_iff {s : ScipyTests} {test : String} {n : ℕ} {shuffle : List ℕ → List ℕ} {ne e : List ℕ} {i : ℕ} :
    (∃ m, pairTestB s test n shuffle ne e i = .error m) ↔ test = "chi2" ∧
      ∃ m, chi2Contingency (ne.getD i 0) (ne.getD (i + 1) 0) (e.getD i 0) (e.getD (i + 1) 0) = .error m := by
  unfold pairTestB frequentist
  by_cases ht : test = "chi2"
  · simp only [ht, if_true, true_and]
    cases chi2Contingency (ne.getD i 0) (ne.getD (i + 1) 0) (e.getD i 0) (e.getD (i + 1) 0) <;> simp
  · simp [ht]

theorem analysisB_error_iff {s : ScipyTests} {test : String} {nSamples : ℤ} {shuffle : List ℕ → List ℕ} {nonevent event : List ℕ}
    {nSpecials : ℕ} {others : Bool} {iv hhiN : ℝ} {ne e : List ℕ} (ht : TableB nonevent event nSpecials others ne e)
    (h1 : test = "chi2" ∨ test = "fisher") (h2 : 0 < nSamples) :
    (∃ m, analysisB s test nSamples shuffle nonevent event nSpecials others iv hhiN = .error m) ↔
      (2 ≤ ne.length ∧ ∃ m, chi2CramerV ne e = .error m) ∨
      ∃ i < ne.length - 1, ∃ m, pairTestB s test nSamples.toNat shuffle ne e i = .error m := by
  rw [analysisB_valid ht h1 h2]
  have hp : (∃ i < ne.length - 1, ∃ m, pairTestB s test nSamples.toNat shuffle ne e i = .error m) ↔
      ∃ m, (List.range (ne.length - 1)).mapM (pairTestB s test nSamples.toNat shuffle ne e) = .error m := by
    rw [mapM_error_iff]; simp
  rw [hp]
  by_cases hl : 2 ≤ ne.length
  · simp only [hl, if_true, true_and]
    cases chi2CramerV ne e with
    | error m => simp
    | ok v =>
      cases (List.range (ne.length - 1)).mapM (pairTestB s test nSamples.toNat shuffle ne e) <;> simp
  · simp only [hl, if_false, false_and, false_or]
    cases (List.range (ne.length - 1)).mapM (pairTestB s test nSamples.toNat shuffle ne e) <;> simp

/-- C99: an unknown test or a non-positive number of samples is refused. -/
theorem C99_parameters (s : ScipyTests) (test : String) (nSamples : ℤ) (shuffle : List ℕ → List ℕ) (nonevent event : List ℕ)
    (nSpecials : ℕ) (others : Bool) (iv hhiN : ℝ) (h : (test ≠ "chi2" ∧ test ≠ "fisher") ∨ nSamples ≤ 0) :
    analysisB s test nSamples shuffle nonevent event nSpecials others iv hhiN = .error "ValueError" := by
  unfold analysisB
  by_cases h1 : test ≠ "chi2" ∧ test ≠ "fisher"
  · rw [if_pos h1]
  · rw [if_neg h1, if_pos (h.resolve_left h1)]

/-- C99: with the chi-square test (default) `analysis` fails exactly if, in a table with at least two regular bins and at
least one record in them, a regular bin is empty or two neighbouring regular bins together lack events or non-events. -/
theorem C99_fails (s : ScipyTests) (nSamples : ℤ) (shuffle : List ℕ → List ℕ) (nonevent event : List ℕ)
    (nSpecials : ℕ) (others : Bool) (iv hhiN : ℝ) (ne e : List ℕ) (ht : TableB nonevent event nSpecials others ne e) (hn : 0 < nSamples) :
    (∃ m, analysisB s "chi2" nSamples shuffle nonevent event nSpecials others iv hhiN = .error m) ↔
      2 ≤ ne.length ∧ ne.sum + e.sum ≠ 0 ∧ ((∃ i < ne.length, ne.getD i 0 = 0 ∧ e.getD i 0 = 0) ∨
        ∃ i, i + 1 < ne.length ∧ ((ne.getD i 0 = 0 ∧ ne.getD (i + 1) 0 = 0) ∨ (e.getD i 0 = 0 ∧ e.getD (i + 1) 0 = 0))) := by
  rw [analysisB_error_iff ht (Or.inl rfl) hn]
  simp only [pairTestB_error_iff, true_and, chi2_error_iff, chi2CramerV_error_iff ht.same]
  constructor
  · rintro (⟨h1, h2, ⟨i, hi, h3⟩ | h3 | h3⟩ | ⟨i, hi, h1, h2⟩)
    · exact ⟨h1, h2, Or.inl ⟨i, hi, by omega⟩⟩
    · exact ⟨h1, h2, Or.inr ⟨0, by omega, Or.inl ⟨sum_zero_getD h3 _, sum_zero_getD h3 _⟩⟩⟩
    · exact ⟨h1, h2, Or.inr ⟨0, by omega, Or.inr ⟨sum_zero_getD h3 _, sum_zero_getD h3 _⟩⟩⟩
    · have q1 := getD_le_sum ne i
      have q2 := getD_le_sum ne (i + 1)
      have q3 := getD_le_sum e i
      have q4 := getD_le_sum e (i + 1)
      refine ⟨by omega, by omega, ?_⟩
      rcases h2 with h2 | h2 | h2 | h2
      · exact Or.inr ⟨i, by omega, Or.inl (by omega)⟩
      · exact Or.inr ⟨i, by omega, Or.inr (by omega)⟩
      · exact Or.inl ⟨i, by omega, by omega⟩
      · exact Or.inl ⟨i + 1, by omega, by omega⟩
  · rintro ⟨h1, h2, ⟨i, hi, h3⟩ | ⟨i, hi, h3⟩⟩
    · exact Or.inl ⟨h1, h2, Or.inl ⟨i, hi, by omega⟩⟩
    · by_cases h4 : ne.getD i 0 + e.getD i 0 = 0
      · exact Or.inl ⟨h1, h2, Or.inl ⟨i, by omega, h4⟩⟩
      · exact Or.inr ⟨i, by omega, by omega, by omega⟩

/-- C99: with Fisher's test it fails exactly if a regular bin is empty or the regular bins lack events or non-events. -/
theorem C99_fails_fisher (s : ScipyTests) (nSamples : ℤ) (shuffle : List ℕ → List ℕ) (nonevent event : List ℕ)
    (nSpecials : ℕ) (others : Bool) (iv hhiN : ℝ) (ne e : List ℕ) (ht : TableB nonevent event nSpecials others ne e) (hn : 0 < nSamples) :
    (∃ m, analysisB s "fisher" nSamples shuffle nonevent event nSpecials others iv hhiN = .error m) ↔
      2 ≤ ne.length ∧ ne.sum + e.sum ≠ 0 ∧
        ((∃ i < ne.length, ne.getD i 0 + e.getD i 0 = 0) ∨ ne.sum = 0 ∨ e.sum = 0) := by
  rw [analysisB_error_iff ht (Or.inr rfl) hn]
  simp only [pairTestB_error_iff, chi2CramerV_error_iff ht.same]
  simp

theorem contingency_zSquared (a b c d : ℕ) (h : 0 < a + b ∧ 0 < c + d ∧ 0 < a + c ∧ 0 < b + d) :
    ((a + b + c + d : ℕ) : ℚ) * ((a : ℚ) * d - (b : ℚ) * c) ^ 2 /
        (((a + b : ℕ) : ℚ) * ((c + d : ℕ) : ℚ) * ((a + c : ℕ) : ℚ) * ((b + d : ℕ) : ℚ)) = zSquared c a d b := by
  obtain ⟨h1, h2, h3, h4⟩ := h
  unfold zSquared rateOf
  have q1 : ((c : ℚ) + a) ≠ 0 := by have : c + a ≠ 0 := by omega
                                    exact_mod_cast this
  have q2 : ((d : ℚ) + b) ≠ 0 := by have : d + b ≠ 0 := by omega
                                    exact_mod_cast this
  have q3 : ((c : ℚ) + d) ≠ 0 := by exact_mod_cast h2.ne'
  have q4 : ((a : ℚ) + b) ≠ 0 := by exact_mod_cast h1.ne'
  have q5 : ((c : ℚ) + d + (a + b)) ≠ 0 := by
    have : c + d + (a + b) ≠ 0 := by omega
    exact_mod_cast this
  have q6 : ((a : ℚ) + c) ≠ 0 := by rw [add_comm]; exact q1
  have q7 : ((b : ℚ) + d) ≠ 0 := by rw [add_comm]; exact q2
  push_cast
  have e1 : 1 - ((c : ℚ) + d) / (c + d + (a + b)) = (a + b) / (c + d + (a + b)) := by field_simp; ring
  have e2 : (1 : ℚ) / (c + a) + 1 / (d + b) = (c + d + (a + b)) / ((c + a) * (d + b)) := by field_simp; ring
  rw [e1, e2]
  field_simp
  ring

theorem rate_lt_one {c a : ℕ} (h : 0 < c + a) : (rateOf c a < 1 ↔ 0 < a) ∧ (0 < rateOf c a ↔ 0 < c) := by
  have q : (0 : ℚ) < (c : ℚ) + a := by exact_mod_cast h
  unfold rateOf
  rw [div_lt_one q, div_pos_iff_of_pos_right q]
  constructor
  · constructor
    · intro h; have : (0 : ℚ) < a := by linarith
      exact_mod_cast this
    · intro h; have : (0 : ℚ) < a := by exact_mod_cast h
      linarith
  · exact Nat.cast_pos

theorem zSquared_nonneg {e₁ ne₁ e₂ ne₂ : ℕ} : 0 ≤ zSquared e₁ ne₁ e₂ ne₂ := by
  unfold zSquared
  simp only
  have h : 0 ≤ 1 - rateOf (e₁ + e₂) (ne₁ + ne₂) := by
    unfold rateOf
    rw [sub_nonneg]
    refine div_le_one_of_le₀ ?_ (by positivity)
    have : (0 : ℚ) ≤ ((ne₁ + ne₂ : ℕ) : ℚ) := Nat.cast_nonneg _
    linarith
  have h' : 0 ≤ rateOf (e₁ + e₂) (ne₁ + ne₂) := by unfold rateOf; positivity
  positivity

theorem zSquared_zero_iff {e₁ ne₁ e₂ ne₂ : ℕ} (h : 0 < ne₁ + ne₂ ∧ 0 < e₁ + e₂ ∧ 0 < ne₁ + e₁ ∧ 0 < ne₂ + e₂) :
    zSquared e₁ ne₁ e₂ ne₂ = 0 ↔ rateOf e₁ ne₁ = rateOf e₂ ne₂ := by
  obtain ⟨h1, h2, h3, h4⟩ := h
  unfold zSquared
  simp only
  have q := rate_lt_one (c := e₁ + e₂) (a := ne₁ + ne₂) (by omega)
  have qa := q.1.2 h1
  have qb := q.2.2 h2
  have r1 : (0 : ℚ) < (e₁ : ℚ) + ne₁ := by have : 0 < e₁ + ne₁ := by omega
                                           exact_mod_cast this
  have r2 : (0 : ℚ) < (e₂ : ℚ) + ne₂ := by have : 0 < e₂ + ne₂ := by omega
                                           exact_mod_cast this
  have q' : 0 < 1 - rateOf (e₁ + e₂) (ne₁ + ne₂) := by linarith
  have hd : rateOf (e₁ + e₂) (ne₁ + ne₂) * (1 - rateOf (e₁ + e₂) (ne₁ + ne₂)) *
      (1 / ((e₁ : ℚ) + ne₁) + 1 / ((e₂ : ℚ) + ne₂)) ≠ 0 := by positivity
  rw [div_eq_zero_iff]
  simp only [hd, or_false]
  rw [pow_eq_zero_iff (by norm_num), sub_eq_zero]

theorem pairTestB_chi2 {s : ScipyTests} {n : ℕ} {shuffle : List ℕ → List ℕ} {ne e : List ℕ} {i : ℕ} {t : PairTest}
    (h : pairTestB s "chi2" n shuffle ne e i = .ok t) :
    (t.binA = i ∧ t.binB = i + 1 ∧ t.ba = 1 - t.ab ∧
      t.ab = bayesian s n shuffle (ne.getD i 0) (ne.getD (i + 1) 0) (e.getD i 0) (e.getD (i + 1) 0)) ∧
    ((ne.getD i 0 + e.getD i 0 = 0 ∧ ne.getD (i + 1) 0 + e.getD (i + 1) 0 = 0 ∧ t.statistic = .nan ∧ t.pvalue = .nan) ∨
     ((0 < ne.getD i 0 + ne.getD (i + 1) 0 ∧ 0 < e.getD i 0 + e.getD (i + 1) 0 ∧ 0 < ne.getD i 0 + e.getD i 0 ∧
        0 < ne.getD (i + 1) 0 + e.getD (i + 1) 0) ∧
      t.statistic = .real (zSquared (e.getD i 0) (ne.getD i 0) (e.getD (i + 1) 0) (ne.getD (i + 1) 0) : ℚ) ∧
      t.pvalue = .real (s.sf 1 (zSquared (e.getD i 0) (ne.getD i 0) (e.getD (i + 1) 0) (ne.getD (i + 1) 0))))) := by
  unfold pairTestB frequentist at h
  simp only [if_true] at h
  cases hc : chi2Contingency (ne.getD i 0) (ne.getD (i + 1) 0) (e.getD i 0) (e.getD (i + 1) 0) with
  | error m => rw [hc] at h; cases h
  | ok x =>
    rw [hc] at h
    simp only [Except.ok.injEq] at h
    subst h
    refine ⟨⟨rfl, rfl, rfl, rfl⟩, ?_⟩
    rcases chi2_ok hc with ⟨h1, h2⟩ | ⟨h1, h2⟩
    · subst h2; left; exact ⟨by omega, by omega, rfl, rfl⟩
    · right
      rw [contingency_zSquared _ _ _ _ h1] at h2
      subst h2
      exact ⟨h1, rfl, rfl⟩

/-- C99: the tests compare each regular bin with the next one and no others; the statistic is the square of the z
statistic of the test of equal proportions, and the two Bayesian probabilities add up to one. -/
theorem C99_pairs (s : ScipyTests) (nSamples : ℤ) (shuffle : List ℕ → List ℕ) (nonevent event : List ℕ)
    (nSpecials : ℕ) (others : Bool) (iv hhiN : ℝ) (ne e : List ℕ) (ht : TableB nonevent event nSpecials others ne e) (r : AnalysisB)
    (h : analysisB s "chi2" nSamples shuffle nonevent event nSpecials others iv hhiN = .ok r) :
    r.tests.length + 1 = ne.length ∧ ∀ i, i + 1 < ne.length → ∃ t, r.tests[i]? = some t ∧ t.binA = i ∧ t.binB = i + 1 ∧ t.ab + t.ba = 1 ∧
      ((ne.getD i 0 + e.getD i 0 = 0 ∧ ne.getD (i + 1) 0 + e.getD (i + 1) 0 = 0 ∧ t.statistic = .nan ∧ t.pvalue = .nan) ∨
       (0 < ne.getD i 0 + e.getD i 0 ∧ 0 < ne.getD (i + 1) 0 + e.getD (i + 1) 0 ∧ ∃ z : ℚ,
         z = zSquared (e.getD i 0) (ne.getD i 0) (e.getD (i + 1) 0) (ne.getD (i + 1) 0) ∧ 0 ≤ z ∧
         (z = 0 ↔ rateOf (e.getD i 0) (ne.getD i 0) = rateOf (e.getD (i + 1) 0) (ne.getD (i + 1) 0)) ∧
         t.statistic = .real (z : ℝ) ∧ t.pvalue = .real (s.sf 1 z))) := by
  obtain ⟨-, -, hm, -⟩ := analysisB_ok ht h
  have hf := mapM_except_forall₂ _ _ hm
  have hlen := hf.length_eq
  have hpos : 0 < ne.length := List.length_pos_iff.mpr ht.nonempty
  rw [List.length_range] at hlen
  refine ⟨by omega, fun i hi => ?_⟩
  have hi' : i < r.tests.length := by omega
  refine ⟨r.tests[i], List.getElem?_eq_getElem hi', ?_⟩
  have hp : pairTestB s "chi2" nSamples.toNat shuffle ne e i = .ok r.tests[i] := by
    have := hf.get (i := i) (by rw [List.length_range]; omega) hi'
    simpa using this
  obtain ⟨⟨a, b, c, -⟩, d⟩ := pairTestB_chi2 hp
  refine ⟨a, b, by rw [c]; ring, ?_⟩
  rcases d with d | ⟨d1, d2, d3⟩
  · exact Or.inl d
  · exact Or.inr ⟨d1.2.2.1, d1.2.2.2, _, rfl, zSquared_nonneg, zSquared_zero_iff d1, d2, d3⟩

/-- C99 with Fisher's exact test: same pairs, the odds ratio and p-value of the four counts. -/
theorem C99_pairs_fisher (s : ScipyTests) (nSamples : ℤ) (shuffle : List ℕ → List ℕ) (nonevent event : List ℕ)
    (nSpecials : ℕ) (others : Bool) (iv hhiN : ℝ) (ne e : List ℕ) (ht : TableB nonevent event nSpecials others ne e) (r : AnalysisB)
    (h : analysisB s "fisher" nSamples shuffle nonevent event nSpecials others iv hhiN = .ok r) :
    r.tests.length + 1 = ne.length ∧ ∀ i, i + 1 < ne.length → ∃ t, r.tests[i]? = some t ∧ t.binA = i ∧ t.binB = i + 1 ∧ t.ab + t.ba = 1 ∧
      (t.statistic, t.pvalue) = s.fisher (ne.getD i 0) (ne.getD (i + 1) 0) (e.getD i 0) (e.getD (i + 1) 0) := by
  obtain ⟨-, -, hm, -⟩ := analysisB_ok ht h
  have hf := mapM_except_forall₂ _ _ hm
  have hlen := hf.length_eq
  have hpos : 0 < ne.length := List.length_pos_iff.mpr ht.nonempty
  rw [List.length_range] at hlen
  refine ⟨by omega, fun i hi => ?_⟩
  have hi' : i < r.tests.length := by omega
  refine ⟨r.tests[i], List.getElem?_eq_getElem hi', ?_⟩
  have hp : pairTestB s "fisher" nSamples.toNat shuffle ne e i = .ok r.tests[i] := by
    have := hf.get (i := i) (by rw [List.length_range]; omega) hi'
    simpa using this
  unfold pairTestB frequentist at hp
  simp at hp
  rw [← hp]
  exact ⟨rfl, rfl, by simp, rfl⟩

/-- C99: the Bayesian probabilities do not depend on the random shuffle. -/
theorem C99_bayesian_deterministic (s : ScipyTests) (n : ℕ) (sh sh' : List ℕ → List ℕ) (hs : ∀ l, (sh l).Perm l) (hs' : ∀ l, (sh' l).Perm l)
    (aA aB bA bB : ℕ) : bayesian s n sh aA aB bA bB = bayesian s n sh' aA aB bA bB := by
  unfold bayesian
  simp only
  congr 1
  refine List.Perm.sum_eq (List.Perm.map _ (List.Perm.map _ ?_))
  exact (hs _).trans (hs' _).symm

/-- C99: they are probabilities. -/
theorem C99_bayesian_range (s : ScipyTests) (n : ℕ) (hn : 0 < n) (sh : List ℕ → List ℕ) (hs : ∀ l, (sh l).Perm l) (aA aB bA bB : ℕ)
    (hb : ∀ x, 0 ≤ s.betainc aA bA x ∧ s.betainc aA bA x ≤ 1) :
    0 ≤ bayesian s n sh aA aB bA bB ∧ bayesian s n sh aA aB bA bB ≤ 1 := by
  have hq : (0 : ℝ) < (n : ℝ) := by exact_mod_cast hn
  have key : ∀ l : List ℝ, (∀ x ∈ l, 0 ≤ x ∧ x ≤ 1) → 0 ≤ l.sum ∧ l.sum ≤ (l.length : ℝ) := by
    intro l hl
    induction l with
    | nil => simp
    | cons a l ih =>
      obtain ⟨h1, h2⟩ := ih fun x hx => hl x (by simp [hx])
      obtain ⟨h3, h4⟩ := hl a (by simp)
      rw [List.sum_cons, List.length_cons]; push_cast
      constructor <;> linarith
  unfold bayesian
  simp only
  have hk := key _ (show ∀ x ∈ (((sh (List.range' 1 n)).map fun (r : ℕ) => ((r : ℝ) - 0.5) / (n : ℝ)).map fun x =>
      s.betainc aA bA (s.betappf aB bB x)), 0 ≤ x ∧ x ≤ 1 by
    intro x hx
    obtain ⟨y, -, rfl⟩ := List.mem_map.1 hx
    exact hb _)
  rw [List.length_map, List.length_map, (hs _).length_eq, List.length_range'] at hk
  exact ⟨div_nonneg hk.1 hq.le, (div_le_one hq).2 hk.2⟩

/-- C99: for two bins with the same counts the probability is one half. -/
theorem C99_bayesian_half (s : ScipyTests) (n : ℕ) (hn : 0 < n) (sh : List ℕ → List ℕ) (hs : ∀ l, (sh l).Perm l) (a b : ℕ)
    (hb : ∀ x, 0 < x → x < 1 → s.betainc a b (s.betappf a b x) = x) : bayesian s n sh a a b b = 1 / 2 := by
  have hq : (0 : ℝ) < (n : ℝ) := by exact_mod_cast hn
  have e0 : bayesian s n sh a a b b = bayesian s n id a a b b := C99_bayesian_deterministic s n sh id hs (fun _ => List.Perm.refl _) a a b b
  rw [e0]
  unfold bayesian
  simp only [id, List.map_map]
  have e1 : (List.range' 1 n).map ((fun x => s.betainc a b (s.betappf a b x)) ∘ fun (r : ℕ) => ((r : ℝ) - 0.5) / (n : ℝ)) =
      (List.range' 1 n).map fun (r : ℕ) => ((r : ℝ) - 0.5) / (n : ℝ) := by
    refine List.map_congr_left fun r hr => ?_
    rw [List.mem_range'_1] at hr
    have h1 : (1 : ℝ) ≤ r := by exact_mod_cast hr.1
    have h2 : (r : ℝ) ≤ n := by have : r ≤ n := by omega
                                exact_mod_cast this
    refine hb _ (div_pos (by linarith) hq) ?_
    rw [div_lt_one hq]; linarith
  rw [e1]
  have e2 : ∀ k : ℕ, ((List.range' 1 k).map fun (r : ℕ) => ((r : ℝ) - 0.5) / (n : ℝ)).sum = (k : ℝ) ^ 2 / (2 * n) := by
    intro k
    induction k with
    | zero => simp
    | succ k ih =>
      rw [List.range'_concat, List.map_append, List.sum_append, ih]
      simp only [List.map_cons, List.map_nil, List.sum_cons, List.sum_nil]
      push_cast
      field_simp
      ring
  rw [e2]
  field_simp

end OptBinning
