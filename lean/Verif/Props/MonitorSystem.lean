import Verif.Model.MonitorSystem
import Verif.Spec.MonitorSystem
import Verif.Props.Monitoring
import Verif.Lemmas.ProcessTransform
import Mathlib.Tactic.FieldSimp
import Mathlib.Tactic.Ring
import Mathlib.Tactic.LinearCombination

/-! # C96, C98: the tables of `ScorecardMonitoring` and the object across fits -/
namespace OptBinning
open Spec (actual expected InLeftOpen inScoreBin eventCount noneventCount eventRateOf proportionStatistic avg msd InLabel)

/-! ### chi-square statistic of two samples -/

theorem chi2_div_zero_iff {r s n : ℕ} (hn : n ≠ 0) : (r : ℚ) * (s : ℚ) / (n : ℚ) = 0 ↔ r = 0 ∨ s = 0 := by
  have : (n : ℚ) ≠ 0 := by exact_mod_cast hn
  rw [div_eq_zero_iff]; simp [this]

theorem chi2_error_iff (a b c d : ℕ) : (∃ m, chi2Contingency a b c d = .error m) ↔
    a + b + c + d ≠ 0 ∧ (a + b = 0 ∨ c + d = 0 ∨ a + c = 0 ∨ b + d = 0) := by
  unfold chi2Contingency
  simp only
  by_cases hn : a + b + c + d = 0
  · simp only [hn, if_true]; simp
  · rw [if_neg hn]
    simp only [chi2_div_zero_iff hn]
    split_ifs with h
    · simp only [Except.error.injEq, exists_eq', true_iff]; exact ⟨hn, by tauto⟩
    · simp only [reduceCtorEq, exists_false, false_iff]; tauto

theorem chi2_error_value {a b c d : ℕ} {m : String} (h : chi2Contingency a b c d = .error m) : m = "ValueError" := by
  unfold chi2Contingency at h
  simp only at h
  split_ifs at h <;> simp_all

theorem chi2_ok {a b c d : ℕ} {x : XQ} (h : chi2Contingency a b c d = .ok x) :
    (a + b + c + d = 0 ∧ x = .nan) ∨ ((0 < a + b ∧ 0 < c + d ∧ 0 < a + c ∧ 0 < b + d) ∧
      x = .num (((a + b + c + d : ℕ) : ℚ) * ((a : ℚ) * d - (b : ℚ) * c) ^ 2 /
        (((a + b : ℕ) : ℚ) * ((c + d : ℕ) : ℚ) * ((a + c : ℕ) : ℚ) * ((b + d : ℕ) : ℚ)))) := by
  unfold chi2Contingency at h
  simp only at h
  by_cases hn : a + b + c + d = 0
  · rw [if_pos hn] at h; left; exact ⟨hn, by injection h with h; exact h.symm⟩
  · rw [if_neg hn] at h
    simp only [chi2_div_zero_iff hn] at h
    split_ifs at h with hc
    injection h with h
    right
    push Not at hc
    obtain ⟨⟨h1, h2⟩, ⟨-, h4⟩, ⟨h3, -⟩, -⟩ := hc
    refine ⟨⟨by omega, by omega, by omega, by omega⟩, ?_⟩
    rw [← h]
    congr 1
    have q1 : ((a + b : ℕ) : ℚ) ≠ 0 := by exact_mod_cast h1
    have q2 : ((a + c : ℕ) : ℚ) ≠ 0 := by exact_mod_cast h2
    have q3 : ((c + d : ℕ) : ℚ) ≠ 0 := by exact_mod_cast h3
    have q4 : ((b + d : ℕ) : ℚ) ≠ 0 := by exact_mod_cast h4
    have qn : ((a + b + c + d : ℕ) : ℚ) ≠ 0 := by exact_mod_cast hn
    push_cast at *
    field_simp
    ring

variable {α : Type} [LinearOrder α]

theorem filter_bin {β : Type} (splits : List α) (hs : splits.Pairwise (· ≤ ·)) (recs : List (α × β)) (i : ℕ) :
    (recs.filter fun r => digitize true splits (some r.1) == i) = inScoreBin splits i recs := by
  classical
  unfold inScoreBin
  apply List.filter_congr
  intro r _
  rw [Bool.eq_iff_iff, beq_iff_eq, inLeftOpen_iff hs, decide_eq_true_iff]

theorem scoreCounts_get (splits : List α) (hs : splits.Pairwise (· ≤ ·)) (recs : List (α × Bool)) :
    scoreCounts splits recs = (List.range (splits.length + 1)).map fun i =>
      (noneventCount (inScoreBin splits i recs), eventCount (inScoreBin splits i recs)) := by
  unfold scoreCounts
  apply List.map_congr_left
  intro i _
  unfold noneventCount eventCount
  rw [← filter_bin splits hs, List.filter_filter, List.filter_filter]

omit [LinearOrder α] in
theorem counts_add (recs : List (α × Bool)) : noneventCount recs + eventCount recs = recs.length := by
  unfold noneventCount eventCount
  induction recs with
  | nil => rfl
  | cons r recs ih => rcases hb : r.2 <;> simp [hb] <;> omega

omit [LinearOrder α] in
theorem eventCount_append (a b : List (α × Bool)) : eventCount (a ++ b) = eventCount a + eventCount b := by
  simp [eventCount]

omit [LinearOrder α] in
theorem noneventCount_append (a b : List (α × Bool)) : noneventCount (a ++ b) = noneventCount a + noneventCount b := by
  simp [noneventCount]

theorem monitor_rate_eq (recs : List (α × Bool)) :
    XQ.div (eventCount recs : ℚ) ((noneventCount recs + eventCount recs : ℕ) : ℚ) =
      if recs = [] then .nan else .num (eventRateOf recs) := by
  rw [counts_add]
  unfold XQ.div
  by_cases h : recs = []
  · subst h; simp [eventCount]
  · have : ((recs.length : ℕ) : ℚ) ≠ 0 := by simpa using h
    rw [if_neg this, if_neg h]; rfl

/-- The two forms of the statistic agree. -/
theorem proportion_form (A E : List (α × Bool)) (hA : A ≠ []) (hE : E ≠ []) (he : 0 < eventCount (A ++ E)) (hn : 0 < noneventCount (A ++ E)) :
    ((noneventCount A + noneventCount E + eventCount A + eventCount E : ℕ) : ℚ) *
        ((noneventCount A : ℚ) * eventCount E - (noneventCount E : ℚ) * eventCount A) ^ 2 /
        (((noneventCount A + noneventCount E : ℕ) : ℚ) * ((eventCount A + eventCount E : ℕ) : ℚ) *
          ((noneventCount A + eventCount A : ℕ) : ℚ) * ((noneventCount E + eventCount E : ℕ) : ℚ)) =
      proportionStatistic A E := by
  rw [eventCount_append] at he
  rw [noneventCount_append] at hn
  unfold proportionStatistic eventRateOf
  simp only [eventCount_append, List.length_append, ← counts_add]
  have lA : 0 < noneventCount A + eventCount A := by rw [counts_add]; exact List.length_pos_iff.mpr hA
  have lE : 0 < noneventCount E + eventCount E := by rw [counts_add]; exact List.length_pos_iff.mpr hE
  generalize noneventCount A = a at *
  generalize eventCount A = c at *
  generalize noneventCount E = b at *
  generalize eventCount E = d at *
  have q1 : ((a : ℚ) + c) ≠ 0 := by exact_mod_cast lA.ne'
  have q2 : ((b : ℚ) + d) ≠ 0 := by exact_mod_cast lE.ne'
  have q3 : ((c : ℚ) + d) ≠ 0 := by exact_mod_cast he.ne'
  have q4 : ((a : ℚ) + b) ≠ 0 := by exact_mod_cast hn.ne'
  have q5 : ((a : ℚ) + c + (b + d)) ≠ 0 := by
    have : a + c + (b + d) ≠ 0 := by omega
    exact_mod_cast this
  push_cast
  have e1 : 1 - ((c : ℚ) + d) / (a + c + (b + d)) = (a + b) / (a + c + (b + d)) := by field_simp; ring
  have e2 : (1 : ℚ) / (a + c) + 1 / (b + d) = (a + c + (b + d)) / ((a + c) * (b + d)) := by field_simp; ring
  rw [e1, e2]
  field_simp
  ring

theorem testsBinary_eq (splits : List α) (hs : splits.Pairwise (· ≤ ·)) (act exp : List (α × Bool)) :
    testsBinary splits act exp = (List.range (splits.length + 1)).mapM fun i =>
      testRow (noneventCount (inScoreBin splits i act), eventCount (inScoreBin splits i act))
        (noneventCount (inScoreBin splits i exp), eventCount (inScoreBin splits i exp)) := by
  unfold testsBinary
  rw [scoreCounts_get splits hs, scoreCounts_get splits hs, List.zip_map', List.mapM_map]
  rfl

/-- C96: the rows of the table of significance tests.  Row `i` is about the records of the two samples whose score lies in
the `i`-th score interval: it holds how many there are, the event rate in either sample (NaN without records) and the
squared statistic of the two-sample test for equal event rates (NaN if no sample has a record there). -/
theorem C96_tests_rows (splits : List α) (hs : splits.Pairwise (· ≤ ·)) (act exp : List (α × Bool)) (rows : List TestRow)
    (h : testsBinary splits act exp = .ok rows) :
    rows.length = splits.length + 1 ∧ ∀ (i : ℕ) r, rows[i]? = some r →
      r.countA = (inScoreBin splits i act).length ∧ r.countE = (inScoreBin splits i exp).length ∧
      r.rateA = (if inScoreBin splits i act = [] then .nan else .num (eventRateOf (inScoreBin splits i act))) ∧
      r.rateE = (if inScoreBin splits i exp = [] then .nan else .num (eventRateOf (inScoreBin splits i exp))) ∧
      r.statistic = (if inScoreBin splits i act ++ inScoreBin splits i exp = [] then .nan
        else .num (proportionStatistic (inScoreBin splits i act) (inScoreBin splits i exp))) := by
  rw [testsBinary_eq splits hs] at h
  have hf := mapM_except_forall₂ _ _ h
  refine ⟨by have := hf.length_eq; simpa using this.symm, fun i r hr => ?_⟩
  rw [List.forall₂_iff_get] at hf
  obtain ⟨hl, hg⟩ := hf
  obtain ⟨hi, rfl⟩ := List.getElem?_eq_some_iff.1 hr
  have := hg i (by simpa [hl] using hi) hi
  simp only [List.get_eq_getElem, List.getElem_range] at this
  unfold testRow at this
  generalize inScoreBin splits i act = A at *
  generalize inScoreBin splits i exp = E at *
  split at this
  · simp at this
  · rename_i s hx
    injection this with this
    rw [← this]
    refine ⟨counts_add A, counts_add E, monitor_rate_eq A, monitor_rate_eq E, ?_⟩
    rcases chi2_ok hx with ⟨h0, rfl⟩ | ⟨⟨h1, h2, h3, h4⟩, rfl⟩
    · have cA := counts_add A
      have cE := counts_add E
      have a0 : A = [] := List.length_eq_zero_iff.1 (by omega)
      have e0 : E = [] := List.length_eq_zero_iff.1 (by omega)
      simp [a0, e0]
    · have hA : A ≠ [] := by
        rintro rfl; simp [noneventCount, eventCount] at h3
      have hE : E ≠ [] := by
        rintro rfl; simp [noneventCount, eventCount] at h4
      rw [if_neg (by simp [hA])]
      rw [proportion_form A E hA hE (by rw [eventCount_append]; exact h2) (by rw [noneventCount_append]; exact h1)]

/-- C96, finding: the tests — and with them the whole `fit` — raise a ValueError exactly if there is a score interval with
records in only one of the samples, or with records of both but no event, or no non-event, among all of them. -/
theorem C96_tests_fail (splits : List α) (hs : splits.Pairwise (· ≤ ·)) (act exp : List (α × Bool)) :
    testsBinary splits act exp = .error "ValueError" ↔ ∃ i ≤ splits.length,
      inScoreBin splits i act ++ inScoreBin splits i exp ≠ [] ∧
      (inScoreBin splits i act = [] ∨ inScoreBin splits i exp = [] ∨
        eventCount (inScoreBin splits i act ++ inScoreBin splits i exp) = 0 ∨
        noneventCount (inScoreBin splits i act ++ inScoreBin splits i exp) = 0) := by
  rw [testsBinary_eq splits hs]
  have key : ∀ i, (∃ m, testRow (noneventCount (inScoreBin splits i act), eventCount (inScoreBin splits i act))
        (noneventCount (inScoreBin splits i exp), eventCount (inScoreBin splits i exp)) = .error m) ↔
      inScoreBin splits i act ++ inScoreBin splits i exp ≠ [] ∧
      (inScoreBin splits i act = [] ∨ inScoreBin splits i exp = [] ∨
        eventCount (inScoreBin splits i act ++ inScoreBin splits i exp) = 0 ∨
        noneventCount (inScoreBin splits i act ++ inScoreBin splits i exp) = 0) := by
    intro i
    generalize inScoreBin splits i act = A at *
    generalize inScoreBin splits i exp = E at *
    have : (∃ m, testRow (noneventCount A, eventCount A) (noneventCount E, eventCount E) = .error m) ↔
        ∃ m, chi2Contingency (noneventCount A) (noneventCount E) (eventCount A) (eventCount E) = .error m := by
      unfold testRow
      simp only
      split <;> rename_i hx <;> simp [hx]
    rw [this, chi2_error_iff, eventCount_append, noneventCount_append, ← List.length_pos_iff, List.length_append,
      ← List.length_eq_zero_iff, ← List.length_eq_zero_iff, ← counts_add A, ← counts_add E]
    omega
  have hval : ∀ i m, testRow (noneventCount (inScoreBin splits i act), eventCount (inScoreBin splits i act))
        (noneventCount (inScoreBin splits i exp), eventCount (inScoreBin splits i exp)) = .error m → m = "ValueError" := by
    intro i m h
    unfold testRow at h
    simp only at h
    split at h
    · rename_i hx; injection h with h; subst h; exact chi2_error_value hx
    · simp at h
  have gen : ∀ l : List ℕ, (l.mapM fun i => testRow (noneventCount (inScoreBin splits i act), eventCount (inScoreBin splits i act))
        (noneventCount (inScoreBin splits i exp), eventCount (inScoreBin splits i exp))) = .error "ValueError" ↔
      ∃ i ∈ l, ∃ m, testRow (noneventCount (inScoreBin splits i act), eventCount (inScoreBin splits i act))
        (noneventCount (inScoreBin splits i exp), eventCount (inScoreBin splits i exp)) = .error m := by
    intro l
    induction l with
    | nil => simp [pure, Except.pure]
    | cons x l ih =>
      rw [List.mapM_cons]
      cases hx : testRow (noneventCount (inScoreBin splits x act), eventCount (inScoreBin splits x act))
        (noneventCount (inScoreBin splits x exp), eventCount (inScoreBin splits x exp)) with
      | error m =>
        have := hval x m hx
        subst this
        simp only [bind, Except.bind, true_iff]
        exact ⟨x, by simp, _, hx⟩
      | ok r =>
        simp only [bind, Except.bind]
        constructor
        · intro h
          split at h
          · rename_i hh; rw [h] at hh
            obtain ⟨i, hi, hm⟩ := ih.1 hh
            exact ⟨i, by simp [hi], hm⟩
          · simp [pure, Except.pure] at h
        · rintro ⟨i, hi, m, hm⟩
          rcases List.mem_cons.1 hi with rfl | hi
          · rw [hx] at hm; simp at hm
          · rw [ih.2 ⟨i, hi, m, hm⟩]
  rw [gen]
  constructor
  · rintro ⟨i, hi, hm⟩
    exact ⟨i, by simpa [Nat.lt_succ_iff] using hi, (key i).1 hm⟩
  · rintro ⟨i, hi, hm⟩
    exact ⟨i, by simpa [Nat.lt_succ_iff] using hi, (key i).2 hm⟩

/-- C96: the statistic of a row is not negative, at most the number of records of the two samples in the bin, and zero exactly
if the event rates of the two samples in the bin agree. -/
theorem C96_statistic (splits : List α) (hs : splits.Pairwise (· ≤ ·)) (act exp : List (α × Bool)) (rows : List TestRow)
    (h : testsBinary splits act exp = .ok rows) (r : TestRow) (hr : r ∈ rows) (x : ℚ) (hx : r.statistic = .num x) :
    0 ≤ x ∧ x ≤ ((r.countA + r.countE : ℕ) : ℚ) ∧ (x = 0 ↔ r.rateA = r.rateE) := by
  rw [testsBinary_eq splits hs] at h
  have hf := mapM_except_forall₂ _ _ h
  obtain ⟨i, hi, hrow⟩ : ∃ i ∈ List.range (splits.length + 1),
      testRow (noneventCount (inScoreBin splits i act), eventCount (inScoreBin splits i act))
        (noneventCount (inScoreBin splits i exp), eventCount (inScoreBin splits i exp)) = .ok r := by
    rw [List.forall₂_iff_get] at hf
    obtain ⟨hl, hg⟩ := hf
    obtain ⟨j, hj, rfl⟩ := List.getElem_of_mem hr
    have := hg j (by omega) hj
    exact ⟨_, List.get_mem _ _, this⟩
  unfold testRow at hrow
  generalize noneventCount (inScoreBin splits i act) = a at *
  generalize eventCount (inScoreBin splits i act) = c at *
  generalize noneventCount (inScoreBin splits i exp) = b at *
  generalize eventCount (inScoreBin splits i exp) = d at *
  simp only at hrow
  split at hrow
  · simp at hrow
  · rename_i s hs'
    injection hrow with hrow
    subst hrow
    simp only at hx ⊢
    rcases chi2_ok hs' with ⟨-, h0⟩ | ⟨⟨h1, h2, h3, h4⟩, h5⟩
    · rw [h0] at hx; simp at hx
    · rw [h5] at hx
      injection hx with hx
      have p1 : (0 : ℚ) < ((a + b : ℕ) : ℚ) := by exact_mod_cast h1
      have p2 : (0 : ℚ) < ((c + d : ℕ) : ℚ) := by exact_mod_cast h2
      have p3 : (0 : ℚ) < ((a + c : ℕ) : ℚ) := by exact_mod_cast h3
      have p4 : (0 : ℚ) < ((b + d : ℕ) : ℚ) := by exact_mod_cast h4
      have pD := mul_pos (mul_pos (mul_pos p1 p2) p3) p4
      have pN : (0 : ℚ) < ((a + b + c + d : ℕ) : ℚ) := by
        have : 0 < a + b + c + d := by omega
        exact_mod_cast this
      have na : (0 : ℚ) ≤ a := Nat.cast_nonneg _
      have nb : (0 : ℚ) ≤ b := Nat.cast_nonneg _
      have nc : (0 : ℚ) ≤ c := Nat.cast_nonneg _
      have nd : (0 : ℚ) ≤ d := Nat.cast_nonneg _
      refine ⟨?_, ?_, ?_⟩
      · rw [← hx]; exact div_nonneg (mul_nonneg pN.le (sq_nonneg _)) pD.le
      · rw [← hx, div_le_iff₀ pD]
        have : ((a + c + (b + d) : ℕ) : ℚ) = ((a + b + c + d : ℕ) : ℚ) := by push_cast; ring
        rw [this]
        apply mul_le_mul_of_nonneg_left _ pN.le
        push_cast
        nlinarith [mul_nonneg (mul_nonneg na nb) (mul_nonneg nc nd), mul_nonneg (mul_nonneg na nc) (mul_nonneg nb nb),
          mul_nonneg (mul_nonneg na nc) (mul_nonneg nd nd), mul_nonneg (mul_nonneg na na) (mul_nonneg nb nc),
          mul_nonneg (mul_nonneg na na) (mul_nonneg nb nd), mul_nonneg (mul_nonneg na na) (mul_nonneg nc nd),
          mul_nonneg (mul_nonneg nb nb) (mul_nonneg nc nd), mul_nonneg (mul_nonneg nb nb) (mul_nonneg na nd),
          mul_nonneg (mul_nonneg nc nc) (mul_nonneg na nb), mul_nonneg (mul_nonneg nc nc) (mul_nonneg nb nd),
          mul_nonneg (mul_nonneg nc nc) (mul_nonneg na nd), mul_nonneg (mul_nonneg nd nd) (mul_nonneg na nb),
          mul_nonneg (mul_nonneg nd nd) (mul_nonneg nb nc), mul_nonneg (mul_nonneg nb nb) (mul_nonneg na nc)]
      · rw [← hx]
        have d1 : ((a + c : ℕ) : ℚ) ≠ 0 := p3.ne'
        have d2 : ((b + d : ℕ) : ℚ) ≠ 0 := p4.ne'
        unfold XQ.div
        rw [if_neg d1, if_neg d2, XQ.num.injEq, div_eq_div_iff d1 d2, div_eq_zero_iff, mul_eq_zero, pow_eq_zero_iff (by norm_num)]
        simp only [pN.ne', pD.ne', false_or, or_false]
        push_cast
        constructor
        · intro h; linear_combination -h
        · intro h; linear_combination -h

/-- C96: exchanging the samples exchanges the columns of the table and leaves the statistics as they are. -/
theorem C96_symmetric (splits : List α) (hs : splits.Pairwise (· ≤ ·)) (act exp : List (α × Bool)) (rows : List TestRow)
    (h : testsBinary splits act exp = .ok rows) :
    testsBinary splits exp act = .ok (rows.map fun r => ⟨r.countE, r.countA, r.rateE, r.rateA, r.statistic⟩) := by
  rw [testsBinary_eq splits hs] at h ⊢
  have hsw : ∀ a b c d : ℕ, chi2Contingency b a d c = chi2Contingency a b c d := by
    intro a b c d
    unfold chi2Contingency
    have e1 : a + b + d + c = a + b + c + d := by omega
    have e2 : b + a = a + b := by omega
    have e3 : d + c = c + d := by omega
    simp only [e2, e3, e1]
    by_cases hn : a + b + c + d = 0
    · rw [if_pos hn, if_pos hn]
    · rw [if_neg hn, if_neg hn]
      simp only [chi2_div_zero_iff hn]
      refine if_congr (by tauto) rfl ?_
      congr 2
      ring
  have hrow : ∀ (p q : ℕ × ℕ) r, testRow p q = .ok r →
      testRow q p = .ok ⟨r.countE, r.countA, r.rateE, r.rateA, r.statistic⟩ := by
    intro p q r hr
    unfold testRow at hr ⊢
    rw [hsw]
    split at hr
    · simp at hr
    · injection hr with hr; subst hr; rename_i hx; rfl
  have hf := mapM_except_forall₂ _ _ h
  clear h
  generalize List.range (splits.length + 1) = l at hf ⊢
  induction hf with
  | nil => rfl
  | cons hx _ ih =>
    rw [List.mapM_cons, hrow _ _ _ hx, ih]
    rfl

/-- C96: for a continuous target row `i` holds number, average and mean squared deviation (the square of "Std", with divisor
`n`) of the targets of the records whose score lies in the `i`-th score interval. -/
theorem C96_tests_continuous (splits : List α) (hs : splits.Pairwise (· ≤ ·)) (act exp : List (α × ℚ)) :
    (testsContinuous splits act exp).length = splits.length + 1 ∧
    ∀ (i : ℕ) r, (testsContinuous splits act exp)[i]? = some r →
      r.countA = (inScoreBin splits i act).length ∧ r.countE = (inScoreBin splits i exp).length ∧
      r.meanA = (if inScoreBin splits i act = [] then .nan else .num (avg ((inScoreBin splits i act).map Prod.snd))) ∧
      r.meanE = (if inScoreBin splits i exp = [] then .nan else .num (avg ((inScoreBin splits i exp).map Prod.snd))) ∧
      r.varA = (if inScoreBin splits i act = [] then .nan else .num (msd ((inScoreBin splits i act).map Prod.snd))) ∧
      r.varE = (if inScoreBin splits i exp = [] then .nan else .num (msd ((inScoreBin splits i exp).map Prod.snd))) := by
  unfold testsContinuous
  refine ⟨by simp, fun i r hr => ?_⟩
  rw [List.getElem?_map] at hr
  by_cases hi : i < splits.length + 1
  · rw [List.getElem?_range hi] at hr
    simp only [Option.map_some, Option.some.injEq] at hr
    rw [← hr]
    simp only [filter_bin splits hs, List.length_map, meanXQ, varXQ, List.map_eq_nil_iff, avg, msd, true_and]
  · rw [List.getElem?_eq_none (by simpa using hi)] at hr; simp at hr

/-- C96: the target table of a sample: numbers of records, events and non-events, and their shares, which add up to one. -/
theorem C96_target (splits : List α) (recs : List (α × Bool)) :
    (targetColumn (scoreCounts splits recs)).records = recs.length ∧
    (targetColumn (scoreCounts splits recs)).events = eventCount recs ∧
    (targetColumn (scoreCounts splits recs)).nonevents = noneventCount recs ∧
    (recs ≠ [] → (targetColumn (scoreCounts splits recs)).eventShare = .num (eventRateOf recs) ∧
      (targetColumn (scoreCounts splits recs)).noneventShare = .num ((noneventCount recs : ℚ) / (recs.length : ℚ))) ∧
    (recs = [] → (targetColumn (scoreCounts splits recs)).eventShare = .nan ∧
      (targetColumn (scoreCounts splits recs)).noneventShare = .nan) := by
  have hlt : ∀ r : α × Bool, digitize true splits (some r.1) < splits.length + 1 := fun r =>
    Nat.lt_succ_of_le (digitize_le true splits (some r.1))
  have hne : ((scoreCounts splits recs).map Prod.fst).sum = noneventCount recs := by
    unfold scoreCounts noneventCount
    rw [List.map_map]
    refine (sum_range_filter_length recs (fun r => digitize true splits (some r.1)) _ (fun r => r.2)).trans ?_
    congr 1; apply List.filter_congr; intro r _; simp [hlt r]
  have he : ((scoreCounts splits recs).map Prod.snd).sum = eventCount recs := by
    unfold scoreCounts eventCount
    rw [List.map_map]
    refine (sum_range_filter_length recs (fun r => digitize true splits (some r.1)) _ (fun r => !r.2)).trans ?_
    congr 1; apply List.filter_congr; intro r _; simp [hlt r]
  have hn : ((scoreCounts splits recs).map fun q => q.1 + q.2).sum = recs.length := by
    rw [List.sum_map_add]
    exact (congrArg₂ _ hne he).trans (counts_add recs)
  have hrate : XQ.div (eventCount recs : ℚ) (recs.length : ℚ) = if recs = [] then .nan else .num (eventRateOf recs) := by
    rw [← monitor_rate_eq, counts_add]
  unfold targetColumn
  simp only [hne, he, hn, hrate]
  refine ⟨trivial, trivial, trivial, fun h => ?_, fun h => ?_⟩
  · simp only [h, if_false, true_and, XQ.num.injEq]
    have : (recs.length : ℚ) ≠ 0 := by simpa using h
    unfold eventRateOf
    rw [eq_div_iff this, sub_mul, div_mul_cancel₀ _ this, ← counts_add]
    push_cast; ring
  · simp [h]

/-- C96, finding: the labels of the report name intervals that contain their left end, but a score equal to a split is counted
in the bin on the left of that split: it is reported under a label that excludes it. -/
theorem C96_boundary_label (splits : List α) (hs : splits.Pairwise (· < ·)) (i : ℕ) (hi : i < splits.length) :
    InLeftOpen splits i splits[i] ∧ InLabel splits (i + 1) splits[i] ∧ ¬ InLabel splits i splits[i] := by
  refine ⟨⟨hi.le, ?_, ?_⟩, ⟨hi, ?_, ?_⟩, ?_⟩
  · intro b hb; rw [List.getElem?_eq_getElem hi] at hb; simp at hb; exact hb.le
  · intro j a hj ha
    obtain ⟨h1, rfl⟩ := List.getElem?_eq_some_iff.1 ha
    exact List.pairwise_iff_getElem.1 hs j i h1 hi hj
  · intro b hb
    obtain ⟨h1, rfl⟩ := List.getElem?_eq_some_iff.1 hb
    exact List.pairwise_iff_getElem.1 hs i (i + 1) hi h1 (by omega)
  · intro j a hj ha
    obtain ⟨h1, rfl⟩ := List.getElem?_eq_some_iff.1 ha
    rcases Nat.lt_succ_iff_lt_or_eq.1 hj with h | rfl
    · exact (List.pairwise_iff_getElem.1 hs j i h1 hi h).le
    · exact le_rfl
  · rintro ⟨-, h, -⟩
    exact lt_irrefl _ (h _ (List.getElem?_eq_getElem hi))

/-! ### PSI tables -/

/-- C96: the PSI table: one row per bin with the counts and the shares, which add up to one in either sample; the total is
the sum of the column. -/
theorem C96_psi_table (t : List (ℕ × ℕ)) (rows : List PsiRow) (total : Flt) (h : psiTable t = .ok (rows, total)) :
    rows.map (fun r => (r.countA, r.countE)) = t ∧
    (rows.map PsiRow.shareA).sum = 1 ∧ (rows.map PsiRow.shareE).sum = 1 ∧
    (∀ r ∈ rows, r.shareA = (r.countA : ℝ) / (actual t : ℝ) ∧ r.shareE = (r.countE : ℝ) / (expected t : ℝ) ∧
      r.psi = psiTerm r.shareA r.shareE) ∧
    total = fltSum (rows.map PsiRow.psi) := by
  unfold psiTable psiRows at h
  cases hs : systemPsi t with
  | error m => simp [hs] at h
  | ok p =>
    obtain ⟨l, s⟩ := p
    obtain ⟨ha, he, rfl, rfl⟩ := systemPsi_ok hs
    simp only [hs, Except.ok.injEq, Prod.mk.injEq] at h
    obtain ⟨rfl, rfl⟩ := h
    have hA : (((t.map Prod.fst).sum : ℕ) : ℝ) ≠ 0 := by exact_mod_cast ha
    have hE : (((t.map Prod.snd).sum : ℕ) : ℝ) ≠ 0 := by exact_mod_cast he
    simp only [List.zipWith_map_right, List.zipWith_self, List.map_map, Function.comp_def]
    have hsum : ∀ (f : ℕ × ℕ → ℕ) (m : ℝ), (t.map fun q => (f q : ℝ) / m).sum = (((t.map f).sum : ℕ) : ℝ) / m := by
      intro f m
      induction t with
      | nil => simp
      | cons q t ih =>
        clear ih
        induction (q :: t) with
        | nil => simp
        | cons x l ih => simp only [List.map_cons, List.sum_cons, ih]; push_cast; ring
    refine ⟨by simp, ?_, ?_, ?_, ?_⟩
    · rw [hsum]; exact div_self hA
    · rw [hsum]; exact div_self hE
    · intro r hr
      obtain ⟨q, -, rfl⟩ := List.mem_map.1 hr
      exact ⟨rfl, rfl, rfl⟩
    · trivial

end OptBinning
