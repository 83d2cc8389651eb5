import Verif.Spec.Trend
import Verif.Model.AutoMonotonic
import Mathlib.Tactic.Linarith
import Mathlib.Order.Basic
import Mathlib.Data.Finset.Max

/-! # C29, C30: reported trend and automatic trend selection -/
namespace OptBinning
open Spec (NonDecreasing NonIncreasing StrictlyIncreasing StrictlyDecreasing PeakShaped ValleyShaped Concave Convex)

theorem diffs_cons_cons (a b : ℚ) (l : List ℚ) : diffs (a :: b :: l) = (b - a) :: diffs (b :: l) := rfl

theorem diffs_nonneg_iff (l : List ℚ) : (diffs l).all (fun d => decide (0 ≤ d)) = true ↔ NonDecreasing l := by
  unfold NonDecreasing
  rw [← List.isChain_iff_pairwise]
  induction l with
  | nil => simp [diffs]
  | cons a l ih =>
    cases l with
    | nil => simp [diffs]
    | cons b l => rw [diffs_cons_cons, List.all_cons, Bool.and_eq_true, ih, List.isChain_cons_cons]; simp

theorem diffs_nonpos_iff (l : List ℚ) : (diffs l).all (fun d => decide (d ≤ 0)) = true ↔ NonIncreasing l := by
  unfold NonIncreasing
  rw [← List.isChain_iff_pairwise]
  induction l with
  | nil => simp [diffs]
  | cons a l ih =>
    cases l with
    | nil => simp [diffs]
    | cons b l => rw [diffs_cons_cons, List.all_cons, Bool.and_eq_true, ih, List.isChain_cons_cons]; simp

/-- The signs of the differences. -/
def signs (x : List ℚ) : List SignType := (diffs x).map fun d => SignType.sign d

theorem signs_const {x : List ℚ} (h : nPeaksValleys x = 0) : ∀ s ∈ signs x, ∀ t ∈ signs x, s = t := by
  have h' : (List.zipWith (fun a b => decide (a ≠ b)) (signs x).tail (signs x)).count true = 0 := h
  generalize signs x = s at h'
  rw [List.count_eq_zero] at h'
  have : ∀ t ∈ s, t = s.head?.getD 0 := by
    induction s with
    | nil => simp
    | cons a s ih =>
      cases s with
      | nil => simp
      | cons b s =>
        simp only [List.tail_cons, List.zipWith_cons_cons, List.mem_cons, not_or] at h'
        have hab : b = a := by
          by_contra hne
          exact h'.1 (by simp [hne])
        have ih' := ih (by simpa using h'.2)
        intro t ht
        rcases List.mem_cons.mp ht with rfl | ht
        · simp
        · have := ih' t ht
          simp only [List.head?_cons, Option.getD_some] at this ⊢
          rw [this, hab]
  intro a ha b hb
  rw [this a ha, this b hb]

theorem signs_const_nPeaks {x : List ℚ} (h : ∀ s ∈ signs x, ∀ t ∈ signs x, s = t) : nPeaksValleys x = 0 := by
  show (List.zipWith (fun a b => decide (a ≠ b)) (signs x).tail (signs x)).count true = 0
  generalize signs x = s at h
  rw [List.count_eq_zero]
  intro hmem
  rw [List.mem_iff_getElem] at hmem
  obtain ⟨i, hi, he⟩ := hmem
  rw [List.getElem_zipWith] at he
  simp only [decide_eq_true_eq] at he
  exact he (h _ (List.mem_of_mem_tail (List.getElem_mem _)) _ (List.getElem_mem _))

theorem monotone_of_no_peaks {x : List ℚ} (h : nPeaksValleys x = 0) : NonDecreasing x ∨ NonIncreasing x := by
  have hc := signs_const h
  by_cases hp : ∃ d ∈ diffs x, 0 < d
  · obtain ⟨d, hd, hpos⟩ := hp
    left
    rw [← diffs_nonneg_iff, List.all_eq_true]
    intro e he
    have := hc _ (List.mem_map_of_mem (f := fun d => SignType.sign d) he) _
      (List.mem_map_of_mem (f := fun d => SignType.sign d) hd)
    rw [sign_pos hpos, sign_eq_one_iff] at this
    simpa using this.le
  · push Not at hp
    right
    rw [← diffs_nonpos_iff, List.all_eq_true]
    intro e he
    simpa using hp e he

theorem nonDecreasing_peak {x : List ℚ} (h : NonDecreasing x) : PeakShaped x := by
  refine ⟨x.length - 1, List.Pairwise.sublist (List.take_sublist _ _) h, ?_⟩
  have : (x.drop (x.length - 1)).length ≤ 1 := by rw [List.length_drop]; omega
  match hx : x.drop (x.length - 1), this with
  | [], _ => exact List.Pairwise.nil
  | [a], _ => exact List.pairwise_singleton _ _

theorem nonIncreasing_peak {x : List ℚ} (h : NonIncreasing x) : PeakShaped x := by
  refine ⟨0, ?_, by simpa using h⟩
  cases x with
  | nil => exact List.Pairwise.nil
  | cons a l => simp [NonDecreasing]

theorem argmax_spec {x : List ℚ} (h : x ≠ []) :
    ∃ hlt : argmaxIdx x < x.length, (∀ b ∈ x, b ≤ x[argmaxIdx x]) ∧ ∀ j (hj : j < argmaxIdx x), x[j] < x[argmaxIdx x] := by
  have hex : ∃ a ∈ x, (x.all fun b => decide (b ≤ a)) = true := by
    have hne : x.toFinset.Nonempty := by
      obtain ⟨a, ha⟩ := List.exists_mem_of_ne_nil x h
      exact ⟨a, by simpa using ha⟩
    refine ⟨x.toFinset.max' hne, by simpa using x.toFinset.max'_mem hne, ?_⟩
    rw [List.all_eq_true]
    intro b hb
    simpa using x.toFinset.le_max' b (by simpa using hb)
  have hlt : argmaxIdx x < x.length := List.findIdx_lt_length_of_exists hex
  have h1 : ∀ b ∈ x, b ≤ x[argmaxIdx x] := by
    have hf := List.findIdx_getElem (w := hlt)
    rw [List.all_eq_true] at hf
    intro b hb
    exact of_decide_eq_true (hf b hb)
  refine ⟨hlt, h1, fun j hj => ?_⟩
  have h2 := List.not_of_lt_findIdx hj
  simp only [List.all_eq_false, decide_eq_true_eq] at h2
  obtain ⟨b, hb, hlt'⟩ := h2
  exact lt_of_lt_of_le (not_le.mp (by simpa using hlt')) (h1 b hb)

theorem argmin_spec {x : List ℚ} (h : x ≠ []) :
    ∃ hlt : argminIdx x < x.length, (∀ b ∈ x, x[argminIdx x] ≤ b) ∧ ∀ j (hj : j < argminIdx x), x[argminIdx x] < x[j] := by
  have hex : ∃ a ∈ x, (x.all fun b => decide (a ≤ b)) = true := by
    have hne : x.toFinset.Nonempty := by
      obtain ⟨a, ha⟩ := List.exists_mem_of_ne_nil x h
      exact ⟨a, by simpa using ha⟩
    refine ⟨x.toFinset.min' hne, by simpa using x.toFinset.min'_mem hne, ?_⟩
    rw [List.all_eq_true]
    intro b hb
    simpa using x.toFinset.min'_le b (by simpa using hb)
  have hlt : argminIdx x < x.length := List.findIdx_lt_length_of_exists hex
  have h1 : ∀ b ∈ x, x[argminIdx x] ≤ b := by
    have hf := List.findIdx_getElem (w := hlt)
    rw [List.all_eq_true] at hf
    intro b hb
    exact of_decide_eq_true (hf b hb)
  refine ⟨hlt, h1, fun j hj => ?_⟩
  have h2 := List.not_of_lt_findIdx hj
  simp only [List.all_eq_false, decide_eq_true_eq] at h2
  obtain ⟨b, hb, hlt'⟩ := h2
  exact lt_of_le_of_lt (h1 b hb) (not_le.mp (by simpa using hlt'))

theorem isPeak_iff (x : List ℚ) : isPeak x = true ↔ PeakShaped x := by
  unfold isPeak
  simp only [Bool.and_eq_true, diffs_nonneg_iff, diffs_nonpos_iff]
  constructor
  · exact fun h => ⟨_, h.1, h.2⟩
  · rintro ⟨t, hup, hdown⟩
    by_cases hx : x = []
    · subst hx; simp [NonDecreasing, NonIncreasing]
    · obtain ⟨hlt, hmax, hfirst⟩ := argmax_spec hx
      have hup' : ∀ i j (hij : i < j) (hj : j < x.length), j ≤ t → x[i] ≤ x[j] := by
        intro i j hij hj hjt
        have := List.pairwise_iff_getElem.mp hup i j (by simp; omega) (by simp; omega) hij
        simpa using this
      have hdown' : ∀ i j (hij : i < j) (hj : j < x.length), t ≤ i → x[j] ≤ x[i] := by
        intro i j hij hj hti
        have := List.pairwise_iff_getElem.mp hdown (i - t) (j - t) (by simp; omega) (by simp; omega) (by omega)
        simp only [List.getElem_drop] at this
        have e1 : t + (i - t) = i := by omega
        have e2 : t + (j - t) = j := by omega
        simpa [e1, e2] using this
      by_cases ht : argmaxIdx x ≤ t
      · refine ⟨?_, ?_⟩
        · refine List.Pairwise.sublist ?_ hup
          have : argmaxIdx x + 1 ≤ t + 1 := by omega
          rw [show x.take (argmaxIdx x + 1) = (x.take (t + 1)).take (argmaxIdx x + 1) by rw [List.take_take]; congr 1; omega]
          exact List.take_sublist _ _
        · unfold NonIncreasing
          rw [List.pairwise_iff_getElem]
          intro i j hi hj hij
          have hj' : argmaxIdx x + j < x.length := by rw [List.length_drop] at hj; omega
          have hi' : argmaxIdx x + i < x.length := by omega
          simp only [List.getElem_drop]
          have hm := hmax (x[argmaxIdx x + j]) (List.getElem_mem _)
          by_cases hit : argmaxIdx x + i ≤ t
          · -- on the plateau left of `t`
            have hle : x[argmaxIdx x] ≤ x[argmaxIdx x + i] := by
              rcases Nat.eq_zero_or_pos i with rfl | hpos
              · simp
              · exact hup' _ _ (by omega) (by omega) hit
            exact le_trans hm hle
          · exact hdown' _ _ (by omega) (by omega) (by omega)
      · -- a strictly later first maximum contradicts the descent
        exfalso
        have h1 := hfirst t (by omega)
        have h2 := hdown' t (argmaxIdx x) (by omega) hlt le_rfl
        exact absurd h1 (not_lt.mpr h2)

theorem isValley_iff (x : List ℚ) : isValley x = true ↔ ValleyShaped x := by
  unfold isValley
  simp only [Bool.and_eq_true, diffs_nonneg_iff, diffs_nonpos_iff]
  constructor
  · exact fun h => ⟨_, h.2, h.1⟩
  · rintro ⟨t, hdown, hup⟩
    by_cases hx : x = []
    · subst hx; simp [NonDecreasing, NonIncreasing]
    · obtain ⟨hlt, hmin, hfirst⟩ := argmin_spec hx
      have hdown' : ∀ i j (hij : i < j) (hj : j < x.length), j ≤ t → x[j] ≤ x[i] := by
        intro i j hij hj hjt
        have := List.pairwise_iff_getElem.mp hdown i j (by simp; omega) (by simp; omega) hij
        simpa using this
      have hup' : ∀ i j (hij : i < j) (hj : j < x.length), t ≤ i → x[i] ≤ x[j] := by
        intro i j hij hj hti
        have := List.pairwise_iff_getElem.mp hup (i - t) (j - t) (by simp; omega) (by simp; omega) (by omega)
        simp only [List.getElem_drop] at this
        have e1 : t + (i - t) = i := by omega
        have e2 : t + (j - t) = j := by omega
        simpa [e1, e2] using this
      by_cases ht : argminIdx x ≤ t
      · refine ⟨?_, ?_⟩
        · unfold NonDecreasing
          rw [List.pairwise_iff_getElem]
          intro i j hi hj hij
          have hj' : argminIdx x + j < x.length := by rw [List.length_drop] at hj; omega
          have hi' : argminIdx x + i < x.length := by omega
          simp only [List.getElem_drop]
          have hm := hmin (x[argminIdx x + j]) (List.getElem_mem _)
          by_cases hit : argminIdx x + i ≤ t
          · have hle : x[argminIdx x + i] ≤ x[argminIdx x] := by
              rcases Nat.eq_zero_or_pos i with rfl | hpos
              · simp
              · exact hdown' _ _ (by omega) (by omega) hit
            exact le_trans hle hm
          · exact hup' _ _ (by omega) (by omega) (by omega)
        · refine List.Pairwise.sublist ?_ hdown
          rw [show x.take (argminIdx x + 1) = (x.take (t + 1)).take (argminIdx x + 1) by rw [List.take_take]; congr 1; omega]
          exact List.take_sublist _ _
      · exfalso
        have h1 := hfirst t (by omega)
        have h2 := hup' t (argminIdx x) (by omega) hlt le_rfl
        exact absurd h1 (not_lt.mpr h2)

theorem isConcave_iff : ∀ x : List ℚ, isConcave x = true ↔ Concave x
  | [] => by simp [isConcave, Concave]
  | [a] => by simp [isConcave, Concave]
  | [a, b] => by simp [isConcave, Concave]
  | a :: b :: c :: l => by
    rw [isConcave, Bool.and_eq_true, isConcave_iff (b :: c :: l), decide_eq_true_eq]
    constructor
    · rintro ⟨h0, h⟩ i p q r hp hq hr
      cases i with
      | zero => simp at hp hq hr; subst hp hq hr; linarith
      | succ i => exact h i p q r (by simpa using hp) (by simpa using hq) (by simpa using hr)
    · intro h
      refine ⟨?_, fun i p q r hp hq hr => h (i + 1) p q r (by simpa using hp) (by simpa using hq) (by simpa using hr)⟩
      have := h 0 a b c rfl rfl rfl
      linarith

theorem isConvex_iff : ∀ x : List ℚ, isConvex x = true ↔ Convex x
  | [] => by simp [isConvex, Convex]
  | [a] => by simp [isConvex, Convex]
  | [a, b] => by simp [isConvex, Convex]
  | a :: b :: c :: l => by
    rw [isConvex, Bool.and_eq_true, isConvex_iff (b :: c :: l), decide_eq_true_eq]
    constructor
    · rintro ⟨h0, h⟩ i p q r hp hq hr
      cases i with
      | zero => simp at hp hq hr; subst hp hq hr; linarith
      | succ i => exact h i p q r (by simpa using hp) (by simpa using hq) (by simpa using hr)
    · intro h
      refine ⟨?_, fun i p q r hp hq hr => h (i + 1) p q r (by simpa using hp) (by simpa using hq) (by simpa using hr)⟩
      have := h 0 a b c rfl rfl rfl
      linarith

/-! ## C29 -/

/-- C29: what each answer of `type_of_monotonic_trend` guarantees; and there is no other answer. -/
theorem C29_answer_is_true (x : List ℚ) :
    (typeOfMonotonicTrend x = "undefined" ∧ x.length = 1) ∨
    (typeOfMonotonicTrend x = "ascending" ∧ NonDecreasing x) ∨
    (typeOfMonotonicTrend x = "descending" ∧ NonIncreasing x ∧ ¬ NonDecreasing x) ∨
    (typeOfMonotonicTrend x = "peak (concave)" ∧ PeakShaped x ∧ Concave x) ∨
    (typeOfMonotonicTrend x = "peak" ∧ PeakShaped x ∧ ¬ Concave x) ∨
    (typeOfMonotonicTrend x = "valley (convex)" ∧ ValleyShaped x ∧ ¬ PeakShaped x ∧ Convex x) ∨
    (typeOfMonotonicTrend x = "valley" ∧ ValleyShaped x ∧ ¬ PeakShaped x ∧ ¬ Convex x) ∨
    (typeOfMonotonicTrend x = "no monotonic" ∧ ¬ PeakShaped x ∧ ¬ ValleyShaped x) := by
  unfold typeOfMonotonicTrend
  by_cases h1 : x.length = 1
  · simp [h1]
  rw [if_neg h1]
  by_cases h2 : 1 ≤ nPeaksValleys x
  · rw [if_pos h2]
    by_cases h3 : PeakShaped x
    · rw [if_pos ((isPeak_iff x).mpr h3)]
      by_cases h4 : Concave x
      · rw [if_pos ((isConcave_iff x).mpr h4)]; simp [h3, h4]
      · rw [if_neg fun h => h4 ((isConcave_iff x).mp h)]; simp [h3, h4]
    · rw [if_neg fun h => h3 ((isPeak_iff x).mp h)]
      by_cases h5 : ValleyShaped x
      · rw [if_pos ((isValley_iff x).mpr h5)]
        by_cases h4 : Convex x
        · rw [if_pos ((isConvex_iff x).mpr h4)]; simp [h3, h4, h5]
        · rw [if_neg fun h => h4 ((isConvex_iff x).mp h)]; simp [h3, h4, h5]
      · rw [if_neg fun h => h5 ((isValley_iff x).mp h)]; simp [h3, h5]
  · rw [if_neg h2]
    by_cases h3 : NonDecreasing x
    · rw [if_pos ((diffs_nonneg_iff x).mpr h3)]; simp [h3]
    · rw [if_neg fun h => h3 ((diffs_nonneg_iff x).mp h)]
      have := monotone_of_no_peaks (x := x) (by omega)
      simp [h3, this.resolve_left h3]

/-- C29: "no monotonic" is answered for sequences of two or more entries exactly when they are neither peak- nor
valley-shaped; in particular never for a monotone sequence. -/
theorem C29_no_monotonic_iff (x : List ℚ) (h : x.length ≠ 1) :
    (typeOfMonotonicTrend x = "no monotonic" ↔ ¬ PeakShaped x ∧ ¬ ValleyShaped x) ∧
    (NonDecreasing x ∨ NonIncreasing x → typeOfMonotonicTrend x ≠ "no monotonic") := by
  have key : typeOfMonotonicTrend x = "no monotonic" ↔ ¬ PeakShaped x ∧ ¬ ValleyShaped x := by
    rcases C29_answer_is_true x with ⟨e, a⟩ | ⟨e, a⟩ | ⟨e, a, b⟩ | ⟨e, a, b⟩ | ⟨e, a, b⟩ | ⟨e, a, b⟩ | ⟨e, a, b⟩ | ⟨e, a, b⟩
    · exact absurd a h
    · simp [e, nonDecreasing_peak a]
    · simp [e, nonIncreasing_peak a]
    · simp [e, a]
    · simp [e, a]
    · simp [e, a]
    · simp [e, a]
    · simp [e, a, b]
  refine ⟨key, ?_⟩
  rintro (hm | hm) he
  · exact (key.mp he).1 (nonDecreasing_peak hm)
  · exact (key.mp he).1 (nonIncreasing_peak hm)

/-- C29: strictly monotone sequences are recognised. -/
theorem C29_strict (x : List ℚ) (h : 2 ≤ x.length) :
    (StrictlyIncreasing x → typeOfMonotonicTrend x = "ascending") ∧
    (StrictlyDecreasing x → typeOfMonotonicTrend x = "descending") := by
  have hp : ∀ l : List ℚ, StrictlyIncreasing l → ∀ d ∈ diffs l, 0 < d := by
    intro l hl
    unfold StrictlyIncreasing at hl
    induction l with
    | nil => simp [diffs]
    | cons a l ih =>
      cases l with
      | nil => simp [diffs]
      | cons b l =>
        rw [diffs_cons_cons]
        intro d hd
        rcases List.mem_cons.mp hd with rfl | hd
        · have := (List.pairwise_cons.mp hl).1 b (by simp); linarith
        · exact ih (List.pairwise_cons.mp hl).2 d hd
  have hn : ∀ l : List ℚ, StrictlyDecreasing l → ∀ d ∈ diffs l, d < 0 := by
    intro l hl
    unfold StrictlyDecreasing at hl
    induction l with
    | nil => simp [diffs]
    | cons a l ih =>
      cases l with
      | nil => simp [diffs]
      | cons b l =>
        rw [diffs_cons_cons]
        intro d hd
        rcases List.mem_cons.mp hd with rfl | hd
        · have := (List.pairwise_cons.mp hl).1 b (by simp); linarith
        · exact ih (List.pairwise_cons.mp hl).2 d hd
  constructor
  · intro hs
    have h0 : nPeaksValleys x = 0 := by
      apply signs_const_nPeaks
      have : ∀ s ∈ signs x, s = 1 := by
        intro s hs'
        obtain ⟨d, hd, rfl⟩ := List.mem_map.mp hs'
        exact sign_pos (hp x hs d hd)
      intro s h1 t h2; rw [this s h1, this t h2]
    unfold typeOfMonotonicTrend
    rw [if_neg (by omega), if_neg (by omega), if_pos]
    rw [List.all_eq_true]
    intro d hd; simpa using (hp x hs d hd).le
  · intro hs
    have h0 : nPeaksValleys x = 0 := by
      apply signs_const_nPeaks
      have : ∀ s ∈ signs x, s = -1 := by
        intro s hs'
        obtain ⟨d, hd, rfl⟩ := List.mem_map.mp hs'
        exact sign_neg (hn x hs d hd)
      intro s h1 t h2; rw [this s h1, this t h2]
    unfold typeOfMonotonicTrend
    rw [if_neg (by omega), if_neg (by omega), if_neg]
    rw [List.all_eq_true]
    intro hall
    match x, h with
    | a :: b :: l, _ =>
      have h1 := hn _ hs (b - a) (by rw [diffs_cons_cons]; simp)
      have h2 := hall (b - a) (by rw [diffs_cons_cons]; simp)
      simp at h2; linarith

/-- C29, finding: a monotone sequence with a tie is not reported as ascending/descending but as "peak" (or "peak (concave)"). -/
theorem C29_ties_reported_as_peak :
    NonDecreasing [1, 1, 2] ∧ typeOfMonotonicTrend [1, 1, 2] = "peak" ∧
    NonIncreasing [2, 2, 1] ∧ typeOfMonotonicTrend [2, 2, 1] = "peak (concave)" := by
  refine ⟨by simp [NonDecreasing], by decide +kernel, by simp [NonIncreasing], by decide +kernel⟩

/-- C29: without special-code groups (one special row, one missing row) the analysis report looks at exactly the regular bins. -/
theorem C29_analysis_regular (regular : List ℚ) (special missing : ℚ) :
    analysisTrend (regular ++ [special, missing]) = typeOfMonotonicTrend regular := by
  unfold analysisTrend
  simp

/-- C29, finding: with a dictionary of special codes the table has one row per group, and the analysis report (all rows but
the last two) then includes special rows: three regular bins with strictly increasing rates and three special groups are
reported as having no monotonic trend. -/
theorem C29_analysis_includes_special_rows :
    ∃ regular special : List ℚ, ∃ missing : ℚ, special.length = 3 ∧ StrictlyIncreasing regular ∧
      typeOfMonotonicTrend regular = "ascending" ∧ analysisTrend (regular ++ special ++ [missing]) = "no monotonic" := by
  refine ⟨[2⁻¹ * 2⁻¹, 2⁻¹, 1], [2⁻¹, 1, 2⁻¹], 0, rfl, ?_, by decide +kernel, ?_⟩
  · norm_num [StrictlyIncreasing]
  · decide +kernel

/-! ## C30 -/

theorem trendName_cases (d : AutoData) :
    autoDecision d = some "ascending" ∨ autoDecision d = some "descending" ∨ autoDecision d = some "peak" ∨
      autoDecision d = some "valley" := by
  unfold autoDecision
  split_ifs <;> simp [trendName]

theorem ascDesc_cases (d : AutoData) :
    autoAscDescDecision d = some "ascending" ∨ autoAscDescDecision d = some "descending" := by
  unfold autoAscDescDecision
  split_ifs <;> simp [ascDescName]

/-- Event rates of the pre-bins. -/
def preRates (nonevent event : List ℕ) : List ℚ :=
  List.zipWith (fun e r => ((e : ℕ) : ℚ) / ((r : ℕ) : ℚ)) event (List.zipWith (· + ·) nonevent event)

/-- C30: for two or more pre-bins `monotonic_trend="auto"` always resolves, and to one of ascending, descending, peak and
valley; it never leaves the trend unconstrained. -/
theorem C30_auto (hull : List ℚ → Option ℚ) (nonevent event : List ℕ) (h : 2 ≤ nonevent.length) :
    ∃ t ∈ [Trend.ascending, .descending, .peak, .valley], resolveTrend hull nonevent event .auto = .ok t := by
  unfold resolveTrend autoData
  rw [if_neg (by omega), if_neg (by omega)]
  simp only [bind, Except.bind, pure, Except.pure, decide']
  generalize hd : AutoData.mk _ _ _ _ _ _ _ _ = d
  rcases trendName_cases d with e | e | e | e <;> rw [e] <;> simp [trendOfName]

/-- C30: `"auto_asc_desc"` always resolves to ascending or descending. -/
theorem C30_auto_asc_desc (hull : List ℚ → Option ℚ) (nonevent event : List ℕ) (h : 2 ≤ nonevent.length) :
    ∃ t ∈ [Trend.ascending, .descending], resolveTrend hull nonevent event .autoAscDesc = .ok t := by
  unfold resolveTrend autoData
  rw [if_neg (by omega), if_neg (by omega)]
  simp only [bind, Except.bind, pure, Except.pure, decide']
  generalize hd : AutoData.mk _ _ _ _ _ _ _ _ = d
  rcases ascDesc_cases d with e | e <;> rw [e] <;> simp [trendOfName]

/-- C30: `"auto_heuristic"` resolves to ascending, descending, or a peak/valley fixed at a pre-bin with the largest/smallest
event rate. -/
theorem C30_auto_heuristic (hull : List ℚ → Option ℚ) (nonevent event : List ℕ) (h : 2 ≤ nonevent.length)
    (hl : event.length = nonevent.length) :
    ∃ t, resolveTrend hull nonevent event .autoHeuristic = .ok t ∧
      (t = .ascending ∨ t = .descending ∨
        (∃ c r, t = .peakHeuristic c ∧ (preRates nonevent event)[c]? = some r ∧ ∀ a ∈ preRates nonevent event, a ≤ r) ∨
        (∃ c r, t = .valleyHeuristic c ∧ (preRates nonevent event)[c]? = some r ∧ ∀ a ∈ preRates nonevent event, r ≤ a)) := by
  have hne : preRates nonevent event ≠ [] := by
    rw [← List.length_pos_iff_ne_nil]
    simp [preRates]; omega
  obtain ⟨h1, h2, -⟩ := argmax_spec hne
  obtain ⟨h3, h4, -⟩ := argmin_spec hne
  have hpk : ∃ c r, Trend.peakHeuristic (argmaxIdx (preRates nonevent event)) = .peakHeuristic c ∧
      (preRates nonevent event)[c]? = some r ∧ ∀ a ∈ preRates nonevent event, a ≤ r :=
    ⟨_, _, rfl, List.getElem?_eq_getElem h1, h2⟩
  have hvl : ∃ c r, Trend.valleyHeuristic (argminIdx (preRates nonevent event)) = .valleyHeuristic c ∧
      (preRates nonevent event)[c]? = some r ∧ ∀ a ∈ preRates nonevent event, r ≤ a :=
    ⟨_, _, rfl, List.getElem?_eq_getElem h3, h4⟩
  unfold resolveTrend autoData
  rw [if_neg (by omega), if_neg (by omega)]
  simp only [bind, Except.bind, pure, Except.pure, decide']
  generalize hd : AutoData.mk _ _ _ _ _ _ _ _ = d
  rcases trendName_cases d with e | e | e | e <;> rw [e]
  · exact ⟨_, rfl, Or.inl rfl⟩
  · exact ⟨_, rfl, Or.inr (Or.inl rfl)⟩
  · exact ⟨_, rfl, Or.inr (Or.inr (Or.inl hpk))⟩
  · exact ⟨_, rfl, Or.inr (Or.inr (Or.inr hvl))⟩

/-- C30: an explicit `monotonic_trend` reaches the solver unchanged, whatever the data. -/
theorem C30_explicit_trend (hull : List ℚ → Option ℚ) (nonevent event : List ℕ) (arg : TrendArg) (t : Trend)
    (h : (arg, t) ∈ [(TrendArg.none, Trend.unconstrained), (.ascending, .ascending), (.descending, .descending),
      (.concave, .concave), (.convex, .convex), (.peak, .peak), (.valley, .valley)]) :
    resolveTrend hull nonevent event arg = .ok t := by
  simp only [List.mem_cons, Prod.mk.injEq, List.not_mem_nil, or_false] at h
  rcases h with ⟨rfl, rfl⟩ | ⟨rfl, rfl⟩ | ⟨rfl, rfl⟩ | ⟨rfl, rfl⟩ | ⟨rfl, rfl⟩ | ⟨rfl, rfl⟩ | ⟨rfl, rfl⟩ <;> rfl

/-- C30: the fixed-position options take the position of the largest (smallest) pre-bin event rate. -/
theorem C30_heuristic_position (hull : List ℚ → Option ℚ) (nonevent event : List ℕ) (h : 1 ≤ nonevent.length)
    (hl : event.length = nonevent.length) :
    (∃ c r, resolveTrend hull nonevent event .peakHeuristic = .ok (.peakHeuristic c) ∧
      (preRates nonevent event)[c]? = some r ∧ ∀ a ∈ preRates nonevent event, a ≤ r) ∧
    (∃ c r, resolveTrend hull nonevent event .valleyHeuristic = .ok (.valleyHeuristic c) ∧
      (preRates nonevent event)[c]? = some r ∧ ∀ a ∈ preRates nonevent event, r ≤ a) := by
  have hne : preRates nonevent event ≠ [] := by
    rw [← List.length_pos_iff_ne_nil]
    simp [preRates]; omega
  obtain ⟨h1, h2, -⟩ := argmax_spec hne
  obtain ⟨h3, h4, -⟩ := argmin_spec hne
  exact ⟨⟨_, _, rfl, List.getElem?_eq_getElem h1, h2⟩, ⟨_, _, rfl, List.getElem?_eq_getElem h3, h4⟩⟩

/-- C30: the trend data are scale-free in the records: the record shares left and right of the extreme pre-bins lie between
0 and 1, and left + extreme + right is everything. -/
theorem C30_shares (records : List ℕ) (c : ℕ) (h : c < records.length) (hpos : 0 < records.sum) :
    ∃ l r : ℚ, npDiv (((records.take c).sum : ℕ) : ℚ) ((records.sum : ℕ) : ℚ) = some l ∧
      npDiv (((records.drop (c + 1)).sum : ℕ) : ℚ) ((records.sum : ℕ) : ℚ) = some r ∧
      0 ≤ l ∧ 0 ≤ r ∧ l + ((records[c] : ℕ) : ℚ) / ((records.sum : ℕ) : ℚ) + r = 1 := by
  have hq : (0 : ℚ) < ((records.sum : ℕ) : ℚ) := by exact_mod_cast hpos
  have hsum : (records.take c).sum + records[c] + (records.drop (c + 1)).sum = records.sum := by
    conv_rhs => rw [← List.take_append_drop c records, List.sum_append, ← List.cons_getElem_drop_succ (h := h), List.sum_cons]
    omega
  refine ⟨_, _, if_neg hq.ne', if_neg hq.ne', div_nonneg (Nat.cast_nonneg _) (Nat.cast_nonneg _), div_nonneg (Nat.cast_nonneg _) (Nat.cast_nonneg _), ?_⟩
  rw [← add_div, ← add_div, div_eq_one_iff_eq hq.ne']
  exact_mod_cast hsum

/-- Non-vacuity: three pre-bins with rates 1/4, 1/2, 1/4 under each automatic option, for any convex-hull value. -/
example (hull : List ℚ → Option ℚ) :
    (∃ t ∈ [Trend.ascending, .descending, .peak, .valley], resolveTrend hull [30, 20, 30] [10, 20, 10] .auto = .ok t) ∧
    (∃ t ∈ [Trend.ascending, .descending], resolveTrend hull [30, 20, 30] [10, 20, 10] .autoAscDesc = .ok t) :=
  ⟨C30_auto hull _ _ (by decide), C30_auto_asc_desc hull _ _ (by decide)⟩

/-- The symmetric peak is recognised as a peak at pre-bin 1. -/
example : resolveTrend (fun _ => some (3 / 4)) [30, 20, 30] [10, 20, 10] .autoHeuristic = .ok (.peakHeuristic 1) := by
  decide +kernel

end OptBinning
