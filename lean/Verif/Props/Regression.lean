import Verif.Lemmas.Regression

/-! # C95: percentage errors of the metrics module -/
namespace OptBinning

open Spec

theorem abs_div_eq {p : ℚ × ℚ} (h : p.1 ≠ 0) : (XQ.div (p.1 - p.2) p.1).abs = .num (relErr p) := by
  simp [XQ.div, h, XQ.abs, relErr, abs_div]

theorem sym_den {p : ℚ × ℚ} : |p.1| + |p.2| = 0 ↔ p = (0, 0) := by
  rw [add_eq_zero_iff_of_nonneg (abs_nonneg _) (abs_nonneg _), abs_eq_zero, abs_eq_zero, Prod.ext_iff]

theorem sym_div_eq {p : ℚ × ℚ} (h : p ≠ (0, 0)) : XQ.div |p.1 - p.2| (|p.1| + |p.2|) = .num (symErr p) := by
  rw [XQ.div, if_neg (fun e => h (sym_den.1 e)), symErr]

theorem sym_div_zero : XQ.div |((0 : ℚ), (0 : ℚ)).1 - ((0 : ℚ), (0 : ℚ)).2| (|((0 : ℚ), (0 : ℚ)).1| + |((0 : ℚ), (0 : ℚ)).2|) = .nan := by
  simp [XQ.div]

theorem ape_cases (p : ℚ × ℚ) : ((XQ.div (p.1 - p.2) p.1).abs = .nan ↔ p = (0, 0)) ∧
    ((XQ.div (p.1 - p.2) p.1).abs = .pinf ↔ p.1 = 0 ∧ p.2 ≠ 0) ∧ (XQ.div (p.1 - p.2) p.1).abs ≠ .ninf := by
  by_cases h : p.1 = 0
  · by_cases h2 : p.2 = 0
    · have : p = (0, 0) := Prod.ext h h2
      subst this
      simp [XQ.div, XQ.abs]
    · have h3 : ¬ (p.1 - p.2 = 0) := by rw [h]; simpa using h2
      rw [XQ.div, if_pos h, if_neg h3]
      split <;> simp [XQ.abs, Prod.ext_iff, h, h2]
  · rw [abs_div_eq h]
    simp [Prod.ext_iff, h]

theorem relErr_nonneg (p : ℚ × ℚ) : 0 ≤ relErr p := div_nonneg (abs_nonneg _) (abs_nonneg _)

theorem average_nonneg {l : List ℚ} (h : ∀ v ∈ l, 0 ≤ v) : 0 ≤ average l :=
  div_nonneg (List.sum_nonneg h) (Nat.cast_nonneg _)

theorem average_eq_zero {l : List ℚ} (hl : l ≠ []) (h : ∀ v ∈ l, 0 ≤ v) : average l = 0 ↔ ∀ v ∈ l, v = 0 := by
  have hn : ((l.length : ℕ) : ℚ) ≠ 0 := by simpa using hl
  rw [average, div_eq_zero_iff, or_iff_left hn]
  constructor
  · intro hs v hv
    exact List.all_zero_of_le_zero_le_of_sum_eq_zero h hs hv
  · intro hz
    exact List.sum_eq_zero hz

/-- **C95.** MAPE, MPE and MdAPE when no truth is zero: the averages of the relative errors and their median. -/
theorem C95_relative (r : List (ℚ × ℚ)) (hr : r ≠ []) (h : ∀ p ∈ r, p.1 ≠ 0) :
    mape r = .num (average (r.map relErr)) ∧ mpe r = .num (average (r.map signedErr)) ∧
      ∃ m, mdape r = .num m ∧ IsMedian 0 m (r.map relErr) := by
  have e1 : r.map (fun p => (XQ.div (p.1 - p.2) p.1).abs) = (r.map relErr).map XQ.num := by
    rw [List.map_map]
    exact List.map_congr_left fun p hp => abs_div_eq (h p hp)
  have e2 : r.map (fun p => XQ.div (p.1 - p.2) p.1) = (r.map signedErr).map XQ.num := by
    rw [List.map_map]
    exact List.map_congr_left fun p hp => by simp [XQ.div, h p hp, signedErr]
  refine ⟨?_, ?_, ?_⟩
  · rw [mape, e1, XQ.mean_num (by simpa using hr)]
  · rw [mpe, e2, XQ.mean_num (by simpa using hr)]
  · rw [mdape, e1]
    obtain ⟨h1, h2, h3, h4⟩ := XQ.median_iff (l := (r.map relErr).map XQ.num) (f := r.map relErr) (k := 0) (by simp) (by simpa using hr)
    cases e : XQ.median ((r.map relErr).map XQ.num) with
    | nan => exact absurd e h3
    | ninf => exact absurd e h4
    | pinf =>
      have := h2.1 e
      have := List.length_pos_iff_ne_nil.2 hr
      simp only [List.length_map] at *
      omega
    | num m => exact ⟨m, rfl, (h1 m).1 e⟩

/-- **C95.** A finite MAPE is non-negative, zero exactly for perfect predictions, and bounds the absolute value of the MPE. -/
theorem C95_mape (r : List (ℚ × ℚ)) {v : ℚ} (hv : mape r = .num v) :
    0 ≤ v ∧ (v = 0 ↔ ∀ p ∈ r, p.1 = p.2) ∧ ∃ w, mpe r = .num w ∧ |w| ≤ v := by
  have hni : XQ.ninf ∉ r.map (fun p => (XQ.div (p.1 - p.2) p.1).abs) := by
    intro hm
    obtain ⟨p, _, hp⟩ := List.mem_map.1 hm
    exact (ape_cases p).2.2 hp
  have hr : r ≠ [] := by
    rintro rfl
    simp [mape, XQ.mean] at hv
  have h : ∀ p ∈ r, p.1 ≠ 0 := by
    intro p hp h0
    by_cases h2 : p.2 = 0
    · have : mape r = .nan := (XQ.mean_nan_iff hni).2 (Or.inr (List.mem_map.2 ⟨p, hp, (ape_cases p).1.2 (Prod.ext h0 h2)⟩))
      rw [this] at hv
      cases hv
    · by_cases hn : XQ.nan ∈ r.map (fun p => (XQ.div (p.1 - p.2) p.1).abs)
      · have : mape r = .nan := (XQ.mean_nan_iff hni).2 (Or.inr hn)
        rw [this] at hv
        cases hv
      · have : mape r = .pinf := (XQ.mean_pinf_iff hni).2 ⟨hn, List.mem_map.2 ⟨p, hp, (ape_cases p).2.1.2 ⟨h0, h2⟩⟩⟩
        rw [this] at hv
        cases hv
  obtain ⟨h1, h2, _⟩ := C95_relative r hr h
  have hv' : average (r.map relErr) = v := by rw [h1] at hv; exact XQ.num.inj hv
  subst hv'
  have hnn : ∀ v ∈ r.map relErr, 0 ≤ v := by
    intro v hv
    obtain ⟨p, _, rfl⟩ := List.mem_map.1 hv
    exact relErr_nonneg p
  refine ⟨average_nonneg hnn, ?_, _, h2, ?_⟩
  · rw [average_eq_zero (by simpa using hr) hnn]
    simp only [List.mem_map, forall_exists_index, and_imp, forall_apply_eq_imp_iff₂]
    refine forall₂_congr fun p hp => ?_
    rw [relErr, div_eq_zero_iff, or_iff_left (by simpa using h p hp), abs_eq_zero, sub_eq_zero]
  · have hs : ∀ l : List (ℚ × ℚ), |(l.map signedErr).sum| ≤ (l.map relErr).sum := by
      intro l
      induction l with
      | nil => simp
      | cons p l ih =>
        simp only [List.map_cons, List.sum_cons]
        refine (abs_add_le _ _).trans (add_le_add ?_ ih)
        rw [signedErr, relErr, abs_div]
    rw [average, average, abs_div, List.length_map, List.length_map, abs_of_nonneg (Nat.cast_nonneg (α := ℚ) r.length)]
    exact div_le_div_of_nonneg_right (hs r) (Nat.cast_nonneg _)

/-- **C95.** MAPE is NaN exactly for no data or a truth of zero predicted as zero, and otherwise infinite exactly if some
truth is zero. -/
theorem C95_mape_zero_truth (r : List (ℚ × ℚ)) :
    (mape r = .nan ↔ r = [] ∨ (0, 0) ∈ r) ∧ (mape r = .pinf ↔ (0, 0) ∉ r ∧ ∃ p ∈ r, p.1 = 0) ∧ mape r ≠ .ninf := by
  have hni : XQ.ninf ∉ r.map (fun p => (XQ.div (p.1 - p.2) p.1).abs) := by
    intro hm
    obtain ⟨p, _, hp⟩ := List.mem_map.1 hm
    exact (ape_cases p).2.2 hp
  have hnan : XQ.nan ∈ r.map (fun p => (XQ.div (p.1 - p.2) p.1).abs) ↔ (0, 0) ∈ r := by
    rw [List.mem_map]
    constructor
    · rintro ⟨p, hp, e⟩
      rwa [(ape_cases p).1.1 e] at hp
    · intro h
      exact ⟨_, h, (ape_cases _).1.2 rfl⟩
  refine ⟨?_, ?_, ?_⟩
  · rw [mape, XQ.mean_nan_iff hni, hnan]
    simp
  · rw [mape, XQ.mean_pinf_iff hni, hnan]
    refine and_congr_right fun h0 => ?_
    rw [List.mem_map]
    constructor
    · rintro ⟨p, hp, e⟩
      exact ⟨p, hp, ((ape_cases p).2.1.1 e).1⟩
    · rintro ⟨p, hp, e⟩
      refine ⟨p, hp, (ape_cases p).2.1.2 ⟨e, fun h2 => h0 ?_⟩⟩
      have : p = (0, 0) := Prod.ext e h2
      rwa [← this]
  · intro e
    have h3 := (XQ.foldr_nan_iff_of_noninf hni).2.2
    rw [mape, XQ.mean] at e
    split at e
    · cases e
    · revert e h3
      cases (r.map (fun p => (XQ.div (p.1 - p.2) p.1).abs)).foldr XQ.add (.num 0) <;> simp [XQ.divNat]

/-- **C95.** MdAPE: NaN exactly for no data or a truth of zero predicted as zero; otherwise the median of the relative errors,
where truths of zero count as infinite errors. -/
theorem C95_mdape (r : List (ℚ × ℚ)) :
    (mdape r = .nan ↔ r = [] ∨ (0, 0) ∈ r) ∧
    (r ≠ [] → (0, 0) ∉ r →
      (∀ m, mdape r = .num m ↔ IsMedian (r.countP fun p => decide (p.1 = 0)) m ((r.filter fun p => decide (p.1 ≠ 0)).map relErr)) ∧
      (mdape r = .pinf ↔ r.length ≤ 2 * r.countP fun p => decide (p.1 = 0))) := by
  have perm : ∀ r : List (ℚ × ℚ), (0, 0) ∉ r → (r.map fun p => (XQ.div (p.1 - p.2) p.1).abs).Perm
      (((r.filter fun p => decide (p.1 ≠ 0)).map relErr).map XQ.num ++
        List.replicate (r.countP fun p => decide (p.1 = 0)) XQ.pinf) := by
    intro r
    induction r with
    | nil => intro _; simp
    | cons p r ih =>
      intro h0
      rw [List.mem_cons, not_or] at h0
      by_cases hp : p.1 = 0
      · have hp2 : p.2 ≠ 0 := fun h => h0.1 (Prod.ext hp h).symm
        rw [List.map_cons, (ape_cases p).2.1.2 ⟨hp, hp2⟩, List.filter_cons_of_neg (by simpa using hp),
          List.countP_cons_of_pos (by simpa using hp), List.replicate_succ]
        exact ((ih h0.2).cons _).trans List.perm_middle.symm
      · rw [List.map_cons, abs_div_eq hp, List.filter_cons_of_pos (by simpa using hp),
          List.countP_cons_of_neg (by simpa using hp), List.map_cons, List.map_cons, List.cons_append]
        exact (ih h0.2).cons _
  have main : r ≠ [] → (0, 0) ∉ r → _ := fun hr h0 => XQ.median_iff (perm r h0) (by simpa using hr)
  refine ⟨⟨fun e => ?_, ?_⟩, fun hr h0 => ?_⟩
  · by_contra hc
    rw [not_or] at hc
    exact (main hc.1 hc.2).2.2.1 e
  · intro h
    rw [mdape, XQ.median, if_pos]
    rcases h with rfl | h
    · exact Or.inl rfl
    · exact Or.inr (List.mem_map.2 ⟨_, h, (ape_cases _).1.2 rfl⟩)
  · obtain ⟨h1, h2, _⟩ := main hr h0
    refine ⟨h1, h2.trans ?_⟩
    rw [List.length_map]

theorem symErr_bounds (p : ℚ × ℚ) : 0 ≤ symErr p ∧ symErr p ≤ 1 := by
  refine ⟨div_nonneg (abs_nonneg _) (add_nonneg (abs_nonneg _) (abs_nonneg _)), ?_⟩
  refine div_le_one_of_le₀ ?_ (add_nonneg (abs_nonneg _) (abs_nonneg _))
  exact abs_sub _ _

theorem symErr_zero {p : ℚ × ℚ} (h : p ≠ (0, 0)) : symErr p = 0 ↔ p.1 = p.2 := by
  rw [symErr, div_eq_zero_iff, or_iff_left (fun e => h (sym_den.1 e)), abs_eq_zero, sub_eq_zero]

theorem smape_eq {r : List (ℚ × ℚ)} (hr : r ≠ []) (h0 : (0, 0) ∉ r) : smape r = .num (average (r.map symErr)) := by
  have e1 : r.map (fun p => XQ.div |p.1 - p.2| (|p.1| + |p.2|)) = (r.map symErr).map XQ.num := by
    rw [List.map_map]
    exact List.map_congr_left fun p hp => sym_div_eq fun e => h0 (e ▸ hp)
  rw [smape, e1, XQ.mean_num (by simpa using hr)]

theorem average_le_one {l : List ℚ} (h : ∀ v ∈ l, v ≤ 1) : average l ≤ 1 := by
  have hs : l.sum ≤ (l.length : ℕ) := by
    induction l with
    | nil => simp
    | cons a l ih =>
      have h1 := h a (by simp)
      have h2 := ih fun v hv => h v (by simp [hv])
      simp only [List.sum_cons, List.length_cons, Nat.cast_add, Nat.cast_one]
      linarith
  exact div_le_one_of_le₀ hs (Nat.cast_nonneg _)

/-- **C95.** SMAPE is NaN exactly for no data or a truth of zero predicted as zero; otherwise it is the average symmetric
error: between 0 and 1, and 0 exactly for perfect predictions. -/
theorem C95_smape (r : List (ℚ × ℚ)) :
    (smape r = .nan ↔ r = [] ∨ (0, 0) ∈ r) ∧
    (r ≠ [] → (0, 0) ∉ r → smape r = .num (average (r.map symErr)) ∧ 0 ≤ average (r.map symErr) ∧
      average (r.map symErr) ≤ 1 ∧ (average (r.map symErr) = 0 ↔ ∀ p ∈ r, p.1 = p.2)) := by
  refine ⟨⟨fun e => ?_, ?_⟩, fun hr h0 => ⟨smape_eq hr h0, ?_, ?_, ?_⟩⟩
  · by_contra hc
    rw [not_or] at hc
    rw [smape_eq hc.1 hc.2] at e
    cases e
  · rintro (rfl | h)
    · rfl
    · rw [smape, XQ.mean_nan_iff]
      · exact Or.inr (List.mem_map.2 ⟨_, h, sym_div_zero⟩)
      · intro hm
        obtain ⟨p, _, e⟩ := List.mem_map.1 hm
        by_cases hp : p = (0, 0)
        · subst hp
          rw [sym_div_zero] at e
          cases e
        · rw [sym_div_eq hp] at e
          cases e
  · refine average_nonneg fun v hv => ?_
    obtain ⟨p, _, rfl⟩ := List.mem_map.1 hv
    exact (symErr_bounds p).1
  · refine average_le_one fun v hv => ?_
    obtain ⟨p, _, rfl⟩ := List.mem_map.1 hv
    exact (symErr_bounds p).2
  · rw [average_eq_zero (by simpa using hr)]
    · simp only [List.mem_map, forall_exists_index, and_imp, forall_apply_eq_imp_iff₂]
      exact forall₂_congr fun p hp => symErr_zero fun e => h0 (e ▸ hp)
    · intro v hv
      obtain ⟨p, _, rfl⟩ := List.mem_map.1 hv
      exact (symErr_bounds p).1

/-- **C95.** SMdAPE is NaN exactly for no data or a truth of zero predicted as zero; otherwise it is the median of the symmetric
errors, between 0 and 1. -/
theorem C95_smdape (r : List (ℚ × ℚ)) :
    (smdape r = .nan ↔ r = [] ∨ (0, 0) ∈ r) ∧
    (r ≠ [] → (0, 0) ∉ r → ∃ m, smdape r = .num m ∧ IsMedian 0 m (r.map symErr) ∧ 0 ≤ m ∧ m ≤ 1) := by
  have main : r ≠ [] → (0, 0) ∉ r → ∃ m, smdape r = .num m ∧ IsMedian 0 m (r.map symErr) ∧ 0 ≤ m ∧ m ≤ 1 := by
    intro hr h0
    have e1 : r.map (fun p => XQ.div |p.1 - p.2| (|p.1| + |p.2|)) = (r.map symErr).map XQ.num := by
      rw [List.map_map]
      exact List.map_congr_left fun p hp => sym_div_eq fun e => h0 (e ▸ hp)
    rw [smdape, e1]
    obtain ⟨h1, h2, h3, h4⟩ := XQ.median_iff (l := (r.map symErr).map XQ.num) (f := r.map symErr) (k := 0) (by simp) (by simpa using hr)
    cases e : XQ.median ((r.map symErr).map XQ.num) with
    | nan => exact absurd e h3
    | ninf => exact absurd e h4
    | pinf =>
      have := h2.1 e
      have := List.length_pos_iff_ne_nil.2 hr
      simp only [List.length_map] at *
      omega
    | num m =>
      have hm := (h1 m).1 e
      refine ⟨m, rfl, hm, ?_⟩
      have hb : ∀ v ∈ sortQ (r.map symErr), 0 ≤ v ∧ v ≤ 1 := by
        intro v hv
        obtain ⟨p, _, rfl⟩ := List.mem_map.1 ((sortQ_perm _).mem_iff.1 hv)
        exact symErr_bounds p
      rcases isMedian_sorted hm with ⟨j, _, h2⟩ | ⟨j, a, b, _, h2, h3, rfl⟩
      · exact hb _ (List.mem_of_getElem? h2)
      · have := hb _ (List.mem_of_getElem? h2)
        have := hb _ (List.mem_of_getElem? h3)
        constructor <;> linarith
  refine ⟨⟨fun e => ?_, ?_⟩, main⟩
  · by_contra hc
    rw [not_or] at hc
    obtain ⟨m, hm, _⟩ := main hc.1 hc.2
    rw [e] at hm
    cases hm
  · intro h
    rw [smdape, XQ.median, if_pos]
    rcases h with rfl | h
    · exact Or.inl rfl
    · exact Or.inr (List.mem_map.2 ⟨_, h, sym_div_zero⟩)

/-- **C95.** SMAPE and SMdAPE do not change when truths and predictions are exchanged. -/
theorem C95_symmetric (r : List (ℚ × ℚ)) : smape (r.map Prod.swap) = smape r ∧ smdape (r.map Prod.swap) = smdape r := by
  have : (r.map Prod.swap).map (fun p => XQ.div |p.1 - p.2| (|p.1| + |p.2|)) = r.map (fun p => XQ.div |p.1 - p.2| (|p.1| + |p.2|)) := by
    rw [List.map_map]
    refine List.map_congr_left fun p _ => ?_
    simp only [Function.comp, Prod.fst_swap, Prod.snd_swap]
    rw [abs_sub_comm, add_comm]
  exact ⟨by rw [smape, smape, this], by rw [smdape, smdape, this]⟩

/-- **C95.** None of the five metrics depends on the unit of measurement. -/
theorem C95_scale (r : List (ℚ × ℚ)) (c : ℚ) (hc : 0 < c) :
    regressionMetrics (r.map fun p => (c * p.1, c * p.2)) = regressionMetrics r := by
  have hc0 : c ≠ 0 := hc.ne'
  have key : ∀ a b : ℚ, XQ.div (c * a) (c * b) = XQ.div a b := by
    intro a b
    unfold XQ.div
    simp only [mul_eq_zero, hc0, false_or, mul_pos_iff_of_pos_left hc]
    rw [mul_div_mul_left _ _ hc0]
  have e1 : (r.map fun p => (c * p.1, c * p.2)).map (fun p => XQ.div (p.1 - p.2) p.1) = r.map (fun p => XQ.div (p.1 - p.2) p.1) := by
    rw [List.map_map]
    refine List.map_congr_left fun p _ => ?_
    simp only [Function.comp]
    rw [← mul_sub, key]
  have e2 : (r.map fun p => (c * p.1, c * p.2)).map (fun p => (XQ.div (p.1 - p.2) p.1).abs) =
      r.map (fun p => (XQ.div (p.1 - p.2) p.1).abs) := by
    rw [List.map_map]
    refine List.map_congr_left fun p _ => ?_
    simp only [Function.comp]
    rw [← mul_sub, key]
  have e3 : (r.map fun p => (c * p.1, c * p.2)).map (fun p => XQ.div |p.1 - p.2| (|p.1| + |p.2|)) =
      r.map (fun p => XQ.div |p.1 - p.2| (|p.1| + |p.2|)) := by
    rw [List.map_map]
    refine List.map_congr_left fun p _ => ?_
    simp only [Function.comp]
    rw [← mul_sub, abs_mul, abs_mul, abs_mul, ← mul_add, abs_of_pos hc, key]
  simp only [regressionMetrics, mpe, mape, smape, mdape, smdape, e1, e2, e3]

/-- **C95.** The report has each metric under its name. -/
theorem C95_report (r : List (ℚ × ℚ)) :
    (regressionMetrics r).lookup "MAPE" = some (mape r) ∧ (regressionMetrics r).lookup "MPE" = some (mpe r) ∧
    (regressionMetrics r).lookup "SMAPE" = some (smape r) ∧ (regressionMetrics r).lookup "MdAPE" = some (mdape r) ∧
    (regressionMetrics r).lookup "SMdAPE" = some (smdape r) := by
  simp [regressionMetrics, List.lookup]

/-- **C95.** One correct prediction of zero makes all five metrics NaN, however good the others are. -/
theorem C95_correct_zero (r : List (ℚ × ℚ)) (h : (0, 0) ∈ r) :
    mape r = .nan ∧ mpe r = .nan ∧ smape r = .nan ∧ mdape r = .nan ∧ smdape r = .nan := by
  refine ⟨(C95_mape_zero_truth r).1.2 (Or.inr h), ?_, (C95_smape r).1.2 (Or.inr h), (C95_mdape r).1.2 (Or.inr h),
    (C95_smdape r).1.2 (Or.inr h)⟩
  have hm : XQ.nan ∈ r.map (fun p => XQ.div (p.1 - p.2) p.1) := List.mem_map.2 ⟨_, h, by simp [XQ.div]⟩
  have key : ∀ l : List XQ, XQ.nan ∈ l → l.foldr XQ.add (.num 0) = .nan := by
    intro l
    induction l with
    | nil => intro h; simp at h
    | cons a l ih =>
      intro h
      rw [List.foldr_cons]
      rcases List.mem_cons.1 h with rfl | h
      · simp [XQ.add]
      · rw [ih h]
        cases a <;> rfl
  rw [mpe, XQ.mean, if_neg (List.ne_nil_of_mem hm), key _ hm]
  rfl

/-- Truths 2, 4, −1, predictions 1, 5, −1: MAPE 1/4, MPE 1/12, MdAPE 1/4. -/
example : mape [(2, 1), (4, 5), (-1, -1)] = .num (1 / 4) ∧ mpe [(2, 1), (4, 5), (-1, -1)] = .num (1 / 12) ∧
    mdape [(2, 1), (4, 5), (-1, -1)] = .num (1 / 4) ∧ mdape [(2, 1), (4, 5), (0, -1)] = .num (1 / 2) ∧
    mape [(2, 1), (4, 5), (0, -1)] = .pinf ∧ smape [(1, 3), (2, -2)] = .num (3 / 4) ∧ smdape [(1, 3), (2, -2)] = .num (3 / 4) := by
  decide +kernel

end OptBinning
