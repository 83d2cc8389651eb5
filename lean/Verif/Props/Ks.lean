import Verif.Spec.Ks
import Verif.Model.Ks
import Verif.Props.Trend
import Mathlib.Tactic.Linarith
import Mathlib.Tactic.FieldSimp
import Mathlib.Tactic.Ring
import Mathlib.Tactic.Positivity
import Mathlib.Data.List.GetD

/-! # C37: the KS statistic of `metrics.ks` -/
namespace OptBinning
open Spec (cdfGap IsKS IsMaxLead BothLabels)

theorem count_both (y : List Bool) : y.count true + y.count false = y.length := by
  induction y with
  | nil => rfl
  | cons a l ih => cases a <;> simp <;> omega

theorem bothLabels_pos {y : List Bool} (h : BothLabels y) : 0 < y.count true ∧ 0 < y.count false :=
  ⟨List.count_pos_iff.mpr h.1, List.count_pos_iff.mpr h.2⟩

theorem ksDiff_eq {y : List Bool} (h : BothLabels y) {k : ℕ} (hk : k < y.length) :
    ksDiff y k = cdfGap y (k + 1) - 1 / ((y.count false : ℕ) : ℚ) := by
  have hp := bothLabels_pos h
  have h1 := count_both y
  have h2 := count_both (y.take (k + 1))
  rw [List.length_take, min_eq_left (by omega)] at h2
  have e1 : ((y.length : ℕ) : ℚ) - ((y.count true : ℕ) : ℚ) = ((y.count false : ℕ) : ℚ) := by
    rw [← h1]; push_cast; ring
  have e2 : ((k : ℕ) : ℚ) = (((y.take (k + 1)).count true : ℕ) : ℚ) + (((y.take (k + 1)).count false : ℕ) : ℚ) - 1 := by
    have : ((k + 1 : ℕ) : ℚ) = ((((y.take (k + 1)).count true + (y.take (k + 1)).count false) : ℕ) : ℚ) := by rw [h2]
    push_cast at this ⊢; linarith
  unfold ksDiff cdfGap
  simp only
  rw [e1, e2]
  have hq : (0 : ℚ) < ((y.count false : ℕ) : ℚ) := by exact_mod_cast hp.2
  have hq' : (0 : ℚ) < ((y.count true : ℕ) : ℚ) := by exact_mod_cast hp.1
  field_simp
  ring

theorem ks_spec {y : List Bool} (h : BothLabels y) {s : ℚ} {i : ℕ} (hks : ks y = some (s, i)) :
    i < y.length ∧ s = ksDiff y i ∧ (∀ k < y.length, ksDiff y k ≤ s) ∧ ∀ k < i, ksDiff y k < s := by
  have hp := bothLabels_pos h
  unfold ks at hks
  rw [if_neg (by omega)] at hks
  simp only [Option.some.injEq, Prod.mk.injEq] at hks
  obtain ⟨hs, hi⟩ := hks
  have hne : (List.range y.length).map (ksDiff y) ≠ [] := by
    have := count_both y
    rw [← List.length_pos_iff_ne_nil]; simp; omega
  obtain ⟨hlt, hmax, hfirst⟩ := argmax_spec hne
  rw [List.getD_eq_getElem _ _ hlt] at hs
  subst hi
  have hlt' : argmaxIdx ((List.range y.length).map (ksDiff y)) < y.length := by simpa using hlt
  have hs' : s = ksDiff y (argmaxIdx ((List.range y.length).map (ksDiff y))) := by rw [← hs]; simp
  refine ⟨hlt', hs', fun k hk => ?_, fun k hk => ?_⟩
  · rw [← hs]; exact hmax _ (List.mem_map.mpr ⟨k, by simpa using hk, rfl⟩)
  · have := hfirst k hk
    rw [hs] at this
    simpa using this

/-- C37 (exact behaviour): for labels with both classes, `ks` returns the largest *signed* lead of the non-events, minus
`1 / n_nonevent`, and the first position (0-based) at which it is attained. -/
theorem C37_ks_exact_partial (y : List Bool) (h : BothLabels y) :
    ∃ s i, ks y = some (s, i) ∧ IsMaxLead y (s + 1 / ((y.count false : ℕ) : ℚ)) ∧
      i < y.length ∧ cdfGap y (i + 1) = s + 1 / ((y.count false : ℕ) : ℚ) ∧
      ∀ k < i, cdfGap y (k + 1) < s + 1 / ((y.count false : ℕ) : ℚ) := by
  have hp := bothLabels_pos h
  have hsome : ∃ s i, ks y = some (s, i) := by
    unfold ks; rw [if_neg (by omega)]; exact ⟨_, _, rfl⟩
  obtain ⟨s, i, hks⟩ := hsome
  obtain ⟨h1, h2, h3, h4⟩ := ks_spec h hks
  have hat : cdfGap y (i + 1) = s + 1 / ((y.count false : ℕ) : ℚ) := by rw [h2, ksDiff_eq h h1]; ring
  refine ⟨s, i, hks, ⟨⟨i + 1, by omega, by omega, hat⟩, ?_⟩, h1, hat, ?_⟩
  · intro k hk1 hk2
    have := h3 (k - 1) (by omega)
    rw [ksDiff_eq h (by omega), Nat.sub_add_cancel hk1] at this
    linarith
  · intro k hk
    have := h4 k hk
    rw [ksDiff_eq h (by omega)] at this
    linarith

/-- C37, finding: the returned number is always smaller than the Kolmogorov-Smirnov distance, by at least
`1 / n_nonevent`; in particular it is never the KS distance. -/
theorem C37_ks_below_distance (y : List Bool) (h : BothLabels y) (s d : ℚ) (i : ℕ) (hks : ks y = some (s, i)) (hd : IsKS y d) :
    s + 1 / ((y.count false : ℕ) : ℚ) ≤ d := by
  obtain ⟨s', i', he, -, hlt, hat, -⟩ := C37_ks_exact_partial y h
  rw [hks] at he
  obtain ⟨rfl, rfl⟩ : s = s' ∧ i = i' := by simpa using he
  rw [← hat]
  exact le_trans (le_abs_self _) (hd.2 _ (by omega))

/-- C37: when the events do not lead anywhere (a score that ranks non-events first), the value is the KS distance minus exactly
`1 / n_nonevent`. -/
theorem C37_ks_short_by_one_record (y : List Bool) (h : BothLabels y) (s d : ℚ) (i : ℕ) (hks : ks y = some (s, i))
    (hd : IsKS y d) (hlead : ∀ k ≤ y.length, 0 ≤ cdfGap y k) : s = d - 1 / ((y.count false : ℕ) : ℚ) := by
  have h1 := C37_ks_below_distance y h s d i hks hd
  obtain ⟨s', i', he, hmax, -⟩ := C37_ks_exact_partial y h
  rw [hks] at he
  obtain ⟨rfl, rfl⟩ : s = s' ∧ i = i' := by simpa using he
  obtain ⟨⟨k, hk, hk'⟩, -⟩ := hd
  rw [abs_of_nonneg (hlead k hk)] at hk'
  have : d ≤ s + 1 / ((y.count false : ℕ) : ℚ) := by
    rcases Nat.eq_zero_or_pos k with rfl | hpos
    · have h0 : d = 0 := by rw [← hk']; simp [cdfGap]
      rw [h0]
      exact le_trans (hlead y.length le_rfl) (hmax.2 y.length (by
        have := bothLabels_pos h; have := count_both y; omega) le_rfl)
    · rw [← hk']; exact hmax.2 k hpos hk
  linarith

/-- C37: range of the returned value: between `-1/n_nonevent` (so it can be negative) and `1 - 1/n_nonevent` (so never 1). -/
theorem C37_ks_range (y : List Bool) (h : BothLabels y) (s : ℚ) (i : ℕ) (hks : ks y = some (s, i)) :
    -(1 / ((y.count false : ℕ) : ℚ)) ≤ s ∧ s ≤ 1 - 1 / ((y.count false : ℕ) : ℚ) := by
  have hp := bothLabels_pos h
  have hq : (0 : ℚ) < ((y.count false : ℕ) : ℚ) := by exact_mod_cast hp.2
  have hq' : (0 : ℚ) < ((y.count true : ℕ) : ℚ) := by exact_mod_cast hp.1
  obtain ⟨s', i', he, hmax, hlt, hat, -⟩ := C37_ks_exact_partial y h
  rw [hks] at he
  obtain ⟨rfl, rfl⟩ : s = s' ∧ i = i' := by simpa using he
  constructor
  · have := hmax.2 y.length (by have := count_both y; omega) le_rfl
    have h0 : cdfGap y y.length = 0 := by
      unfold cdfGap; rw [List.take_length, div_self hq.ne', div_self hq'.ne']; ring
    linarith
  · have : cdfGap y (i + 1) ≤ 1 := by
      unfold cdfGap
      have h1 : (((y.take (i + 1)).count false : ℕ) : ℚ) / ((y.count false : ℕ) : ℚ) ≤ 1 := by
        rw [div_le_one hq]
        exact_mod_cast (List.take_sublist (i + 1) y).count_le false
      have h2 : 0 ≤ (((y.take (i + 1)).count true : ℕ) : ℚ) / ((y.count true : ℕ) : ℚ) := by positivity
      linarith
    linarith

/-- C37, finding: perfect separation of `m` non-events (lower scores) from `n` events gives `1 - 1/m` instead of 1. -/
theorem C37_perfect_separation_not_one (m n : ℕ) (hm : 0 < m) (hn : 0 < n) :
    IsKS (List.replicate m false ++ List.replicate n true) 1 ∧
    ∃ i, ks (List.replicate m false ++ List.replicate n true) = some (1 - 1 / ((m : ℕ) : ℚ), i) := by
  set y := List.replicate m false ++ List.replicate n true with hy
  have hb : BothLabels y := by constructor <;> simp [hy] <;> omega
  have hcf : y.count false = m := by simp [hy, List.count_replicate]
  have hct : y.count true = n := by simp [hy, List.count_replicate]
  have hp := bothLabels_pos hb
  have hq : (0 : ℚ) < ((y.count false : ℕ) : ℚ) := by exact_mod_cast hp.2
  have hq' : (0 : ℚ) < ((y.count true : ℕ) : ℚ) := by exact_mod_cast hp.1
  have hat : cdfGap y m = 1 := by
    have ht : y.take m = List.replicate m false := by rw [hy, List.take_left' (by simp)]
    unfold cdfGap
    rw [ht, hcf, hct]
    have : ((m : ℕ) : ℚ) ≠ 0 := by rw [hcf] at hq; exact hq.ne'
    simp [List.count_replicate, this]
  have hlen : y.length = m + n := by simp [hy]
  have hbound : ∀ k, |cdfGap y k| ≤ 1 := by
    intro k
    unfold cdfGap
    have h1 : (((y.take k).count false : ℕ) : ℚ) / ((y.count false : ℕ) : ℚ) ≤ 1 := by
      rw [div_le_one hq]; exact_mod_cast (List.take_sublist k y).count_le false
    have h2 : (((y.take k).count true : ℕ) : ℚ) / ((y.count true : ℕ) : ℚ) ≤ 1 := by
      rw [div_le_one hq']; exact_mod_cast (List.take_sublist k y).count_le true
    have h3 : 0 ≤ (((y.take k).count false : ℕ) : ℚ) / ((y.count false : ℕ) : ℚ) := by positivity
    have h4 : 0 ≤ (((y.take k).count true : ℕ) : ℚ) / ((y.count true : ℕ) : ℚ) := by positivity
    rw [abs_le]; constructor <;> linarith
  refine ⟨⟨⟨m, by omega, by rw [hat]; simp⟩, fun k _ => hbound k⟩, ?_⟩
  obtain ⟨s, i, he, hmax, hlt, hati, -⟩ := C37_ks_exact_partial y hb
  refine ⟨i, ?_⟩
  rw [he]
  congr 2
  have h1 := hmax.2 m (by omega) (by omega)
  rw [hat] at h1
  have h2 := le_trans (le_abs_self _) (hbound (i + 1))
  rw [hati] at h2
  rw [hcf] at h1 h2
  linarith

/-- C37, finding: the statistic is one-sided: a score which perfectly separates the classes the other way round has KS
distance 1 but the function returns a negative number or 0. -/
theorem C37_one_sided : IsKS [true, true, false, false] 1 ∧ ks [true, true, false, false] = some (-1 / 2, 3) := by
  refine ⟨⟨⟨2, by decide, by decide +kernel⟩, by decide +kernel⟩, by decide +kernel⟩

/-- C37, finding: for tied scores the result depends on the order in which the records are listed (KS of a constant score
should be 0): two lists of the same (score, label) records, both sorted by score, with different results. -/
theorem C37_ties_depend_on_order :
    ∃ r₁ r₂ : List (ℚ × Bool), r₁.Perm r₂ ∧ r₁.Pairwise (fun a b => a.1 ≤ b.1) ∧ r₂.Pairwise (fun a b => a.1 ≤ b.1) ∧
      (ks (r₁.map Prod.snd)).map Prod.fst ≠ (ks (r₂.map Prod.snd)).map Prod.fst := by
  refine ⟨[(0, false), (0, false), (0, true)], [(0, true), (0, false), (0, false)], by decide, by decide, by decide, ?_⟩
  decide +kernel

/-- Non-vacuity of the hypotheses of C37: mixed labels. -/
example : BothLabels [false, true, false, false, true] ∧ ks [false, true, false, false, true] = some (1 / 6, 3) ∧
    IsKS [false, true, false, false, true] (1 / 2) := by
  refine ⟨⟨by decide, by decide⟩, by decide +kernel, ⟨4, by decide, by decide +kernel⟩, by decide +kernel⟩

/-- C37: rates of `imbalanced_classification_metrics`: each of the five reported rates is between 0 and 1 when both classes
occur; complementary rates add up to 1. -/
theorem C37_imbalanced_rates (c : Confusion) (h1 : 0 < c.tp + c.fn) (h2 : 0 < c.fp + c.tn) :
    ∃ tpr tnr fpr fnr bal, imbalancedMetrics c = (tpr, tnr, fpr, fnr, bal) ∧
      tpr * ((c.tp + c.fn : ℕ) : ℚ) = ((c.tp : ℕ) : ℚ) ∧ fnr * ((c.tp + c.fn : ℕ) : ℚ) = ((c.fn : ℕ) : ℚ) ∧
      tnr * ((c.fp + c.tn : ℕ) : ℚ) = ((c.tn : ℕ) : ℚ) ∧ fpr * ((c.fp + c.tn : ℕ) : ℚ) = ((c.fp : ℕ) : ℚ) ∧
      2 * bal = tpr + tnr ∧ ∀ r ∈ [tpr, tnr, fpr, fnr, bal], 0 ≤ r ∧ r ≤ 1 := by
  have q1 : (0 : ℚ) < ((c.tp + c.fn : ℕ) : ℚ) := by exact_mod_cast h1
  have q2 : (0 : ℚ) < ((c.fp + c.tn : ℕ) : ℚ) := by exact_mod_cast h2
  have a1 : 0 ≤ ((c.tp : ℕ) : ℚ) / ((c.tp + c.fn : ℕ) : ℚ) := by positivity
  have a2 : ((c.tp : ℕ) : ℚ) / ((c.tp + c.fn : ℕ) : ℚ) ≤ 1 := by rw [div_le_one q1]; push_cast; linarith [Nat.cast_nonneg (α := ℚ) c.fn]
  have b1 : 0 ≤ ((c.tn : ℕ) : ℚ) / ((c.fp + c.tn : ℕ) : ℚ) := by positivity
  have b2 : ((c.tn : ℕ) : ℚ) / ((c.fp + c.tn : ℕ) : ℚ) ≤ 1 := by rw [div_le_one q2]; push_cast; linarith [Nat.cast_nonneg (α := ℚ) c.fp]
  have e1 := div_mul_cancel₀ ((c.tp : ℕ) : ℚ) q1.ne'
  have e2 := div_mul_cancel₀ ((c.tn : ℕ) : ℚ) q2.ne'
  refine ⟨_, _, _, _, _, rfl, e1, ?_, e2, ?_, by ring, ?_⟩
  · rw [sub_mul, e1]; push_cast; ring
  · rw [sub_mul, e2]; push_cast; ring
  · intro r hr
    simp only [List.mem_cons, List.not_mem_nil, or_false] at hr
    rcases hr with rfl | rfl | rfl | rfl | rfl <;> constructor <;> linarith

example : 0 < (Confusion.mk 5 1 2 4).tp + (Confusion.mk 5 1 2 4).fn ∧ 0 < (Confusion.mk 5 1 2 4).fp + (Confusion.mk 5 1 2 4).tn := by decide

end OptBinning
