import Verif.Lemmas.Divergence
import Mathlib.Algebra.BigOperators.Group.List.Lemmas
import Mathlib.Algebra.Order.BigOperators.Group.List

/-! # Divergence of a whole table -/
namespace OptBinning
open Spec (Row events nonevents eventShare noneventShare union)

theorem cast_sum_map {β : Type*} (l : List β) (f : β → ℕ) : ((l.map fun r => (f r : ℝ)).sum) = (((l.map f).sum : ℕ) : ℝ) := by
  induction l with
  | nil => simp
  | cons a l ih => simp [ih]

theorem events_eq (t : List Row) : events t = (t.map Row.event).sum := rfl
theorem nonevents_eq (t : List Row) : nonevents t = (t.map Row.nonevent).sum := rfl

/-- Total divergence of the mixed rows with given totals. -/
noncomputable def divSum (D : ℝ → ℝ → ℝ) (te tne : ℝ) (t : List Row) : ℝ :=
  (t.map fun r => if r.mixed then D ((r.event : ℝ) / te) ((r.nonevent : ℝ) / tne) else 0).sum

theorem filter_map_sum {β : Type*} (l : List β) (p : β → Bool) (f : β → ℝ) :
    ((l.filter p).map f).sum = (l.map fun r => if p r then f r else 0).sum := by
  induction l with
  | nil => simp
  | cons a l ih => by_cases h : p a <;> simp [h, ih]

theorem build_tIv (sort) (t : List Row) : (buildCore sort t).tIv = divSum jeffrey (events t) (nonevents t) t := by
  simp only [buildCore, divSum, cast_sum_map, events_eq, nonevents_eq]
theorem build_tJs (sort) (t : List Row) : (buildCore sort t).tJs = divSum jensenShannon (events t) (nonevents t) t := by
  simp only [buildCore, divSum, cast_sum_map, events_eq, nonevents_eq]
theorem build_tHellinger (sort) (t : List Row) :
    (buildCore sort t).tHellinger = divSum hellinger (events t) (nonevents t) t := by
  simp only [buildCore, divSum, cast_sum_map, events_eq, nonevents_eq, filter_map_sum]
theorem build_tTriangular (sort) (t : List Row) :
    (buildCore sort t).tTriangular = divSum triangular (events t) (nonevents t) t := by
  simp only [buildCore, divSum, cast_sum_map, events_eq, nonevents_eq, filter_map_sum]

theorem mixed_iff (r : Row) : r.mixed = true ↔ 0 < r.event ∧ 0 < r.nonevent := by simp [Spec.Row.mixed]

theorem le_sum_of_mem {β : Type*} (l : List β) (f : β → ℕ) {r : β} (h : r ∈ l) : f r ≤ (l.map f).sum :=
  List.single_le_sum (by simp) _ (List.mem_map_of_mem h)

theorem events_pos_of_mem {t : List Row} {r : Row} (h : r ∈ t) (hm : r.mixed = true) :
    0 < events t ∧ 0 < nonevents t := by
  rw [mixed_iff] at hm
  exact ⟨lt_of_lt_of_le hm.1 (le_sum_of_mem t Row.event h), lt_of_lt_of_le hm.2 (le_sum_of_mem t Row.nonevent h)⟩

theorem shares_pos {te tne : ℝ} (hte : 0 < te) (htne : 0 < tne) {r : Row} (hm : r.mixed = true) :
    0 < (r.event : ℝ) / te ∧ 0 < (r.nonevent : ℝ) / tne := by
  rw [mixed_iff] at hm
  have h1 : (0 : ℝ) < r.event := by exact_mod_cast hm.1
  have h2 : (0 : ℝ) < r.nonevent := by exact_mod_cast hm.2
  exact ⟨by positivity, by positivity⟩

theorem divSum_nonneg {D} (hD : GoodDiv D) {te tne : ℝ} (hte : 0 < te) (htne : 0 < tne) (t : List Row) :
    0 ≤ divSum D te tne t := by
  apply List.sum_nonneg
  simp only [List.mem_map, forall_exists_index, and_imp, forall_apply_eq_imp_iff₂]
  intro r _
  split_ifs with h
  · exact hD.nonneg _ _ (shares_pos hte htne h).1 (shares_pos hte htne h).2
  · exact le_rfl

theorem no_mixed_divSum {D} {te tne : ℝ} {t : List Row} (h : ∀ r ∈ t, r.mixed = false) : divSum D te tne t = 0 := by
  apply List.sum_eq_zero
  simp only [List.mem_map, forall_exists_index, and_imp, forall_apply_eq_imp_iff₂]
  intro r hr; simp [h r hr]

theorem tableDiv_nonneg {D} (hD : GoodDiv D) (t : List Row) : 0 ≤ divSum D (events t) (nonevents t) t := by
  by_cases h : ∃ r ∈ t, r.mixed = true
  · obtain ⟨r, hr, hm⟩ := h
    obtain ⟨h1, h2⟩ := events_pos_of_mem hr hm
    exact divSum_nonneg hD (by exact_mod_cast h1) (by exact_mod_cast h2) t
  · push Not at h
    rw [no_mixed_divSum (fun r hr => by simpa using h r hr)]

theorem sum_eq_zero_iff_nonneg {β : Type*} (l : List β) (f : β → ℝ) (h : ∀ a ∈ l, 0 ≤ f a) :
    (l.map f).sum = 0 ↔ ∀ a ∈ l, f a = 0 := by
  induction l with
  | nil => simp
  | cons a l ih =>
    have h0 := h a (by simp)
    have hl : ∀ b ∈ l, 0 ≤ f b := fun b hb => h b (by simp [hb])
    have hs : 0 ≤ (l.map f).sum := List.sum_nonneg (by simpa using hl)
    simp only [List.map_cons, List.sum_cons, List.mem_cons, forall_eq_or_imp, ← ih hl]
    constructor
    · intro h; constructor <;> linarith
    · rintro ⟨h1, h2⟩; rw [h1, h2]; simp

theorem tableDiv_zero_iff {D} (hD : GoodDiv D) (t : List Row) :
    divSum D (events t) (nonevents t) t = 0 ↔ ∀ r ∈ t, r.mixed = true → eventShare t r = noneventShare t r := by
  by_cases h : ∃ r ∈ t, r.mixed = true
  · obtain ⟨r, hr, hm⟩ := h
    obtain ⟨h1, h2⟩ := events_pos_of_mem hr hm
    have h1 : (0 : ℝ) < events t := by exact_mod_cast h1
    have h2 : (0 : ℝ) < nonevents t := by exact_mod_cast h2
    unfold divSum
    rw [sum_eq_zero_iff_nonneg]
    · refine forall₂_congr fun r hr => ?_
      by_cases hm : r.mixed = true
      · simp only [hm, if_true, forall_const]
        exact hD.zero_iff _ _ (shares_pos h1 h2 hm).1 (shares_pos h1 h2 hm).2
      · simp [hm]
    · intro r _
      split_ifs with h
      · exact hD.nonneg _ _ (shares_pos h1 h2 h).1 (shares_pos h1 h2 h).2
      · exact le_rfl
  · push Not at h
    rw [no_mixed_divSum (fun r hr => by simpa using h r hr)]
    simp only [true_iff]
    intro r hr hm; exact absurd hm (h r hr)

theorem events_swap (t : List Row) : events (Spec.swapColumns t) = nonevents t := by
  simp [Spec.swapColumns, events_eq, nonevents_eq, List.map_map, Function.comp_def]
theorem nonevents_swap (t : List Row) : nonevents (Spec.swapColumns t) = events t := by
  simp [Spec.swapColumns, events_eq, nonevents_eq, List.map_map, Function.comp_def]

theorem tableDiv_swap {D} (hD : GoodDiv D) (t : List Row) :
    divSum D (events (Spec.swapColumns t)) (nonevents (Spec.swapColumns t)) (Spec.swapColumns t) =
      divSum D (events t) (nonevents t) t := by
  rw [events_swap, nonevents_swap]
  unfold divSum Spec.swapColumns
  rw [List.map_map]
  congr 1
  apply List.map_congr_left
  intro r hr
  by_cases hm : r.mixed = true
  · have h1 : (0 : ℝ) < events t := by exact_mod_cast (events_pos_of_mem hr hm).1
    have h2 : (0 : ℝ) < nonevents t := by exact_mod_cast (events_pos_of_mem hr hm).2
    have hm' : (⟨r.event, r.nonevent⟩ : Row).mixed = true := by rw [mixed_iff] at hm ⊢; exact ⟨hm.2, hm.1⟩
    simp only [Function.comp_apply, hm', hm, if_true]
    exact hD.symm _ _ (shares_pos h1 h2 hm).2 (shares_pos h1 h2 hm).1
  · have hm' : ¬ (⟨r.event, r.nonevent⟩ : Row).mixed = true := by
      rw [mixed_iff] at hm ⊢; exact fun h => hm ⟨h.2, h.1⟩
    simp [hm', hm]

theorem mixed_sum_le (te : ℝ) (hte : 0 ≤ te) (t : List Row) (f : Row → ℕ) (hle : ((t.map f).sum : ℝ) ≤ te) :
    (t.map fun r => if r.mixed then (f r : ℝ) / te else 0).sum ≤ 1 := by
  have h1 : (t.map fun r => if r.mixed then (f r : ℝ) / te else 0).sum ≤ (t.map fun r => (f r : ℝ) / te).sum := by
    apply List.sum_le_sum
    intro r _
    split_ifs
    · exact le_rfl
    · positivity
  have h2 : (t.map fun r => (f r : ℝ) / te).sum = ((t.map f).sum : ℝ) / te := by
    rw [← cast_sum_map]
    simp only [div_eq_mul_inv]
    rw [List.sum_map_mul_right]
  rw [h2] at h1
  exact h1.trans (div_le_one_of_le₀ hle hte)

/-- A per-row bound `D x y ≤ c (x + y)` sums up to `2 c`. -/
theorem tableDiv_le {D} (c : ℝ) (hc : 0 ≤ c) (hD : ∀ x y, 0 < x → 0 < y → D x y ≤ c * (x + y)) (t : List Row) :
    divSum D (events t) (nonevents t) t ≤ 2 * c := by
  by_cases h : ∃ r ∈ t, r.mixed = true
  · obtain ⟨r, hr, hm⟩ := h
    obtain ⟨h1, h2⟩ := events_pos_of_mem hr hm
    have h1 : (0 : ℝ) < events t := by exact_mod_cast h1
    have h2 : (0 : ℝ) < nonevents t := by exact_mod_cast h2
    have a := mixed_sum_le (events t) h1.le t Row.event (by simp [events_eq])
    have b := mixed_sum_le (nonevents t) h2.le t Row.nonevent (by simp [nonevents_eq])
    have : divSum D (events t) (nonevents t) t ≤
        (t.map fun r => c * ((if r.mixed then (r.event : ℝ) / events t else 0)
          + (if r.mixed then (r.nonevent : ℝ) / nonevents t else 0))).sum := by
      apply List.sum_le_sum
      intro r _
      split_ifs with h
      · exact hD _ _ (shares_pos h1 h2 h).1 (shares_pos h1 h2 h).2
      · simp
    rw [List.sum_map_mul_left, List.sum_map_add] at this
    nlinarith
  · push Not at h
    rw [no_mixed_divSum (fun r hr => by simpa using h r hr)]
    positivity

/-- Rows that are mixed or empty. -/
theorem mixed_or_empty {r : Row} (h : ¬ Spec.PureRow r) : r.mixed = true ∨ (r.event = 0 ∧ r.nonevent = 0) := by
  rw [mixed_iff]; unfold Spec.PureRow at h; omega

theorem union_cons (a : Row) (g : List Row) :
    union (a :: g) = ⟨a.nonevent + (union g).nonevent, a.event + (union g).event⟩ := rfl

theorem union_not_pure {g : List Row} (h : ∀ r ∈ g, ¬ Spec.PureRow r) : ¬ Spec.PureRow (union g) := by
  induction g with
  | nil => simp [union, Spec.PureRow]
  | cons a g ih =>
    have h1 := h a (by simp)
    have h2 := ih fun r hr => h r (by simp [hr])
    rw [union_cons]
    unfold Spec.PureRow at *
    simp only at *
    omega

/-- Contribution of one row. -/
noncomputable def rowDiv (D : ℝ → ℝ → ℝ) (te tne : ℝ) (r : Row) : ℝ :=
  if r.mixed then D ((r.event : ℝ) / te) ((r.nonevent : ℝ) / tne) else 0

theorem rowDiv_add {D} (hD : GoodDiv D) {te tne : ℝ} (hte : 0 < te) (htne : 0 < tne) {a b : Row}
    (ha : ¬ Spec.PureRow a) (hb : ¬ Spec.PureRow b) :
    rowDiv D te tne ⟨a.nonevent + b.nonevent, a.event + b.event⟩ ≤ rowDiv D te tne a + rowDiv D te tne b := by
  rcases mixed_or_empty ha with ha | ha
  · rcases mixed_or_empty hb with hb | hb
    · have hm : (⟨a.nonevent + b.nonevent, a.event + b.event⟩ : Row).mixed = true := by
        rw [mixed_iff] at *; simp; omega
      simp only [rowDiv, ha, hb, hm, if_true]
      push_cast
      rw [add_div, add_div]
      exact hD.subadd _ _ _ _ (shares_pos hte htne ha).1 (shares_pos hte htne hb).1 (shares_pos hte htne ha).2
        (shares_pos hte htne hb).2
    · have hm : ¬ b.mixed = true := by rw [mixed_iff]; omega
      have e : (⟨a.nonevent + b.nonevent, a.event + b.event⟩ : Row) = a := by
        rw [hb.1, hb.2]; rfl
      rw [e]
      simp [rowDiv, hm]
  · have hm : ¬ a.mixed = true := by rw [mixed_iff]; omega
    have e : (⟨a.nonevent + b.nonevent, a.event + b.event⟩ : Row) = b := by
      rw [ha.1, ha.2]; simp
    rw [e]
    simp [rowDiv, hm]

theorem rowDiv_union {D} (hD : GoodDiv D) {te tne : ℝ} (hte : 0 < te) (htne : 0 < tne) (g : List Row)
    (h : ∀ r ∈ g, ¬ Spec.PureRow r) : rowDiv D te tne (union g) ≤ (g.map (rowDiv D te tne)).sum := by
  induction g with
  | nil => simp [union, rowDiv, Spec.Row.mixed]
  | cons a g ih =>
    rw [union_cons, List.map_cons, List.sum_cons]
    have h2 := ih fun r hr => h r (by simp [hr])
    have h3 := rowDiv_add hD hte htne (h a (by simp)) (union_not_pure (g := g) fun r hr => h r (by simp [hr]))
    exact h3.trans (by linarith)

theorem sum_union (f : Row → ℕ) (hf : ∀ g, f (union g) = (g.map f).sum) (groups : List (List Row)) :
    ((groups.map union).map f).sum = (groups.flatten.map f).sum := by
  induction groups with
  | nil => simp
  | cons g gs ih => simp only [List.map_cons, List.sum_cons, List.flatten_cons, List.map_append, List.sum_append, ih, hf]

theorem coarsens_totals {fine coarse : List Row} (h : Spec.Coarsens fine coarse) :
    events coarse = events fine ∧ nonevents coarse = nonevents fine := by
  obtain ⟨groups, hp, rfl⟩ := h
  constructor
  · rw [events_eq, sum_union Row.event (fun _ => rfl), events_eq, (hp.map Row.event).sum_eq]
  · rw [nonevents_eq, sum_union Row.nonevent (fun _ => rfl), nonevents_eq, (hp.map Row.nonevent).sum_eq]

theorem tableDiv_coarsens {D} (hD : GoodDiv D) {fine coarse : List Row} (h : Spec.Coarsens fine coarse)
    (hpure : ∀ r ∈ fine, ¬ Spec.PureRow r) (htwo : Spec.TwoClasses fine) :
    divSum D (events coarse) (nonevents coarse) coarse ≤ divSum D (events fine) (nonevents fine) fine := by
  obtain ⟨e1, e2⟩ := coarsens_totals h
  rw [e1, e2]
  have h1 : (0 : ℝ) < events fine := by exact_mod_cast htwo.1
  have h2 : (0 : ℝ) < nonevents fine := by exact_mod_cast htwo.2
  revert e1 e2 h1 h2
  generalize ((events fine : ℕ) : ℝ) = te
  generalize ((nonevents fine : ℕ) : ℝ) = tne
  intro e1 e2 h1 h2
  clear e1 e2
  obtain ⟨groups, hp, rfl⟩ := h
  have hflat : ∀ r ∈ groups.flatten, ¬ Spec.PureRow r := fun r hr => hpure r (hp.mem_iff.mpr hr)
  show ((groups.map union).map (rowDiv D te tne)).sum ≤ (fine.map (rowDiv D te tne)).sum
  rw [(hp.map _).sum_eq]
  clear hp hpure
  induction groups with
  | nil => simp
  | cons g gs ih =>
    simp only [List.map_cons, List.sum_cons, List.flatten_cons, List.map_append, List.sum_append]
    have a := rowDiv_union hD h1 h2 g fun r hr => hflat r (by simp [hr])
    have b := ih fun r hr => hflat r (by rw [List.flatten_cons]; exact List.mem_append_right _ hr)
    linarith

end OptBinning
