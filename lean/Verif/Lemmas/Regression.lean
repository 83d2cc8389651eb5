import Verif.Model.Regression
import Verif.Spec.Regression
import Verif.Props.Outlier
import Mathlib.Algebra.Order.BigOperators.Group.List

/-! # Lemmas for C95 -/
namespace OptBinning

open Spec

theorem XQ.foldr_num (l : List ℚ) : (l.map XQ.num).foldr XQ.add (.num 0) = .num l.sum := by
  induction l with
  | nil => rfl
  | cons a l ih => simp [ih, XQ.add]

theorem XQ.foldr_nan_iff_of_noninf {l : List XQ} (h : XQ.ninf ∉ l) :
    ((l.foldr XQ.add (.num 0) = .nan ↔ XQ.nan ∈ l)) ∧ (l.foldr XQ.add (.num 0) = .pinf ↔ XQ.nan ∉ l ∧ XQ.pinf ∈ l) ∧
      l.foldr XQ.add (.num 0) ≠ .ninf := by
  induction l with
  | nil => simp
  | cons a l ih =>
    rw [List.mem_cons, not_or] at h
    obtain ⟨h1, h2, h3⟩ := ih h.2
    rw [List.foldr_cons]
    cases a with
    | nan => simp [XQ.add]
    | ninf => exact absurd rfl h.1
    | pinf =>
      cases e : l.foldr XQ.add (.num 0) with
      | nan => simp [XQ.add, h1.1 e]
      | ninf => exact absurd e h3
      | num q => rw [e] at h1; simp [XQ.add]; simpa using h1
      | pinf => rw [e] at h1; simp [XQ.add]; simpa using h1
    | num p =>
      cases e : l.foldr XQ.add (.num 0) with
      | nan => simp [XQ.add, h1.1 e]
      | ninf => exact absurd e h3
      | num q => rw [e] at h1 h2; simp [XQ.add]; simp at h1 h2; exact ⟨h1, fun _ => h2 h1⟩
      | pinf => rw [e] at h1 h2; simp [XQ.add]; simp at h1 h2; exact h2

theorem XQ.mean_num {l : List ℚ} (h : l ≠ []) : XQ.mean (l.map XQ.num) = .num (average l) := by
  rw [XQ.mean, if_neg (by simpa using h), XQ.foldr_num]
  simp [XQ.divNat, average]

theorem XQ.divNat_eq {a : XQ} {n : ℕ} : (a.divNat n = .nan ↔ a = .nan) ∧ (a.divNat n = .pinf ↔ a = .pinf) := by
  cases a <;> simp [XQ.divNat]

theorem XQ.mean_nan_iff {l : List XQ} (h : XQ.ninf ∉ l) : XQ.mean l = .nan ↔ l = [] ∨ XQ.nan ∈ l := by
  rw [XQ.mean]
  split
  · simp [*]
  · rw [XQ.divNat_eq.1, (XQ.foldr_nan_iff_of_noninf h).1]
    simp [*]

theorem XQ.mean_pinf_iff {l : List XQ} (h : XQ.ninf ∉ l) : XQ.mean l = .pinf ↔ XQ.nan ∉ l ∧ XQ.pinf ∈ l := by
  rw [XQ.mean]
  split
  · simp [*]
  · rw [XQ.divNat_eq.2, (XQ.foldr_nan_iff_of_noninf h).2.1]

/-! ### median -/

theorem XQ.num_le {a b : ℚ} : XQ.num a ≤ XQ.num b ↔ a ≤ b := by
  show XQ.key _ ≤ XQ.key _ ↔ _
  simp [XQ.key]

theorem XQ.le_pinf {a : ℚ} : XQ.num a ≤ XQ.pinf := by
  show XQ.key _ ≤ XQ.key _
  simp [XQ.key]

theorem XQ.sort_eq {l : List XQ} {f : List ℚ} {k : ℕ} (h : l.Perm (f.map XQ.num ++ List.replicate k XQ.pinf)) :
    l.insertionSort (· ≤ ·) = (sortQ f).map XQ.num ++ List.replicate k XQ.pinf := by
  refine List.Perm.eq_of_pairwise (le := (· ≤ ·)) (fun a b _ _ h1 h2 => le_antisymm h1 h2)
    (List.pairwise_insertionSort _ _) ?_ ((List.perm_insertionSort _ _).trans (h.trans ?_))
  · rw [List.pairwise_append]
    refine ⟨?_, List.pairwise_replicate.2 (Or.inr le_rfl), ?_⟩
    · rw [List.pairwise_map]
      exact (sortQ_sorted f).imp fun h => XQ.num_le.2 h
    · intro a ha b hb
      obtain ⟨q, _, rfl⟩ := List.mem_map.1 ha
      rw [(List.mem_replicate.1 hb).2]
      exact XQ.le_pinf
  · exact List.Perm.append_right _ ((sortQ_perm f).symm.map _)

theorem isMedian_sorted {k : ℕ} {m : ℚ} {l : List ℚ} (h : IsMedian k m l) :
    (∃ j, l.length + k = 2 * j + 1 ∧ (sortQ l)[j]? = some m) ∨
     ∃ j a b, l.length + k = 2 * j + 2 ∧ (sortQ l)[j]? = some a ∧ (sortQ l)[j + 1]? = some b ∧ m = (a + b) / 2 := by
  obtain ⟨s, h1, h2, h3⟩ := h
  have e : s = sortQ l := List.Perm.eq_of_pairwise (le := (· ≤ ·)) (fun a b _ _ h1 h2 => le_antisymm h1 h2) h2 (sortQ_sorted l)
    (h1.trans (sortQ_perm l).symm)
  rw [← h1.length_eq, ← e]
  exact h3

theorem XQ.getD_sorted {f : List ℚ} {k j : ℕ} (hj : j < f.length + k) :
    ((sortQ f).map XQ.num ++ List.replicate k XQ.pinf).getD j .nan =
      if h : j < f.length then .num ((sortQ f)[j]'(by rw [sortQ_length]; exact h)) else .pinf := by
  rw [List.getD_eq_getElem _ _ (by simpa [sortQ_length] using hj)]
  split
  · rw [List.getElem_append_left (by simpa [sortQ_length] using ‹_›), List.getElem_map]
  · rw [List.getElem_append_right (by simp [sortQ_length]; omega), List.getElem_replicate]

theorem XQ.median_iff {l : List XQ} {f : List ℚ} {k : ℕ} (h : l.Perm (f.map XQ.num ++ List.replicate k XQ.pinf)) (hl : l ≠ []) :
    (∀ m, XQ.median l = .num m ↔ IsMedian k m f) ∧ (XQ.median l = .pinf ↔ l.length ≤ 2 * k) ∧ XQ.median l ≠ .nan ∧
      XQ.median l ≠ .ninf := by
  have hn : XQ.nan ∉ l := by
    rw [h.mem_iff]
    simp
  have hlen : l.length = f.length + k := by rw [h.length_eq]; simp
  have hpos := List.length_pos_iff_ne_nil.2 hl
  have hsl := sortQ_length f
  have key : XQ.median l = if l.length % 2 = 1 then
      ((sortQ f).map XQ.num ++ List.replicate k XQ.pinf).getD (l.length / 2) .nan
      else ((((sortQ f).map XQ.num ++ List.replicate k XQ.pinf).getD (l.length / 2 - 1) .nan).add
        (((sortQ f).map XQ.num ++ List.replicate k XQ.pinf).getD (l.length / 2) .nan)).divNat 2 := by
    rw [XQ.median, if_neg (by tauto), XQ.sort_eq h]
    have : ((sortQ f).map XQ.num ++ List.replicate k XQ.pinf).length = l.length := by simp [hsl, hlen]
    simp only [this]
  rw [key]
  split
  · rename_i hodd
    rw [XQ.getD_sorted (by omega)]
    split
    · rename_i hj
      refine ⟨fun m => ⟨fun hm => ?_, fun hm => ?_⟩, ⟨fun h => by simp at h, fun h => by omega⟩, by simp, by simp⟩
      · refine ⟨sortQ f, sortQ_perm f, sortQ_sorted f, Or.inl ⟨l.length / 2, by omega, ?_⟩⟩
        rw [List.getElem?_eq_getElem (by omega)]
        simpa using hm
      · rcases isMedian_sorted hm with ⟨j, h1, h2⟩ | ⟨j, a, b, h1, _⟩
        · have : j = l.length / 2 := by omega
          subst this
          rw [List.getElem?_eq_getElem (by omega)] at h2
          simpa using h2
        · omega
    · rename_i hj
      refine ⟨fun m => ⟨fun hm => by simp at hm, fun hm => ?_⟩, ⟨fun _ => by omega, fun _ => rfl⟩, by simp, by simp⟩
      rcases isMedian_sorted hm with ⟨j, h1, h2⟩ | ⟨j, a, b, h1, _⟩
      · have := (List.getElem?_eq_some_iff.1 h2).1
        omega
      · omega
  · rename_i hodd
    rw [XQ.getD_sorted (by omega), XQ.getD_sorted (by omega)]
    by_cases hj : l.length / 2 < f.length
    · rw [dif_pos hj, dif_pos (by omega)]
      simp only [XQ.add, XQ.divNat]
      refine ⟨fun m => ⟨fun hm => ?_, fun hm => ?_⟩, ⟨fun h => by simp at h, fun h => by omega⟩, by simp, by simp⟩
      · refine ⟨sortQ f, sortQ_perm f, sortQ_sorted f, Or.inr ⟨l.length / 2 - 1, _, (sortQ f)[l.length / 2], by omega,
          List.getElem?_eq_getElem (by omega), ?_, ?_⟩⟩
        · rw [show l.length / 2 - 1 + 1 = l.length / 2 by omega]
          exact List.getElem?_eq_getElem (by omega)
        · simpa using hm.symm
      · rcases isMedian_sorted hm with ⟨j, h1, _⟩ | ⟨j, a, b, h1, h2, h3, h4⟩
        · omega
        · have e : j + 1 = l.length / 2 := by omega
          have e' : j = l.length / 2 - 1 := by omega
          rw [e, List.getElem?_eq_getElem (by omega)] at h3
          rw [e', List.getElem?_eq_getElem (by omega)] at h2
          rw [h4, ← Option.some.inj h2, ← Option.some.inj h3]
          simp
    · rw [dif_neg hj]
      have hadd : ∀ x : XQ, x ≠ .nan → x ≠ .ninf → (x.add .pinf).divNat 2 = .pinf := by
        intro x h1 h2
        cases x <;> simp_all [XQ.add, XQ.divNat]
      rw [hadd _ (by split <;> simp) (by split <;> simp)]
      refine ⟨fun m => ⟨fun hm => by simp at hm, fun hm => ?_⟩, ⟨fun _ => by omega, fun _ => rfl⟩, by simp, by simp⟩
      rcases isMedian_sorted hm with ⟨j, h1, _⟩ | ⟨j, a, b, h1, h2, h3, h4⟩
      · omega
      · have := (List.getElem?_eq_some_iff.1 h3).1
        omega

end OptBinning
