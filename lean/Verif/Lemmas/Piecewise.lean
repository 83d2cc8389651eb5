import Verif.Model.Piecewise
import Verif.Spec.Piecewise
import Verif.Lemmas.Fit3
import Mathlib.Algebra.BigOperators.Intervals
import Mathlib.Data.List.GetD
import Mathlib.Tactic.Ring
import Mathlib.Tactic.FieldSimp
import Mathlib.Topology.Order.OrderClosed
import Mathlib.Topology.Instances.Real.Lemmas

/-! # Lemmas on the piecewise transform -/
set_option linter.unusedSectionVars false
namespace OptBinning
open Spec

variable {F : Type*} [Field F] [LinearOrder F] [IsStrictOrderedRing F]

omit [LinearOrder F] [IsStrictOrderedRing F] in
theorem npPolyval_reverse (c : List F) (v : F) : npPolyval c.reverse v = polyAt c v := by
  unfold npPolyval polyAt
  rw [List.foldl_reverse]
  induction c with
  | nil => simp
  | cons a c ih =>
    rw [List.foldr_cons, ih, List.length_cons, Finset.sum_range_succ', Finset.sum_mul]
    simp only [List.getD_cons_succ, List.getD_cons_zero, pow_zero, mul_one, pow_succ, mul_assoc]

theorem pwClip_isClamp {lb ub : Option F} (h : BoundsOk lb ub) (v : F) : IsClamp lb ub v (pwClip lb ub v) := by
  rcases lb with _ | l <;> rcases ub with _ | u
  · exact ⟨⟨by simp, by simp⟩, fun q _ => by simp [pwClip]⟩
  · refine ⟨⟨by simp, by simp [pwClip]⟩, fun q hq => ?_⟩
    have := hq.2 u rfl
    simp only [pwClip]
    rcases le_total v u with hv | hv
    · simp [min_eq_left hv]
    · rw [min_eq_right hv, abs_of_nonneg (by linarith), abs_of_nonneg (by linarith)]; linarith
  · refine ⟨⟨by simp [pwClip], by simp⟩, fun q hq => ?_⟩
    have := hq.1 l rfl
    simp only [pwClip]
    rcases le_total l v with hv | hv
    · simp [max_eq_left hv]
    · rw [max_eq_right hv, abs_of_nonpos (by linarith), abs_of_nonpos (by linarith)]; linarith
  · have hlu := h l u rfl rfl
    refine ⟨⟨?_, by simp [pwClip]⟩, fun q hq => ?_⟩
    · simp [pwClip, hlu]
    · have h1 := hq.1 l rfl
      have h2 := hq.2 u rfl
      simp only [pwClip]
      rcases le_total l v with hv | hv
      · rw [max_eq_left hv]
        rcases le_total v u with hu | hu
        · simp [min_eq_left hu]
        · rw [min_eq_right hu, abs_of_nonneg (by linarith), abs_of_nonneg (by linarith)]; linarith
      · rw [max_eq_right hv, min_eq_left hlu, abs_of_nonpos (by linarith), abs_of_nonpos (by linarith)]; linarith

omit [IsStrictOrderedRing F] in
theorem pwClip_mono (lb ub : Option F) {v w : F} (h : v ≤ w) : pwClip lb ub v ≤ pwClip lb ub w := by
  rcases lb with _ | l <;> rcases ub with _ | u <;> simp only [pwClip]
  · exact h
  · exact min_le_min_right _ h
  · exact max_le_max_right _ h
  · exact min_le_min_right _ (max_le_max_right _ h)

omit [IsStrictOrderedRing F] in
theorem pwClean_eq (splits : List F) (coef : List (List F)) (lb ub : Option F) (v : F) :
    pwClean splits coef lb ub v = pwClip lb ub (pieces coef (digitize false splits (some v)) v) := by
  unfold pwClean pieces
  by_cases h : splits.length = 0
  · have : splits = [] := List.length_eq_zero_iff.1 h
    subst this
    simp [npPolyval_reverse, digitize]
  · simp [h, npPolyval_reverse]

section order
variable {α : Type*} [LinearOrder α]

theorem digitize_cons_le {a v : α} {s : List α} (hv : a ≤ v) :
    digitize false (a :: s) (some v) = digitize false s (some v) + 1 := by
  simp [digitize, List.countP_cons, hv]

theorem digitize_cons_lt {a v : α} {s : List α} (hs : (a :: s).Pairwise (· ≤ ·)) (hv : v < a) :
    digitize false (a :: s) (some v) = 0 := by
  simp only [digitize, Bool.false_eq_true, if_false]
  rw [List.countP_eq_zero]
  intro b hb
  rcases List.mem_cons.1 hb with rfl | hb
  · simpa using hv
  · simpa using lt_of_lt_of_le hv ((List.pairwise_cons.1 hs).1 b hb)

theorem digitize_mono (s : List α) {v w : α} (h : v ≤ w) : digitize false s (some v) ≤ digitize false s (some w) := by
  simp only [digitize, Bool.false_eq_true, if_false]
  exact List.countP_mono_left fun a _ ha => by simpa using le_trans (by simpa using ha) h

end order

omit [Field F] [IsStrictOrderedRing F] in
theorem getElem?_le_of_sorted {s : List F} (hs : s.Pairwise (· ≤ ·)) {i j : ℕ} {a b : F} (hij : i ≤ j)
    (ha : s[i]? = some a) (hb : s[j]? = some b) : a ≤ b := by
  obtain ⟨h1, rfl⟩ := List.getElem?_eq_some_iff.1 ha
  obtain ⟨h2, rfl⟩ := List.getElem?_eq_some_iff.1 hb
  rcases Nat.lt_or_eq_of_le hij with h | h
  · exact List.pairwise_iff_getElem.1 hs i j h1 h2 h
  · subst h; exact le_rfl

omit [Field F] [IsStrictOrderedRing F] in
theorem inClosed_digitize {s : List F} (hs : s.Pairwise (· ≤ ·)) (v : F) : InClosed s (digitize false s (some v)) v := by
  have h := (inInterval_iff hs v _).1 rfl
  exact ⟨h.2.1, fun a ha => (h.2.2 a ha).le⟩

omit [IsStrictOrderedRing F] in
/-- Pieces that increase and do not jump down form an increasing function. -/
theorem ascending_digitize {s : List F} (hs : s.Pairwise (· ≤ ·)) {P : ℕ → F → F} (hP : AscendingPieces s P) {v w : F}
    (h : v ≤ w) : P (digitize false s (some v)) v ≤ P (digitize false s (some w)) w := by
  have hle := digitize_mono s h
  have hv := inClosed_digitize hs v
  have hlen := digitize_le false s (some w)
  obtain ⟨d, hd⟩ := Nat.exists_eq_add_of_le hle
  rw [hd] at hlen ⊢
  have hw : InClosed s (digitize false s (some v) + d) w := hd ▸ inClosed_digitize hs w
  clear hle hd
  generalize digitize false s (some v) = k at hv hlen hw ⊢
  induction d generalizing k v with
  | zero => exact hP.1 k (by omega) v w hv hw h
  | succ d ih =>
    have hk : k < s.length := by omega
    have hsk : s[k]? = some s[k] := List.getElem?_eq_getElem hk
    have hskw : s[k] ≤ w := by
      have h3 : s[k + d]? = some s[k + d] := List.getElem?_eq_getElem (by omega)
      have := hw.1 s[k + d] (by omega) (by rw [show k + (d + 1) - 1 = k + d by omega]; exact h3)
      exact (getElem?_le_of_sorted hs (by omega) hsk h3).trans this
    have e1 : P k v ≤ P k s[k] := by
      refine hP.1 k hk.le v s[k] hv ⟨fun a h0 ha => ?_, fun a ha => ?_⟩ (hv.2 _ hsk)
      · exact getElem?_le_of_sorted hs (by omega) ha hsk
      · rw [hsk] at ha; exact (Option.some.inj ha).le
    have e2 := hP.2 k s[k] hsk
    have e3 := ih (v := s[k]) hskw (k + 1) ⟨fun a _ ha => ?_, fun a ha => ?_⟩ (by omega) (by
      rw [show k + 1 + d = k + (d + 1) by omega]; exact hw)
    · rw [show k + (d + 1) = k + 1 + d by omega]
      exact e1.trans (e2.trans e3)
    · rw [Nat.add_sub_cancel, hsk] at ha; exact (Option.some.inj ha).ge
    · exact getElem?_le_of_sorted hs (by omega) hsk ha

/-- Pieces that decrease and do not jump up form a decreasing function. -/
theorem descending_digitize {s : List F} (hs : s.Pairwise (· ≤ ·)) {P : ℕ → F → F} (hP : DescendingPieces s P) {v w : F}
    (h : v ≤ w) : P (digitize false s (some w)) w ≤ P (digitize false s (some v)) v := by
  have := ascending_digitize hs (P := fun k v => -P k v)
    ⟨fun k hk a b ha hb hab => neg_le_neg (hP.1 k hk a b ha hb hab), fun k a ha => neg_le_neg (hP.2 k a ha)⟩ h
  exact neg_le_neg_iff.1 this

omit [Field F] [IsStrictOrderedRing F] in
theorem piecesAgree_first {s : List F} (hs : s.Pairwise (· ≤ ·)) {P : ℕ → F → F}
    (hP : PiecesAgree s P) {a : F} (ha : ∀ t ∈ s, a ≤ t) : P (digitize false s (some a)) a = P 0 a := by
  induction s generalizing P with
  | nil => simp [digitize]
  | cons b t ih =>
    rcases lt_or_ge a b with h | h
    · rw [digitize_cons_lt hs h]
    · have hab : b = a := le_antisymm h (ha b (by simp))
      subst hab
      rw [digitize_cons_le h]
      have := ih (List.pairwise_cons.1 hs).2 (P := fun k => P (k + 1)) (fun k c hc => hP (k + 1) c (by simpa using hc))
        (fun t ht => ha t (by simp [ht]))
      rw [this]
      exact (hP 0 b rfl).symm

/-- Continuous pieces that agree at the split points form a continuous function. -/
theorem continuous_digitize {s : List ℝ} (hs : s.Pairwise (· ≤ ·)) {P : ℕ → ℝ → ℝ} (hc : ∀ k, Continuous (P k))
    (hP : PiecesAgree s P) : Continuous fun v => P (digitize false s (some v)) v := by
  induction s generalizing P with
  | nil => simpa [digitize] using hc 0
  | cons b t ih =>
    have ht := (List.pairwise_cons.1 hs).2
    have hP' : PiecesAgree t fun k => P (k + 1) := fun k c hc => hP (k + 1) c (by simpa using hc)
    have h1 := ih ht (fun k => hc (k + 1)) hP'
    have : (fun v => P (digitize false (b :: t) (some v)) v) =
        fun v => if b ≤ v then P (digitize false t (some v) + 1) v else P 0 v := by
      funext v
      by_cases h : b ≤ v
      · rw [if_pos h, digitize_cons_le h]
      · rw [if_neg h, digitize_cons_lt hs (not_le.1 h)]
    rw [this]
    refine Continuous.if_le h1 (hc 0) continuous_const continuous_id fun v hv => ?_
    have hv : b = v := hv
    subst hv
    have := piecesAgree_first ht hP' (a := b) (List.pairwise_cons.1 hs).1
    simp only [Nat.zero_add] at this
    rw [this]
    exact (hP 0 b rfl).symm

theorem continuous_polyAt (c : List ℝ) : Continuous (polyAt c) := by
  unfold polyAt
  exact continuous_finsetSum _ fun j _ => continuous_const.mul (continuous_pow j)

theorem continuous_pwClip (lb ub : Option ℝ) : Continuous (pwClip lb ub) := by
  rcases lb with _ | l <;> rcases ub with _ | u <;> unfold pwClip
  · exact continuous_id
  · exact continuous_id.min continuous_const
  · exact continuous_id.max continuous_const
  · exact (continuous_id.max continuous_const).min continuous_const

/-! ### which rule applies to a value -/

theorem groupCount_eq (sc : SpecialCodes F) : sc.count = nGroups sc := by cases sc <;> rfl

theorem pwApply_clean {V : Type*} [Zero V] {sc : SpecialCodes F} (clean : F → V) (special : ℕ → V) (missing : V)
    (ms mm : Option V) {v : F} (hv : ¬ IsSpecialValue sc (some v)) :
    pwApply sc clean special missing ms mm (some v) = clean v := by
  unfold pwApply
  have : sc.codes.contains (some v) = false := by
    rw [Bool.eq_false_iff]; exact fun h => hv ((contains_codes_iff _ _).1 h)
  rw [assign_clean _ _ _ _ _ _ _ hv]
  simp only [this, Bool.false_eq_true, if_false]

theorem pwApply_missing {V : Type*} [Zero V] (sc : SpecialCodes F) (clean : F → V) (special : ℕ → V) (missing : V)
    (ms mm : Option V) : pwApply sc clean special missing ms mm none = mm.getD missing := by
  unfold pwApply
  rw [assign_missing]
  simp

theorem pwApply_group {V : Type*} [Zero V] {sc : SpecialCodes F} (hp : ProperCodes sc) (clean : F → V) (special : ℕ → V)
    (missing : V) (ms mm : Option V) {x : Option F} {j : ℕ} (hj : InGroup sc j x) :
    pwApply sc clean special missing ms mm x = ms.getD (special j) := by
  cases sc with
  | none => exact hj.elim
  | list l =>
    obtain ⟨rfl, hx⟩ := hj
    cases x with
    | none => exact absurd hx hp.1
    | some v =>
      unfold pwApply
      rw [assign_list _ _ _ _ _ _ _ hx]
      simp [SpecialCodes.count]
  | dict gs =>
    obtain ⟨g, hg, hx⟩ := hj
    cases x with
    | none => exact absurd ⟨g, List.mem_of_getElem? hg, hx⟩ hp.1
    | some v =>
      unfold pwApply
      obtain ⟨hlt, hg'⟩ := List.getElem?_eq_some_iff.1 hg
      rw [assign_dict _ gs _ _ _ _ _ hp.2 hlt (by rw [hg']; exact hx)]
      simp [SpecialCodes.count, hlt]

end OptBinning
