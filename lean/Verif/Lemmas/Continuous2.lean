import Mathlib.Algebra.Order.BigOperators.Group.List
import Mathlib.Tactic.FieldSimp
import Mathlib.Tactic.Positivity
import Verif.Lemmas.Continuous
import Verif.Lemmas.ContinuousSolver

/-! # Rows of the continuous binning table as summaries of the training targets -/
set_option linter.unusedSectionVars false
set_option linter.unusedSimpArgs false
namespace OptBinning
open Spec Finset

variable {α : Type*} [LinearOrder α]

theorem sum_sq_dev (ys : List ℚ) (m : ℚ) :
    (ys.map fun y => (y - m) ^ 2).sum = (ys.map (· ^ 2)).sum - 2 * m * ys.sum + ys.length * m ^ 2 := by
  induction ys with
  | nil => simp
  | cons y ys ih => simp only [List.map_cons, List.sum_cons, ih, List.length_cons, Nat.cast_succ]; ring

theorem variance_eq {ys : List ℚ} (h : ys ≠ []) :
    variance ys = (ys.map (· ^ 2)).sum / ys.length - (ys.sum / ys.length) ^ 2 := by
  have hn : (ys.length : ℚ) ≠ 0 := by
    have := List.length_pos_iff.2 h
    positivity
  unfold variance mean
  rw [sum_sq_dev]
  field_simp
  ring

theorem isMin_min? {ys : List ℚ} (h : ys ≠ []) : ∃ m, ys.min? = some m ∧ IsMin ys m := by
  cases hm : ys.min? with
  | none => exact absurd (List.min?_eq_none_iff.1 hm) h
  | some m => exact ⟨m, rfl, List.min?_eq_some_iff.1 hm⟩

theorem isMax_max? {ys : List ℚ} (h : ys ≠ []) : ∃ m, ys.max? = some m ∧ IsMax ys m := by
  cases hm : ys.max? with
  | none => exact absurd (List.max?_eq_none_iff.1 hm) h
  | some m => exact ⟨m, rfl, List.max?_eq_some_iff.1 hm⟩

theorem Spec.Summarises.perm {ys zs : List ℚ} (hp : ys.Perm zs) {c : ℕ} {s v a b : Option ℚ} {z : ℕ}
    (h : Summarises ys c s v a b z) : Summarises zs c s v a b z := by
  have hne : zs ≠ [] → ys ≠ [] := fun h1 h2 => h1 (by subst h2; exact List.nil_perm.1 hp)
  have hvar : variance ys = variance zs := by
    unfold variance mean
    rw [hp.sum_eq, hp.length_eq, (hp.map _).sum_eq]
  refine ⟨h.count.trans hp.length_eq, by rw [h.sum, hp.sum_eq], h.zeros.trans (hp.count_eq 0), ?_, ?_, ?_⟩
  · intro h1; rw [h.spread (hne h1), hvar]
  · intro h1
    obtain ⟨m, e, hm⟩ := h.least (hne h1)
    exact ⟨m, e, hp.mem_iff.1 hm.1, fun y hy => hm.2 y (hp.mem_iff.2 hy)⟩
  · intro h1
    obtain ⟨m, e, hm⟩ := h.greatest (hne h1)
    exact ⟨m, e, hp.mem_iff.1 hm.1, fun y hy => hm.2 y (hp.mem_iff.2 hy)⟩

/-- The targets of a list of records. -/
def ysOf (l : List (RecC α)) : List ℚ := l.filterMap RecC.y

/-- All targets known, all weights one. -/
def PlainC (l : List (RecC α)) : Prop := KnownTargetsC l ∧ UnitWeights l

theorem PlainC.cons {r : RecC α} {l : List (RecC α)} (h : PlainC (r :: l)) :
    (∃ y, r.y = some y ∧ r.w = 1) ∧ PlainC l := by
  refine ⟨?_, fun q hq => h.1 q (by simp [hq]), fun q hq => h.2 q (by simp [hq])⟩
  cases hy : r.y with
  | none => exact absurd hy (h.1 r (by simp))
  | some y => exact ⟨y, rfl, h.2 r (by simp)⟩

theorem PlainC.subset {a b : List (RecC α)} (h : PlainC b) (hs : a ⊆ b) : PlainC a :=
  ⟨fun q hq => h.1 q (hs hq), fun q hq => h.2 q (hs hq)⟩

theorem PlainC.ys {l : List (RecC α)} (h : PlainC l) :
    (l.map fun r => r.w * r.y.getD 0) = ysOf l ∧ l.map RecC.wy = (ysOf l).map some ∧ truncWeightC l = (ysOf l).length ∧
      (ysOf l).length = l.length ∧ (l.map RecC.w).sum = l.length := by
  induction l with
  | nil => simp [ysOf, truncWeightC]
  | cons r l ih =>
    obtain ⟨⟨y, hy, hw⟩, hl⟩ := h.cons
    obtain ⟨h1, h2, -, h4, h5⟩ := ih hl
    have h6 : ysOf (r :: l) = y :: ysOf l := by simp [ysOf, hy]
    refine ⟨by simp [h6, h1, hy, hw], by simp [h6, h2, RecC.wy, hy, hw], ?_, by simp [h6, h4], by simp [h5, hw]; ring⟩
    simp only [truncWeightC, List.map_cons, List.sum_cons, h5, hw, h6, List.length_cons, h4]
    rw [show (1 : ℚ) + (l.length : ℚ) = ((l.length + 1 : ℕ) : ℚ) by push_cast; ring, Nat.floor_natCast]

theorem PlainC.whole {l : List (RecC α)} (h : PlainC l) : WholeC l := fun r hr => ⟨1, by simp [h.2 r hr]⟩

theorem allKnown_some (l : List ℚ) : allKnown (l.map some) = some l := by
  unfold allKnown
  rw [if_neg (by simp)]
  simp

theorem cellOf_summarises {l : List (RecC α)} (h : PlainC l) :
    Summarises (ysOf l) (cellOf l).row.cnt (cellOf l).row.sum (cellOf l).row.var (cellOf l).row.mn (cellOf l).row.mx
      (cellOf l).row.zeros := by
  obtain ⟨h1, -, h3, -, -⟩ := h.ys
  simp only [cellOf, CellC.row, h1, h3]
  exact ⟨rfl, rfl, rfl, fun hne => by rw [variance_eq hne], isMin_min?, isMax_max?⟩

theorem summaryC_summarises {l : List (RecC α)} (h : PlainC l) :
    Summarises (ysOf l) (summaryC l).cnt (summaryC l).sum (summaryC l).var (summaryC l).mn (summaryC l).mx
      (summaryC l).zeros := by
  obtain ⟨-, h2, h3, -, -⟩ := h.ys
  simp only [summaryC, h2, h3, allKnown_some, Option.map_some, Option.bind_some]
  refine ⟨rfl, rfl, ?_, fun hne => ?_, isMin_min?, isMax_max?⟩
  · rw [List.count, List.countP_map]
    exact List.countP_congr fun y _ => by simp
  · rw [if_neg hne]; rfl

theorem Spec.Summarises.of_nil {v a b v' a' b' : Option ℚ} {c : ℕ} {s : Option ℚ} {z : ℕ}
    (h : Summarises [] c s v a b z) : Summarises [] c s v' a' b' z :=
  ⟨h.count, h.sum, h.zeros, fun h => absurd rfl h, fun h => absurd rfl h, fun h => absurd rfl h⟩

/-! ### which records belong to which row -/

/-- Index assigned by `transform(metric="indices")` with empirical options. -/
def idxC (splits : List α) (sc : SpecialCodes α) (x : Option α) : ℤ :=
  transformOne splits sc (fun i => (i : ℤ)) (-1) none none x

/-- Records behind the special row `j`. -/
def specialGroup (sc : SpecialCodes α) (special : List (RecC α)) (j : ℕ) : List (RecC α) :=
  match sc with
  | .dict gs => special.filter fun r => (gs.getD j ("", [])).2.contains r.x
  | _ => special

theorem isSpecial_iff (sc : SpecialCodes α) (r : RecC α) : r.isSpecial sc = true ↔ IsSpecialValue sc r.x :=
  contains_codes_iff sc r.x

theorem idx_regular {splits : List α} {sc : SpecialCodes α} (hp : ProperCodes sc) {recs : List (RecC α)}
    (hk : KnownTargetsC recs) {k : ℕ} (hkl : k ≤ splits.length) :
    (recs.filter fun r => decide (idxC splits sc r.x = k)) =
      (splitDataC sc none recs).clean.filter fun r => digitize false splits r.x == k := by
  simp only [splitDataC, List.filter_filter]
  refine List.filter_congr fun r hr => ?_
  have hy : r.y.isNone = false := by
    cases h : r.y with
    | none => exact absurd h (hk r hr)
    | some y => rfl
  rw [Bool.eq_iff_iff]
  simp only [decide_eq_true_eq, Bool.and_eq_true, beq_iff_eq, Bool.not_eq_true', RecC.isMissing, hy, Bool.or_false]
  cases hx : r.x with
  | none =>
    simp only [idxC, transformOne_missing, Option.getD_none, Option.isNone_none, Bool.true_eq_false, false_and,
      and_false, iff_false]
    intro h; have : splits.length + 1 + sc.count = k := by exact_mod_cast h
    omega
  | some v =>
    by_cases hs : IsSpecialValue sc (some v)
    · obtain ⟨i, hi, h⟩ := special_index (β := ℤ) hp hs
      have h1 : r.isSpecial sc = true := (isSpecial_iff sc r).2 (hx ▸ hs)
      rw [idxC, h]
      simp only [Option.getD_none, h1, Bool.true_eq_false, and_false, iff_false]
      intro h; have : splits.length + 1 + i = k := by exact_mod_cast h
      omega
    · have h1 : r.isSpecial sc = false := by
        rw [Bool.eq_false_iff]; exact fun hc => hs (hx ▸ (isSpecial_iff sc r).1 hc)
      rw [idxC, transformOne_clean _ _ _ _ _ _ _ hs]
      simp only [h1, Option.isNone_some, and_self, and_true]
      exact_mod_cast Iff.rfl

theorem idx_missing {splits : List α} {sc : SpecialCodes α} (hp : ProperCodes sc) {recs : List (RecC α)}
    (hk : KnownTargetsC recs) :
    (recs.filter fun r => decide (idxC splits sc r.x = ((splits.length + 1 + sc.count : ℕ) : ℤ))) =
      (splitDataC sc none recs).missing := by
  simp only [splitDataC]
  refine List.filter_congr fun r hr => ?_
  have hy : r.y.isNone = false := by
    cases h : r.y with
    | none => exact absurd h (hk r hr)
    | some y => rfl
  rw [Bool.eq_iff_iff]
  simp only [decide_eq_true_eq, RecC.isMissing, hy, Bool.or_false]
  cases hx : r.x with
  | none => simp [idxC, transformOne_missing]
  | some v =>
    simp only [Option.isNone_some, Bool.false_eq_true, iff_false]
    by_cases hs : IsSpecialValue sc (some v)
    · obtain ⟨i, hi, h⟩ := special_index (β := ℤ) hp hs
      rw [idxC, h]
      simp only [Option.getD_none]
      intro h; have : splits.length + 1 + i = splits.length + 1 + sc.count := by exact_mod_cast h
      omega
    · rw [idxC, transformOne_clean _ _ _ _ _ _ _ hs]
      have := digitize_le false splits (some v)
      intro h; have : digitize false splits (some v) = splits.length + 1 + sc.count := by exact_mod_cast h
      omega

theorem idx_special {splits : List α} {sc : SpecialCodes α} (hp : ProperCodes sc) {recs : List (RecC α)} {j : ℕ}
    (hj : j < sc.count) :
    (recs.filter fun r => decide (idxC splits sc r.x = ((splits.length + 1 + j : ℕ) : ℤ))) =
      specialGroup sc (splitDataC sc none recs).special j := by
  have key : ∀ r ∈ recs, ¬ IsSpecialValue sc r.x → idxC splits sc r.x ≠ ((splits.length + 1 + j : ℕ) : ℤ) := by
    intro r _ hs
    cases hx : r.x with
    | none =>
      simp only [idxC, transformOne_missing, Option.getD_none]
      intro h; have : splits.length + 1 + sc.count = splits.length + 1 + j := by exact_mod_cast h
      omega
    | some v =>
      rw [hx] at hs
      rw [idxC, transformOne_clean _ _ _ _ _ _ _ hs]
      have := digitize_le false splits (some v)
      intro h; have : digitize false splits (some v) = splits.length + 1 + j := by exact_mod_cast h
      omega
  cases sc with
  | none =>
    simp only [splitDataC, specialGroup]
    refine List.filter_congr fun r hr => ?_
    rw [Bool.eq_iff_iff, isSpecial_iff, decide_eq_true_eq]
    exact ⟨fun h => absurd h (key r hr (by simp [IsSpecialValue])), fun h => h.elim⟩
  | list l =>
    have hj : j = 0 := by simpa [SpecialCodes.count] using hj
    subst hj
    simp only [splitDataC, specialGroup]
    refine List.filter_congr fun r hr => ?_
    rw [Bool.eq_iff_iff, isSpecial_iff, decide_eq_true_eq]
    constructor
    · intro h
      by_contra hc
      exact key r hr hc h
    · intro h
      cases hx : r.x with
      | none => rw [hx] at h; exact absurd h hp.1
      | some v =>
        rw [hx] at h
        rw [idxC, transformOne_list _ _ _ _ _ _ _ h]
        simp
  | dict gs =>
    have hj : j < gs.length := by simpa [SpecialCodes.count] using hj
    simp only [splitDataC, specialGroup, List.filter_filter]
    refine List.filter_congr fun r hr => ?_
    rw [Bool.eq_iff_iff, decide_eq_true_eq, Bool.and_eq_true, isSpecial_iff]
    have hget : gs.getD j ("", []) = gs[j] := by simp [List.getD, hj]
    rw [hget, List.contains_iff_mem]
    constructor
    · intro h
      have hs : IsSpecialValue (.dict gs) r.x := by
        by_contra hc
        exact key r hr hc h
      refine ⟨?_, hs⟩
      cases hx : r.x with
      | none => rw [hx] at hs; exact absurd hs hp.1
      | some v =>
        rw [hx] at hs h
        obtain ⟨g, hg, hxg⟩ := hs
        obtain ⟨i, hi, rfl⟩ := List.mem_iff_getElem.1 hg
        rw [idxC, transformOne_dict _ _ _ _ _ _ _ hp.2 hi hxg, Option.getD_none] at h
        have : splits.length + 1 + i = splits.length + 1 + j := by exact_mod_cast h
        have : i = j := by omega
        subst this
        exact hxg
    · rintro ⟨h, hs⟩
      cases hx : r.x with
      | none => rw [hx] at hs; exact absurd hs hp.1
      | some v =>
        rw [hx] at h
        rw [idxC, transformOne_dict _ _ _ _ _ _ _ hp.2 hj h, Option.getD_none]

theorem splitC_clean_x {sc : SpecialCodes α} {o : Option (List (RecC α) → List Bool)} {recs : List (RecC α)} {r : RecC α}
    (h : r ∈ (splitDataC sc o recs).clean) : r ∈ recs ∧ r.x ≠ none ∧ r.y ≠ none ∧ ¬ IsSpecialValue sc r.x := by
  have hsub : r ∈ recs.filter fun r => !r.isMissing && !r.isSpecial sc := by
    simp only [splitDataC] at h
    cases o with
    | none => exact h
    | some det => exact (select_sublist _ _).mem h
  simp only [List.mem_filter, Bool.and_eq_true, Bool.not_eq_true', RecC.isMissing, Bool.or_eq_false_iff] at hsub
  refine ⟨hsub.1, ?_, ?_, ?_⟩
  · intro hx; rw [hx] at hsub; simp at hsub
  · intro hx; rw [hx] at hsub; simp at hsub
  · intro hs
    rw [(isSpecial_iff sc r).2 hs] at hsub
    simp at hsub

theorem specialRows_spec {sc : SpecialCodes α} {special : List (RecC α)} {rows : List RowC} (hw : PlainC special)
    (h : specialRows sc special = .ok rows) :
    rows.length = sc.count ∧ ∀ j < sc.count, ∃ row, rows[j]? = some row ∧
      Summarises (ysOf (specialGroup sc special j)) row.cnt row.sum row.var row.mn row.mx row.zeros := by
  cases sc with
  | none =>
    simp only [specialRows, Except.ok.injEq] at h
    subst h
    refine ⟨rfl, fun j hj => ?_⟩
    have hj : j = 0 := by simpa [SpecialCodes.count] using hj
    subst hj
    exact ⟨_, rfl, summaryC_summarises hw⟩
  | list l =>
    simp only [specialRows, Except.ok.injEq] at h
    subst h
    refine ⟨rfl, fun j hj => ?_⟩
    have hj : j = 0 := by simpa [SpecialCodes.count] using hj
    subst hj
    exact ⟨_, rfl, summaryC_summarises hw⟩
  | dict gs =>
    simp only [specialRows] at h
    split_ifs at h with h0
    cases h
    refine ⟨by simp [SpecialCodes.count], fun j hj => ?_⟩
    have hj : j < gs.length := by simpa [SpecialCodes.count] using hj
    have hget : gs.getD j ("", []) = gs[j] := by simp [List.getD, hj]
    have hpl : PlainC (special.filter fun r => gs[j].2.contains r.x) := hw.subset List.filter_sublist.subset
    refine ⟨_, by rw [List.getElem?_map, List.getElem?_eq_getElem hj]; rfl, ?_⟩
    simp only [specialGroup, hget]
    have hs := summaryC_summarises hpl
    split_ifs with hz
    · rw [hpl.ys.2.2.2.2] at hz
      have hz : (special.filter fun r => gs[j].2.contains r.x) = [] := by
        rw [← List.length_eq_zero_iff]; exact_mod_cast hz
      rw [hz] at hs ⊢
      exact hs.of_nil
    · exact hs

theorem missingRow_spec {old : MissingStats} {missing : List (RecC α)} (hw : PlainC missing) :
    Summarises (ysOf missing) (missingRow old missing).cnt (missingRow old missing).sum (missingRow old missing).var
      (missingRow old missing).mn (missingRow old missing).mx (missingRow old missing).zeros := by
  unfold missingRow
  have h := summaryC_summarises hw
  split_ifs with h0
  · subst h0
    exact h.of_nil
  · exact h

end OptBinning
