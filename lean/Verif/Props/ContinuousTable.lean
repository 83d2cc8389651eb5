import Mathlib.Algebra.Order.BigOperators.Group.List
import Mathlib.Data.List.Forall2
import Mathlib.Algebra.Order.Field.Basic
import Verif.Props.Continuous

/-!
# Properties C51–C53: totals, information value, transform, robustness of the continuous binning
-/
set_option linter.unusedSectionVars false
set_option linter.unusedSimpArgs false
namespace OptBinning
open Spec Finset

variable {α : Type*} [LinearOrder α]

/-- A row summarises a list of targets. -/
def RowC.Is (ys : List ℚ) (r : RowC) : Prop := Summarises ys r.cnt r.sum r.var r.mn r.mx r.zeros

theorem flatten_classes (recs : List (RecC α)) (idx : RecC α → ℕ) (n : ℕ) (h : ∀ r ∈ recs, idx r < n) :
    (((List.range n).map fun i => recs.filter fun r => idx r == i).flatten).Perm recs := by
  rw [← Multiset.coe_eq_coe]
  have h1 : ∀ m, ((((List.range m).map fun i => recs.filter fun r => idx r == i).flatten : List (RecC α)) :
      Multiset (RecC α)) = ∑ i ∈ range m, ((recs.filter fun r => idx r == i : List (RecC α)) : Multiset (RecC α)) := by
    intro m
    induction m with
    | zero => simp
    | succ m ih => rw [List.range_succ, sum_range_succ, ← ih]; simp
  rw [h1]
  have := multiset_classes recs idx n (fun _ => true) h
  simpa using this

theorem ysOf_flatten (L : List (List (RecC α))) : ysOf L.flatten = (L.map ysOf).flatten := by
  induction L with
  | nil => simp [ysOf]
  | cons a L ih =>
    unfold ysOf at *
    simp [List.filterMap_append, ih]

/-- The groups of training targets of the rows of a fitted object. -/
def groupsC (f : FittedC α) (sc : SpecialCodes α) (recs : List (RecC α)) : List (List ℚ) :=
  (List.range f.rows.length).map fun (k : ℕ) =>
    targetsOf recs fun r => transformIndicesC f sc .empirical .empirical [r.x] = [(k : ℤ)]

section
variable {sc : SpecialCodes α} {prebin : List (RecC α) → List α} {solver : SolverC} {c : SolverCfgC}
    {old old' : MissingStats} {recs : List (RecC α)} {f : FittedC α}

theorem idxC_lt (hp : ProperCodes sc) (splits : List α) (x : Option α) :
    ∃ k : ℕ, idxC splits sc x = k ∧ k < splits.length + 1 + sc.count + 1 := by
  cases x with
  | none => exact ⟨splits.length + 1 + sc.count, by simp [idxC, transformOne_missing], by omega⟩
  | some v =>
    by_cases hs : IsSpecialValue sc (some v)
    · obtain ⟨i, hi, h⟩ := special_index (β := ℤ) hp hs
      exact ⟨splits.length + 1 + i, by rw [idxC, h]; simp, by omega⟩
    · refine ⟨digitize false splits (some v), by rw [idxC, transformOne_clean _ _ _ _ _ _ _ hs], ?_⟩
      have := digitize_le false splits (some v)
      omega

theorem rows_groups (hp : ProperCodes sc) (hk : KnownTargetsC recs) (hu : UnitWeights recs)
    (hsort : ∀ l, (prebin l).Pairwise (· ≤ ·)) (hr : RespectsC c solver)
    (h : fitNumericalC sc none prebin solver old recs = .ok (old', f)) :
    List.Forall₂ RowC.Is (groupsC f sc recs) f.rows ∧ (groupsC f sc recs).flatten.Perm (recs.filterMap RecC.y) := by
  obtain ⟨hlen, hrow⟩ := C50_rows hp hk hu hsort hr h
  constructor
  · rw [List.forall₂_iff_get]
    refine ⟨by simp [groupsC], fun i h1 h2 => ?_⟩
    obtain ⟨row, h3, h4⟩ := hrow i h2
    rw [List.getElem?_eq_getElem h2, Option.some.injEq] at h3
    simp only [groupsC, List.get_eq_getElem, List.getElem_map, List.getElem_range, h3]
    exact h4
  · have hidx : ∀ r ∈ recs, (idxC f.splits sc r.x).toNat < f.rows.length := by
      intro r _
      obtain ⟨k, h1, h2⟩ := idxC_lt hp f.splits r.x
      rw [h1, hlen]; simpa using h2
    have h1 := (flatten_classes recs (fun r => (idxC f.splits sc r.x).toNat) f.rows.length hidx).filterMap RecC.y
    have h2 : groupsC f sc recs = ((List.range f.rows.length).map fun i =>
        recs.filter fun r => (idxC f.splits sc r.x).toNat == i).map ysOf := by
      rw [List.map_map]
      refine List.map_congr_left fun k _ => ?_
      rw [targetsOf_eq]
      simp only [Function.comp]
      congr 1
      refine List.filter_congr fun r _ => ?_
      obtain ⟨j, h1, -⟩ := idxC_lt hp f.splits r.x
      rw [h1]
      rw [Bool.eq_iff_iff]
      simp
    rw [h2, ← ysOf_flatten]
    exact h1

theorem filterMap_id_some (a : ℚ) (l : List (Option ℚ)) : (some a :: l).filterMap id = a :: l.filterMap id := rfl

/-! ## C51 -/

theorem tot_records {ys : List (List ℚ)} {rows : List RowC} (h : List.Forall₂ RowC.Is ys rows) :
    tRecords rows = ys.flatten.length ∧ tSum rows = ys.flatten.sum ∧ tZeros rows = ys.flatten.count 0 := by
  induction h with
  | nil => simp [tRecords, tSum, tZeros, nansum]
  | cons h1 _ ih =>
    obtain ⟨a, b, d⟩ := ih
    unfold tRecords tSum tZeros nansum at *
    refine ⟨?_, ?_, ?_⟩
    · simp only [List.map_cons, List.sum_cons, a, List.flatten_cons, List.length_append, h1.count]
    · rw [List.map_cons, h1.sum, filterMap_id_some, List.sum_cons, b, List.flatten_cons, List.sum_append]
    · simp only [List.map_cons, List.sum_cons, d, List.flatten_cons, List.count_append, h1.zeros]

/-- C51: the totals row counts every training record once, and its Sum, Mean and Zeros count are those of all targets. -/
theorem C51_totals (hp : ProperCodes sc) (hk : KnownTargetsC recs) (hu : UnitWeights recs)
    (hsort : ∀ l, (prebin l).Pairwise (· ≤ ·)) (hr : RespectsC c solver)
    (h : fitNumericalC sc none prebin solver old recs = .ok (old', f)) :
    tRecords f.rows = recs.length ∧ tSum f.rows = (recs.filterMap RecC.y).sum ∧
    tMeanC f.rows = Spec.mean (recs.filterMap RecC.y) ∧ tZeros f.rows = (recs.filterMap RecC.y).count 0 := by
  obtain ⟨h1, h2⟩ := rows_groups hp hk hu hsort hr h
  obtain ⟨a, b, d⟩ := tot_records h1
  have hl : (recs.filterMap RecC.y).length = recs.length := (PlainC.ys (l := recs) ⟨hk, hu⟩).2.2.2.1
  refine ⟨?_, ?_, ?_, ?_⟩
  · rw [a, h2.length_eq, hl]
  · rw [b, h2.sum_eq]
  · unfold tMeanC Spec.mean
    rw [a, b, h2.length_eq, h2.sum_eq]
  · rw [d, h2.count_eq]

theorem optmin_rows {ys : List (List ℚ)} {rows : List RowC} (h : List.Forall₂ RowC.Is ys rows)
    (he : ∀ y r, y = [] → RowC.Is y r → r ∈ rows → r.mn = none ∧ r.mx = none) :
    ((rows.map RowC.mn).filterMap id).min? = ys.flatten.min? ∧ ((rows.map RowC.mx).filterMap id).max? = ys.flatten.max? := by
  induction h with
  | nil => simp
  | @cons y r ys rows h1 _ ih =>
    obtain ⟨i1, i2⟩ := ih fun y r hy hi hm => he y r hy hi (by simp [hm])
    by_cases hy : y = []
    · obtain ⟨e1, e2⟩ := he y r hy h1 (by simp)
      subst hy
      rw [List.map_cons, e1, List.filterMap_cons_none rfl, List.map_cons, e2, List.filterMap_cons_none rfl, i1, i2]
      simp
    · obtain ⟨m, em, hm⟩ := h1.least hy
      obtain ⟨M, eM, hM⟩ := h1.greatest hy
      have a1 : y.min? = some m := List.min?_eq_some_iff.2 hm
      have a2 : y.max? = some M := List.max?_eq_some_iff.2 hM
      constructor
      · rw [List.map_cons, em, filterMap_id_some, List.flatten_cons, min?_append y, a1, ← i1]
        exact min?_append [m] _
      · rw [List.map_cons, eM, filterMap_id_some, List.flatten_cons, max?_append y, a2, ← i2]
        exact max?_append [M] _

/-- C51: Min and Max of the totals row are the least and the greatest training target, provided that the object has not
been fitted before and that every group of a special-code dict occurs in the data. -/
theorem C51_total_min_max (hp : ProperCodes sc) (hk : KnownTargetsC recs) (hu : UnitWeights recs)
    (hsort : ∀ l, (prebin l).Pairwise (· ≤ ·)) (hr : RespectsC c solver)
    (hd : ∀ gs, sc = .dict gs → ∀ g ∈ gs, ∃ r ∈ recs, r.x ∈ g.2)
    (h : fitNumericalC sc none prebin solver {} recs = .ok (old', f)) :
    ∃ m M, tMin f.rows = some m ∧ IsMin (recs.filterMap RecC.y) m ∧ tMax f.rows = some M ∧
      IsMax (recs.filterMap RecC.y) M := by
  obtain ⟨h1, h2⟩ := rows_groups hp hk hu hsort hr h
  have hpl : PlainC recs := ⟨hk, hu⟩
  have he : ∀ y r, y = [] → RowC.Is y r → r ∈ f.rows → r.mn = none ∧ r.mx = none := by
    rintro y r rfl hi hm
    have hc0 : r.cnt = 0 := hi.count
    obtain ⟨special, st', hs, hf⟩ := fitNumericalC_cases h
    have hcl : PlainC (splitDataC sc none recs).clean := hpl.subset fun r hr => (splitC_clean_x hr).1
    obtain ⟨-, reg, hrows, hlen, hreg⟩ := fitCoreC_rows (fun cells hn => hr.last cells hn)
      (fun r hr => (splitC_clean_x hr).2.1) hcl.whole (hsort _) hf
    have hz : ∀ l : List (RecC α), PlainC l → (summaryC l).cnt = 0 → l = [] := by
      intro l hl h0
      have := (hl.ys).2.2.1
      have h4 := (hl.ys).2.2.2.1
      simp only [summaryC] at h0
      rw [← List.length_eq_zero_iff]; omega
    have hn : (summaryC ([] : List (RecC α))).mn = none ∧ (summaryC ([] : List (RecC α))).mx = none := by
      simp [summaryC, allKnown]
    rw [hrows] at hm
    simp only [Option.toList_none, List.nil_append, List.mem_append, List.mem_singleton] at hm
    rcases hm with hm | hm | hm
    · obtain ⟨k, hk', hrk⟩ := List.mem_iff_getElem.1 hm
      obtain ⟨l, hperm, hl⟩ := hreg k (by omega)
      have hlp : PlainC l := hcl.subset fun r hr => (List.filter_sublist.subset (hperm.subset hr))
      rw [List.getElem?_eq_getElem hk', hrk] at hl
      simp only [Option.some.injEq] at hl
      rcases hl with hl | hl
      · have h0 : (cellOf l).cnt = 0 := by rw [hl] at hc0; exact hc0
        have : l = [] := hz l hlp h0
        subst this
        rw [hl]; simp [cellOf, CellC.row]
      · rw [hl] at hc0
        have := hz l hlp hc0
        subst this
        rw [hl]; exact hn
    · have hsp : PlainC (splitDataC sc none recs).special := hpl.subset List.filter_sublist.subset
      cases sc with
      | none =>
        simp only [specialRows, Except.ok.injEq] at hs
        subst hs
        simp only [List.mem_singleton] at hm
        rw [hm] at hc0 ⊢
        rw [hz _ hsp hc0]; exact hn
      | list l =>
        simp only [specialRows, Except.ok.injEq] at hs
        subst hs
        simp only [List.mem_singleton] at hm
        rw [hm] at hc0 ⊢
        rw [hz _ hsp hc0]; exact hn
      | dict gs =>
        simp only [specialRows] at hs
        split_ifs at hs with h0
        cases hs
        obtain ⟨g, hg, hgr⟩ := List.mem_map.1 hm
        obtain ⟨q, hq, hqx⟩ := hd gs rfl g hg
        have hqs : q ∈ (splitDataC (.dict gs) none recs).special.filter fun r => g.2.contains r.x := by
          simp only [splitDataC, List.mem_filter, List.contains_iff_mem]
          exact ⟨⟨hq, (isSpecial_iff _ _).2 ⟨g, hg, hqx⟩⟩, hqx⟩
        have hpg : PlainC ((splitDataC (.dict gs) none recs).special.filter fun r => g.2.contains r.x) :=
          hsp.subset List.filter_sublist.subset
        have hw : (((splitDataC (.dict gs) none recs).special.filter fun r => g.2.contains r.x).map RecC.w).sum ≠ 0 := by
          rw [hpg.ys.2.2.2.2]
          have := List.length_pos_of_mem hqs
          positivity
        rw [if_neg hw] at hgr
        rw [← hgr] at hc0
        rw [hz _ hpg hc0] at hqs
        simp at hqs
    · have hmi : PlainC (splitDataC sc none recs).missing := hpl.subset List.filter_sublist.subset
      by_cases h0 : (splitDataC sc none recs).missing = []
      · rw [hm, h0]
        simp [missingRow]
      · exfalso
        rw [hm] at hc0
        simp only [missingRow, h0, if_false] at hc0
        exact h0 (hz _ hmi hc0)
  obtain ⟨e1, e2⟩ := optmin_rows h1 he
  have hne : (groupsC f sc recs).flatten ≠ [] := by
    intro h0
    obtain ⟨special, st', hs, hf⟩ := fitNumericalC_cases h
    have hc := (fitCoreC_cases hf).1
    rw [h0] at h2
    have h3 := List.nil_perm.1 h2
    have h4 := (hpl.ys).2.2.2.1
    unfold ysOf at h4
    rw [h3] at h4
    have h5 : recs = [] := List.length_eq_zero_iff.1 h4.symm
    apply hc
    rw [h5]; simp [splitDataC]
  obtain ⟨m, em, hm⟩ := isMin_min? hne
  obtain ⟨M, eM, hM⟩ := isMax_max? hne
  refine ⟨m, M, by unfold tMin; rw [e1, em], ⟨h2.mem_iff.1 hm.1, fun y hy => hm.2 y (h2.mem_iff.2 hy)⟩,
    by unfold tMax; rw [e2, eM], ⟨h2.mem_iff.1 hM.1, fun y hy => hM.2 y (h2.mem_iff.2 hy)⟩⟩

theorem row_mean {ys : List ℚ} {r : RowC} (h : RowC.Is ys r) : r.mean = some (Spec.mean ys) := by
  unfold RowC.mean Spec.mean
  rw [h.count, h.sum]
  split_ifs with h0
  · rfl
  · have : ys = [] := by rw [← List.length_eq_zero_iff]; omega
    subst this
    simp

theorem allKnown_map {β : Type*} (l : List β) (g : β → ℚ) : allKnown (l.map fun x => some (g x)) = some (l.map g) := by
  have := allKnown_some (l.map g)
  rw [List.map_map] at this
  exact this

theorem forall₂_map_eq {ys : List (List ℚ)} {rows : List RowC} {β : Type*} {g : RowC → β} {g' : List ℚ → β}
    (h : List.Forall₂ RowC.Is ys rows) (hg : ∀ y r, RowC.Is y r → g r = g' y) : rows.map g = ys.map g' := by
  induction h with
  | nil => rfl
  | cons h1 _ ih => simp [hg _ _ h1, ih]

theorem iv_rows {ys : List (List ℚ)} {rows : List RowC} (h : List.Forall₂ RowC.Is ys rows) :
    tIv rows = some (groupIv ys) ∧
    tWoe rows = some ((ys.map fun g => |Spec.mean g - Spec.mean ys.flatten|).sum) := by
  obtain ⟨a, b, -⟩ := tot_records h
  have hm : tMeanC rows = Spec.mean ys.flatten := by unfold tMeanC Spec.mean; rw [a, b]
  constructor
  · unfold tIv sumNaN
    have : (rows.map fun r => r.iv rows) =
        ys.map fun g => some ((g.length : ℚ) / ys.flatten.length * |Spec.mean g - Spec.mean ys.flatten|) := by
      refine forall₂_map_eq h fun y r hyr => ?_
      unfold RowC.iv RowC.woe RowC.share
      rw [row_mean hyr, hm, a, hyr.count]
      simp [mul_comm]
    rw [this, allKnown_map]
    rfl
  · unfold tWoe sumNaN
    have : (rows.map fun r => (r.woe rows).map fun w => |w|) =
        ys.map fun g => some (|Spec.mean g - Spec.mean ys.flatten|) := by
      refine forall₂_map_eq h fun y r hyr => ?_
      unfold RowC.woe
      rw [row_mean hyr, hm]
      simp
    rw [this, allKnown_map]
    rfl

theorem groupIv_nonneg (ys : List (List ℚ)) : 0 ≤ groupIv ys := by
  unfold groupIv
  refine List.sum_nonneg fun x hx => ?_
  obtain ⟨g, -, rfl⟩ := List.mem_map.1 hx
  positivity

theorem mean_dev_eq (g : List ℚ) (m : ℚ) : (g.length : ℚ) * |Spec.mean g - m| = |g.sum - g.length * m| := by
  rcases eq_or_ne g [] with rfl | h
  · simp
  · have hn : (0 : ℚ) < g.length := by have := List.length_pos_iff.2 h; positivity
    rw [← abs_of_pos hn, ← abs_mul, abs_of_pos hn]
    congr 1
    unfold Spec.mean
    field_simp

theorem abs_sum_dev (g : List ℚ) (m : ℚ) : |g.sum - g.length * m| ≤ (g.map fun y => |y - m|).sum := by
  induction g with
  | nil => simp
  | cons y g ih =>
    have : (y :: g).sum - ((y :: g).length : ℕ) * m = (y - m) + (g.sum - g.length * m) := by
      simp only [List.sum_cons, List.length_cons]; push_cast; ring
    rw [this, List.map_cons, List.sum_cons]
    exact (abs_add_le _ _).trans (by linarith)

theorem groupIv_eq (ys : List (List ℚ)) :
    groupIv ys = (ys.map fun g => |g.sum - g.length * Spec.mean ys.flatten|).sum / ys.flatten.length := by
  unfold groupIv
  rw [div_eq_mul_inv, ← List.sum_map_mul_right]
  congr 1
  refine List.map_congr_left fun g _ => ?_
  rw [← mean_dev_eq, div_eq_mul_inv]; ring

theorem sum_map_flatten (ys : List (List ℚ)) (g : ℚ → ℚ) : (ys.flatten.map g).sum = (ys.map fun l => (l.map g).sum).sum := by
  induction ys with
  | nil => simp
  | cons a ys ih => rw [List.flatten_cons, List.map_append, List.sum_append, ih, List.map_cons, List.sum_cons]

/-- C51: the information value is the average over the training records of the distance between the mean of the record's
row and the overall mean; it is non-negative and at most the mean absolute deviation of the targets. -/
theorem C51_iv (hp : ProperCodes sc) (hk : KnownTargetsC recs) (hu : UnitWeights recs)
    (hsort : ∀ l, (prebin l).Pairwise (· ≤ ·)) (hr : RespectsC c solver)
    (h : fitNumericalC sc none prebin solver old recs = .ok (old', f)) :
    ∃ iv, tIv f.rows = some iv ∧ iv = groupIv (groupsC f sc recs) ∧ 0 ≤ iv ∧ iv ≤ meanAbsDev (recs.filterMap RecC.y) := by
  obtain ⟨h1, h2⟩ := rows_groups hp hk hu hsort hr h
  refine ⟨_, (iv_rows h1).1, rfl, groupIv_nonneg _, ?_⟩
  rw [groupIv_eq]
  unfold meanAbsDev
  have hm : Spec.mean (groupsC f sc recs).flatten = Spec.mean (recs.filterMap RecC.y) := by
    unfold Spec.mean; rw [h2.sum_eq, h2.length_eq]
  rw [hm]
  generalize Spec.mean (recs.filterMap RecC.y) = m
  unfold Spec.mean
  rw [List.length_map, ← h2.length_eq, ← (h2.map fun y => |y - m|).sum_eq, sum_map_flatten]
  refine div_le_div_of_nonneg_right ?_ (by positivity)
  exact List.sum_le_sum fun g _ => abs_sum_dev g m

/-- C51: the information value vanishes exactly if every row that contains a record has the overall mean. -/
theorem C51_iv_zero_iff (hp : ProperCodes sc) (hk : KnownTargetsC recs) (hu : UnitWeights recs)
    (hsort : ∀ l, (prebin l).Pairwise (· ≤ ·)) (hr : RespectsC c solver)
    (h : fitNumericalC sc none prebin solver old recs = .ok (old', f)) :
    tIv f.rows = some 0 ↔ ∀ g ∈ groupsC f sc recs, g ≠ [] → Spec.mean g = Spec.mean (recs.filterMap RecC.y) := by
  obtain ⟨h1, h2⟩ := rows_groups hp hk hu hsort hr h
  have hm : Spec.mean (groupsC f sc recs).flatten = Spec.mean (recs.filterMap RecC.y) := by
    unfold Spec.mean; rw [h2.sum_eq, h2.length_eq]
  rw [(iv_rows h1).1, Option.some.injEq]
  constructor
  · intro h0 g hg hne
    have hle := List.single_le_sum (l := (groupsC f sc recs).map fun g =>
        (g.length : ℚ) / (groupsC f sc recs).flatten.length * |Spec.mean g - Spec.mean (groupsC f sc recs).flatten|)
      (by intro x hx
          obtain ⟨g, -, rfl⟩ := List.mem_map.1 hx
          positivity) _ (List.mem_map.2 ⟨g, hg, rfl⟩)
    rw [show ((groupsC f sc recs).map fun g => (g.length : ℚ) / (groupsC f sc recs).flatten.length *
        |Spec.mean g - Spec.mean (groupsC f sc recs).flatten|).sum = 0 from h0] at hle
    have hg0 : (0 : ℚ) < g.length := by have := List.length_pos_iff.2 hne; positivity
    have hN : (0 : ℚ) < (groupsC f sc recs).flatten.length := by
      have : 0 < (groupsC f sc recs).flatten.length := by
        refine List.length_pos_iff.2 fun h0 => hne ?_
        rw [List.flatten_eq_nil_iff] at h0
        exact h0 g hg
      positivity
    have hpos : (0 : ℚ) < g.length / (groupsC f sc recs).flatten.length := div_pos hg0 hN
    have h3 : |Spec.mean g - Spec.mean (groupsC f sc recs).flatten| ≤ 0 := by
      by_contra hc
      push Not at hc
      have := mul_pos hpos hc
      linarith
    have := abs_nonpos_iff.1 h3
    rw [← hm]; linarith
  · intro h0
    unfold groupIv
    refine List.sum_eq_zero fun x hx => ?_
    obtain ⟨g, hg, rfl⟩ := List.mem_map.1 hx
    by_cases hne : g = []
    · simp [hne]
    · rw [hm, h0 g hg hne]; simp

/-- C51: splitting a group never lowers the information value, in other words merging bins never raises it. -/
theorem C51_merge (l1 l2 : List (List ℚ)) (a b : List ℚ) : groupIv (l1 ++ (a ++ b) :: l2) ≤ groupIv (l1 ++ a :: b :: l2) := by
  have hf : (l1 ++ (a ++ b) :: l2).flatten = (l1 ++ a :: b :: l2).flatten := by simp
  rw [groupIv_eq, groupIv_eq, hf]
  refine div_le_div_of_nonneg_right ?_ (by positivity)
  generalize Spec.mean (l1 ++ a :: b :: l2).flatten = m
  simp only [List.map_append, List.map_cons, List.sum_append, List.sum_cons, List.length_append]
  have : |a.sum + b.sum - ((a.length + b.length : ℕ) : ℚ) * m| ≤ |a.sum - a.length * m| + |b.sum - b.length * m| := by
    have h : a.sum + b.sum - ((a.length + b.length : ℕ) : ℚ) * m = (a.sum - a.length * m) + (b.sum - b.length * m) := by
      push_cast; ring
    rw [h]
    exact abs_add_le _ _
  linarith

/-- C51, finding: the WoE total adds `|mean - 0|` for every row without records (usually Special and Missing), so the
relative WoE used in the quality score is at least the number of empty rows. -/
theorem C51_empty_rows_inflate_woe (hp : ProperCodes sc) (hk : KnownTargetsC recs) (hu : UnitWeights recs)
    (hsort : ∀ l, (prebin l).Pairwise (· ≤ ·)) (hr : RespectsC c solver)
    (h : fitNumericalC sc none prebin solver old recs = .ok (old', f))
    (hm : Spec.mean (recs.filterMap RecC.y) ≠ 0) :
    ∃ w, relWoe f.rows = some w ∧ ((f.rows.countP fun r => r.cnt == 0 : ℕ) : ℚ) ≤ w := by
  obtain ⟨h1, h2⟩ := rows_groups hp hk hu hsort hr h
  have hm' : tMeanC f.rows = Spec.mean (groupsC f sc recs).flatten := by
    obtain ⟨a, b, -⟩ := tot_records h1
    unfold tMeanC Spec.mean; rw [a, b]
  have hm2 : Spec.mean (groupsC f sc recs).flatten = Spec.mean (recs.filterMap RecC.y) := by
    unfold Spec.mean; rw [h2.sum_eq, h2.length_eq]
  have hne : tMeanC f.rows ≠ 0 := by rw [hm', hm2]; exact hm
  unfold relWoe
  rw [if_neg hne, (iv_rows h1).2]
  refine ⟨_, rfl, ?_⟩
  rw [le_div_iff₀ (abs_pos.2 hne), hm']
  generalize Spec.mean (groupsC f sc recs).flatten = m
  clear hm hm' hm2 hne h2
  generalize groupsC f sc recs = G at h1 ⊢
  generalize f.rows = R at h1 ⊢
  induction h1 with
  | nil => simp
  | @cons y r ys rows h1 _ ih =>
    simp only [List.map_cons, List.sum_cons, List.countP_cons]
    by_cases h0 : r.cnt = 0
    · have hy : y = [] := by rw [← List.length_eq_zero_iff, ← h1.count]; exact h0
      subst hy
      simp only [h0, beq_self_eq_true, if_true]
      push_cast
      have : |Spec.mean [] - m| = |m| := by simp [Spec.mean]
      rw [this]; linarith
    · have hb : (r.cnt == 0) = false := by simpa using h0
      simp only [hb, Bool.false_eq_true, if_false, Nat.add_zero]
      have := abs_nonneg (Spec.mean y - m)
      linarith

/-- C51, finding: a variable whose records all have the same non-zero target has information value 0 but, without special
and missing records, the first factor of the quality score is at least 1/2. -/
theorem C51_uninformative_score (hu : UnitWeights recs) (hsort : ∀ l, (prebin l).Pairwise (· ≤ ·)) (hr : RespectsC c solver)
    (h : fitNumericalC .none none prebin solver old recs = .ok (old', f)) {y : ℚ} (hy : y ≠ 0)
    (hall : ∀ r ∈ recs, r.y = some y) (hx : ∀ r ∈ recs, r.x ≠ none) :
    tIv f.rows = some 0 ∧ ∃ w, relWoe f.rows = some w ∧ 1 / 2 ≤ score1C w := by
  have hp : ProperCodes (SpecialCodes.none : SpecialCodes α) := ⟨by simp [IsSpecialValue], trivial⟩
  have hk : KnownTargetsC recs := fun r hr => by rw [hall r hr]; simp
  have hc : recs ≠ [] := by
    obtain ⟨special, st', hs, hf⟩ := fitNumericalC_cases h
    have hc := (fitCoreC_cases hf).1
    intro h0; apply hc; rw [h0]; simp [splitDataC]
  have hmean : ∀ g : List ℚ, g ≠ [] → (∀ v ∈ g, v = y) → Spec.mean g = y := by
    intro g hg hv
    have : g = List.replicate g.length y := List.eq_replicate_iff.2 ⟨rfl, hv⟩
    unfold Spec.mean
    rw [this, List.sum_replicate, List.length_replicate]
    have hn : (0 : ℚ) < g.length := by have := List.length_pos_iff.2 hg; positivity
    rw [nsmul_eq_mul]
    field_simp
  have hys : ∀ v ∈ recs.filterMap RecC.y, v = y := by
    intro v hv
    obtain ⟨r, hr, hrv⟩ := List.mem_filterMap.1 hv
    rw [hall r hr] at hrv
    exact (Option.some.inj hrv).symm
  have hne : recs.filterMap RecC.y ≠ [] := by
    have := (PlainC.ys (l := recs) ⟨hk, hu⟩).2.2.2.1
    unfold ysOf at this
    intro h0; rw [h0] at this
    exact hc (List.length_eq_zero_iff.1 this.symm)
  have hM := hmean _ hne hys
  constructor
  · rw [C51_iv_zero_iff hp hk hu hsort hr h, hM]
    intro g hg hgne
    refine hmean g hgne fun v hv => ?_
    obtain ⟨k, -, rfl⟩ := List.mem_map.1 hg
    obtain ⟨r, hr, hrv⟩ := List.mem_filterMap.1 hv
    rw [hall r (List.mem_of_mem_filter hr)] at hrv
    exact (Option.some.inj hrv).symm
  · obtain ⟨w, hw, hle⟩ := C51_empty_rows_inflate_woe hp hk hu hsort hr h (by rw [hM]; exact hy)
    refine ⟨w, hw, ?_⟩
    have h2 : 2 ≤ f.rows.countP fun r => r.cnt == 0 := by
      obtain ⟨special, st', hs, hf⟩ := fitNumericalC_cases h
      have hrows : ∃ reg, f.rows = reg ++ (special ++ [missingRow old (splitDataC .none none recs).missing]) := by
        rcases (fitCoreC_cases hf).2 with ⟨-, rfl⟩ | ⟨pb, -, -, -, rfl⟩
        · exact ⟨[summaryC _], rfl⟩
        · exact ⟨_, by simp only [Option.toList_none, List.nil_append]; rfl⟩
      obtain ⟨reg, hrows⟩ := hrows
      simp only [specialRows, Except.ok.injEq] at hs
      have e1 : (splitDataC (SpecialCodes.none : SpecialCodes α) none recs).special = [] := by
        simp [splitDataC, RecC.isSpecial, SpecialCodes.codes]
      have e2 : (splitDataC (SpecialCodes.none : SpecialCodes α) none recs).missing = [] := by
        simp only [splitDataC, List.filter_eq_nil_iff]
        intro r hr
        cases hxr : r.x with
        | none => exact absurd hxr (hx r hr)
        | some v => simp [RecC.isMissing, hxr, hall r hr]
      rw [hrows, ← hs, e1, e2]
      simp [missingRow, summaryC, truncWeightC]
    have h2' : (2 : ℚ) ≤ w := le_trans (by exact_mod_cast h2) hle
    unfold score1C
    rw [if_neg (by linarith)]
    refine le_max_of_le_left ?_
    have : 1 / w ≤ 1 / 2 := one_div_le_one_div_of_le (by norm_num) h2'
    linarith

end
/-! ### non-vacuity -/

/-- The hypotheses of the C51 theorems hold for the running example, with two special groups and a missing record. -/
example : ∃ (f : FittedC ℕ) (st : MissingStats),
    fitNumericalC exCodesC none (fun _ => [3, 7]) exSolverC {} exRecsC = .ok (st, f) ∧
    tRecords f.rows = 9 ∧ tSum f.rows = 26 ∧ tMeanC f.rows = 26 / 9 ∧ tZeros f.rows = 2 ∧
    (∃ iv, tIv f.rows = some iv ∧ 0 ≤ iv ∧ iv ≤ meanAbsDev (exRecsC.filterMap RecC.y)) ∧ tIv f.rows ≠ some 0 := by
  refine ⟨_, _, exFitC, ?_⟩
  obtain ⟨a, b, d, e⟩ := C51_totals exCodesC_proper exRecsC_plain.1 exRecsC_plain.2 (prebin := fun _ => [3, 7])
    (fun _ => by simp) exSolverC_respects exFitC
  obtain ⟨iv, i1, -, i2, i3⟩ := C51_iv exCodesC_proper exRecsC_plain.1 exRecsC_plain.2 (prebin := fun _ => [3, 7])
    (fun _ => by simp) exSolverC_respects exFitC
  exact ⟨by rw [a]; decide, by rw [b]; decide +kernel, by rw [d]; decide +kernel, by rw [e]; decide +kernel,
    ⟨iv, i1, i2, i3⟩, by decide +kernel⟩

example : ∃ (f : FittedC ℕ) (st : MissingStats),
    fitNumericalC exCodesC none (fun _ => [3, 7]) exSolverC {} exRecsC = .ok (st, f) ∧
    ∃ m M, tMin f.rows = some m ∧ IsMin (exRecsC.filterMap RecC.y) m ∧ tMax f.rows = some M ∧
      IsMax (exRecsC.filterMap RecC.y) M := by
  refine ⟨_, _, exFitC, ?_⟩
  refine C51_total_min_max exCodesC_proper exRecsC_plain.1 exRecsC_plain.2 (prebin := fun _ => [3, 7])
    (fun _ => by simp) exSolverC_respects ?_ exFitC
  intro gs h
  simp only [exCodesC, SpecialCodes.dict.injEq] at h
  subst h
  simp [exRecsC]

/-- Two equal targets, no splits: information value 0, `rwoe = 2`. -/
example : ∃ (f : FittedC ℕ) (st : MissingStats),
    fitNumericalC .none none (fun _ => []) exSolverC {} [⟨some 1, some 3, 1⟩, ⟨some 2, some 3, 1⟩] = .ok (st, f) ∧
    tIv f.rows = some 0 ∧ ∃ w, relWoe f.rows = some w ∧ 1 / 2 ≤ score1C w := by
  have h : fitNumericalC .none none (fun _ => []) exSolverC {} [⟨some 1, some 3, 1⟩, ⟨some 2, some 3, 1⟩] =
      .ok (⟨none, none, none⟩, ⟨"OPTIMAL", ([] : List ℕ), [⟨2, some 6, some 0, some 3, some 3, 0⟩,
        ⟨0, some 0, none, none, none, 0⟩, ⟨0, some 0, none, none, none, 0⟩]⟩) := by
    have e : (splitDataC (SpecialCodes.none : SpecialCodes ℕ) none [⟨some 1, some 3, 1⟩, ⟨some 2, some 3, 1⟩]).clean =
        [⟨some 1, some 3, 1⟩, ⟨some 2, some 3, 1⟩] := by decide +kernel
    have e1 : (splitDataC (SpecialCodes.none : SpecialCodes ℕ) none [⟨some 1, some 3, 1⟩, ⟨some 2, some 3, 1⟩]).special =
        [] := by decide +kernel
    have e2 : (splitDataC (SpecialCodes.none : SpecialCodes ℕ) none [⟨some 1, some 3, 1⟩, ⟨some 2, some 3, 1⟩]).missing =
        [] := by decide +kernel
    simp only [fitNumericalC, e, e1, e2, specialRows, fitCoreC, bind, Except.bind, pure, Except.pure, List.length_nil,
      if_true, fitOptimizerC]
    simp only [List.length_nil, Nat.zero_le, if_true, List.replicate_zero, reduceCtorEq, if_false]
    simp only [Except.ok.injEq, Prod.mk.injEq, FittedC.mk.injEq, true_and]
    refine ⟨by simp [missingRow], by decide +kernel⟩
  refine ⟨_, _, h, ?_⟩
  exact C51_uninformative_score (y := 3) (c := {}) (by unfold UnitWeights; simp) (prebin := fun _ => [])
    (fun _ => by simp) exSolverC_respects h (by norm_num) (by simp) (by simp)

end OptBinning
