import Mathlib.Tactic.Positivity
import Verif.Props.ContinuousTable

/-!
# Properties C52–C53: `transform(metric="mean")` and the robustness of `ContinuousOptimalBinning.fit`
-/
set_option linter.unusedSectionVars false
set_option linter.unusedSimpArgs false
namespace OptBinning
open Spec Finset

variable {α : Type*} [LinearOrder α]

/-! ## C52 -/

theorem transformOne_special2 {β γ : Type*} {sc : SpecialCodes α} (hp : ProperCodes sc) {x : Option α}
    (hx : IsSpecialValue sc x) : ∃ i < sc.count,
      (∀ (splits : List α) (mv : ℕ → β) (unk : β) (ms mm : Option β),
        transformOne splits sc mv unk ms mm x = ms.getD (mv (splits.length + 1 + i))) ∧
      (∀ (splits : List α) (mv : ℕ → γ) (unk : γ) (ms mm : Option γ),
        transformOne splits sc mv unk ms mm x = ms.getD (mv (splits.length + 1 + i))) := by
  obtain ⟨v, rfl⟩ : ∃ v, x = some v := by
    cases x with
    | none => exact absurd hx hp.1
    | some v => exact ⟨v, rfl⟩
  cases sc with
  | none => exact absurd hx (by simp [IsSpecialValue])
  | list l =>
    exact ⟨0, by simp [SpecialCodes.count], fun _ _ _ _ _ => transformOne_list _ _ _ _ _ _ _ hx,
      fun _ _ _ _ _ => transformOne_list _ _ _ _ _ _ _ hx⟩
  | dict gs =>
    obtain ⟨g, hg, hxg⟩ := hx
    obtain ⟨i, hi, rfl⟩ := List.mem_iff_getElem.1 hg
    exact ⟨i, by simpa [SpecialCodes.count] using hi, fun _ mv _ ms mm => assign_dict _ _ mv ms mm _ _ hp.2 hi hxg,
      fun _ mv _ ms mm => assign_dict _ _ mv ms mm _ _ hp.2 hi hxg⟩

theorem transformOne_idxC {β : Type*} {sc : SpecialCodes α} (hp : ProperCodes sc) (splits : List α) (x : Option α)
    (mv : ℕ → β) (unk : β) :
    ∃ k : ℕ, idxC splits sc x = k ∧ k < splits.length + 1 + sc.count + 1 ∧
      transformOne splits sc mv unk none none x = mv k := by
  cases x with
  | none =>
    exact ⟨splits.length + 1 + sc.count, by simp [idxC, transformOne_missing], by omega, by simp [transformOne_missing]⟩
  | some v =>
    by_cases hs : IsSpecialValue sc (some v)
    · obtain ⟨i, hi, h, h'⟩ := transformOne_special2 (β := β) (γ := ℤ) hp hs
      exact ⟨splits.length + 1 + i, by rw [idxC, h']; simp, by omega, by rw [h]; rfl⟩
    · refine ⟨digitize false splits (some v), by rw [idxC, transformOne_clean _ _ _ _ _ _ _ hs], ?_,
        transformOne_clean _ _ _ _ _ _ _ hs⟩
      have := digitize_le false splits (some v)
      omega

section
variable {sc : SpecialCodes α} {prebin : List (RecC α) → List α} {solver : SolverC} {c : SolverCfgC}
    {old old' : MissingStats} {recs : List (RecC α)} {f : FittedC α}

theorem transformIndicesC_idxC (f : FittedC α) (sc : SpecialCodes α) (x : Option α) (k : ℤ) :
    transformIndicesC f sc .empirical .empirical [x] = [k] ↔ idxC f.splits sc x = k := by
  simp [transformIndicesC, idxC, MetricOpt.forIndices]

/-- C52: with empirical treatment of special and missing values, every value (seen in training or not, special or missing
or neither) is transformed to the mean target of the training records with the same index; 0 if there are none. -/
theorem C52_value (hp : ProperCodes sc) (hk : KnownTargetsC recs) (hu : UnitWeights recs)
    (hsort : ∀ l, (prebin l).Pairwise (· ≤ ·)) (hr : RespectsC c solver)
    (h : fitNumericalC sc none prebin solver old recs = .ok (old', f)) (x : Option α) :
    transformMean f sc .empirical .empirical [x] =
      [some (Spec.mean (targetsOf recs fun r => transformIndicesC f sc .empirical .empirical [r.x] =
        transformIndicesC f sc .empirical .empirical [x]))] := by
  obtain ⟨hlen, hrow⟩ := C50_rows hp hk hu hsort hr h
  obtain ⟨k, h1, h2, h3⟩ := transformOne_idxC hp f.splits x (fun i => ((f.rows[i]?).bind RowC.mean)) (unknownMean f.rows)
  obtain ⟨row, hrow1, hrow2⟩ := hrow k (by omega)
  have hx : transformIndicesC f sc .empirical .empirical [x] = [(k : ℤ)] := (transformIndicesC_idxC f sc x k).2 h1
  rw [hx]
  have : transformMean f sc .empirical .empirical [x] =
      [transformOne f.splits sc (fun i => ((f.rows[i]?).bind RowC.mean)) (unknownMean f.rows) none none x] := rfl
  rw [this, h3]
  simp only [hrow1, Option.bind_some]
  rw [row_mean hrow2]

/-- C52: given values for special and missing records are returned for exactly these records, and the others still get the
mean target of their interval. -/
theorem C52_given_values (hp : ProperCodes sc) (f : FittedC α) (q q' : ℚ) :
    (∀ v, IsSpecialValue sc (some v) → transformMean f sc (.float q) (.float q') [some v] = [some q]) ∧
    transformMean f sc (.float q) (.float q') [none] = [some q'] ∧
    (∀ v, ¬ IsSpecialValue sc (some v) →
      transformMean f sc (.float q) (.float q') [some v] = transformMean f sc .empirical .empirical [some v]) := by
  refine ⟨fun v hv => ?_, ?_, fun v hv => ?_⟩
  · obtain ⟨i, -, h1⟩ := special_index (β := Option ℚ) hp hv
    simp only [transformMean, List.map_cons, List.map_nil, h1]
    rfl
  · simp only [transformMean, List.map_cons, List.map_nil, transformOne_missing]
    rfl
  · simp only [transformMean, List.map_cons, List.map_nil, transformOne_clean _ _ _ _ _ _ _ hv]
    have := digitize_le false f.splits (some v)
    simp only [usedRows]
    rw [List.getElem?_take_of_lt (by omega)]

theorem sum_over_groups (hp : ProperCodes sc) (n : ℕ) (hn : f.splits.length + 1 + sc.count + 1 ≤ n) (φ : RecC α → ℚ) :
    (recs.map φ).sum = ((List.range n).map fun (k : ℕ) =>
      ((recs.filter fun r => decide (idxC f.splits sc r.x = (k : ℤ))).map φ).sum).sum := by
  have hidx : ∀ r ∈ recs, (idxC f.splits sc r.x).toNat < n := by
    intro r _
    obtain ⟨k, h1, h2⟩ := idxC_lt hp f.splits r.x
    rw [h1]; simp; omega
  rw [← ((flatten_classes recs (fun r => (idxC f.splits sc r.x).toNat) n hidx).map φ).sum_eq]
  rw [List.map_flatten, List.sum_flatten, List.map_map, List.map_map]
  congr 1
  refine List.map_congr_left fun k _ => ?_
  simp only [Function.comp]
  congr 2
  refine List.filter_congr fun r _ => ?_
  obtain ⟨j, h1, -⟩ := idxC_lt hp f.splits r.x
  rw [h1, Bool.eq_iff_iff]
  simp

theorem sum_sq_least (ys : List ℚ) (m : ℚ) :
    (ys.map fun y => (y - Spec.mean ys) ^ 2).sum ≤ (ys.map fun y => (y - m) ^ 2).sum := by
  rcases eq_or_ne ys [] with rfl | hne
  · simp
  have hn : (0 : ℚ) < ys.length := by have := List.length_pos_iff.2 hne; positivity
  rw [sum_sq_dev, sum_sq_dev]
  unfold Spec.mean
  have : ys.sum = (ys.sum / ys.length) * ys.length := by field_simp
  generalize hμ : ys.sum / (ys.length : ℚ) = μ at *
  rw [this]
  nlinarith [mul_nonneg hn.le (sq_nonneg (μ - m))]

/-- The transformed value of a record as a number (NaN cannot occur under the hypotheses of `C52_value`). -/
def transformed (f : FittedC α) (sc : SpecialCodes α) (x : Option α) : ℚ :=
  ((transformMean f sc .empirical .empirical [x]).headD none).getD 0

theorem transformed_eq (hp : ProperCodes sc) (hk : KnownTargetsC recs) (hu : UnitWeights recs)
    (hsort : ∀ l, (prebin l).Pairwise (· ≤ ·)) (hr : RespectsC c solver)
    (h : fitNumericalC sc none prebin solver old recs = .ok (old', f)) {x : Option α} {k : ℕ}
    (hx : idxC f.splits sc x = (k : ℤ)) :
    transformed f sc x = Spec.mean (ysOf (recs.filter fun r => decide (idxC f.splits sc r.x = (k : ℤ)))) := by
  unfold transformed
  rw [C52_value hp hk hu hsort hr h x, (transformIndicesC_idxC f sc x k).2 hx, targetsOf_eq]
  rfl

theorem known_map {l : List (RecC α)} (hk : KnownTargetsC l) (φ : ℚ → ℚ) :
    (l.map fun r => φ (r.y.getD 0)) = (ysOf l).map φ := by
  induction l with
  | nil => rfl
  | cons r l ih =>
    have ih := ih fun r hr => hk r (by simp [hr])
    obtain ⟨y, hy⟩ := Option.ne_none_iff_exists'.1 (hk r (by simp))
    unfold ysOf at *
    simp [hy, ih]

/-- C52: the transformed values of the training records add up to the targets. -/
theorem C52_sum_preserved (hp : ProperCodes sc) (hk : KnownTargetsC recs) (hu : UnitWeights recs)
    (hsort : ∀ l, (prebin l).Pairwise (· ≤ ·)) (hr : RespectsC c solver)
    (h : fitNumericalC sc none prebin solver old recs = .ok (old', f)) :
    (recs.map fun r => transformed f sc r.x).sum = (recs.filterMap RecC.y).sum := by
  have h0 : (recs.filterMap RecC.y).sum = (recs.map fun r => r.y.getD 0).sum := by
    rw [known_map hk (fun y => y)]; simp [ysOf]
  rw [h0, sum_over_groups (f := f) hp _ le_rfl, sum_over_groups (f := f) hp _ le_rfl]
  congr 1
  refine List.map_congr_left fun k _ => ?_
  set l := recs.filter fun r => decide (idxC f.splits sc r.x = (k : ℤ)) with hl
  have hkl : KnownTargetsC l := fun r hr => hk r (List.mem_of_mem_filter hr)
  have : l.map (fun r => transformed f sc r.x) = List.replicate l.length (Spec.mean (ysOf l)) := by
    rw [List.eq_replicate_iff]
    refine ⟨by simp, fun b hb => ?_⟩
    obtain ⟨r, hrl, rfl⟩ := List.mem_map.1 hb
    exact transformed_eq hp hk hu hsort hr h (by simpa using (List.mem_filter.1 hrl).2)
  rw [this, List.sum_replicate, known_map hkl (fun y => y), nsmul_eq_mul, List.map_id']
  have hlen : (ysOf l).length = l.length := (PlainC.ys ⟨hkl, fun r hr => hu r (List.mem_of_mem_filter hr)⟩).2.2.2.1
  rcases eq_or_ne l [] with he | he
  · rw [he]; simp [ysOf]
  · have hn : (0 : ℚ) < l.length := by have := List.length_pos_iff.2 he; positivity
    unfold Spec.mean
    rw [hlen]
    field_simp

/-- C52: the transform is the best prediction in the sense of least squares among all functions of the index: no assignment
of numbers to the rows of the table has a smaller sum of squared errors on the training data. -/
theorem C52_least_squares (hp : ProperCodes sc) (hk : KnownTargetsC recs) (hu : UnitWeights recs)
    (hsort : ∀ l, (prebin l).Pairwise (· ≤ ·)) (hr : RespectsC c solver)
    (h : fitNumericalC sc none prebin solver old recs = .ok (old', f)) (g : ℤ → ℚ) :
    (recs.map fun r => (r.y.getD 0 - transformed f sc r.x) ^ 2).sum ≤
      (recs.map fun r => (r.y.getD 0 - g ((transformIndicesC f sc .empirical .empirical [r.x]).headD 0)) ^ 2).sum := by
  rw [sum_over_groups (f := f) hp _ le_rfl, sum_over_groups (f := f) hp _ le_rfl]
  refine List.sum_le_sum fun k _ => ?_
  set l := recs.filter fun r => decide (idxC f.splits sc r.x = (k : ℤ)) with hl
  have hkl : KnownTargetsC l := fun r hr => hk r (List.mem_of_mem_filter hr)
  have e1 : l.map (fun r => (r.y.getD 0 - transformed f sc r.x) ^ 2) = l.map fun r => (r.y.getD 0 - Spec.mean (ysOf l)) ^ 2 := by
    refine List.map_congr_left fun r hrl => ?_
    rw [transformed_eq hp hk hu hsort hr h (k := k) (by simpa using (List.mem_filter.1 hrl).2)]
  have e2 : l.map (fun r => (r.y.getD 0 - g ((transformIndicesC f sc .empirical .empirical [r.x]).headD 0)) ^ 2) =
      l.map fun r => (r.y.getD 0 - g k) ^ 2 := by
    refine List.map_congr_left fun r hrl => ?_
    rw [(transformIndicesC_idxC f sc r.x k).2 (by simpa using (List.mem_filter.1 hrl).2)]
    rfl
  rw [e1, e2, known_map hkl fun y => (y - Spec.mean (ysOf l)) ^ 2, known_map hkl fun y => (y - g k) ^ 2]
  exact sum_sq_least _ _

theorem mean_between {ys : List ℚ} {m M : ℚ} (hne : ys ≠ []) (hm : ∀ y ∈ ys, m ≤ y) (hM : ∀ y ∈ ys, y ≤ M) :
    m ≤ Spec.mean ys ∧ Spec.mean ys ≤ M := by
  have hn : (0 : ℚ) < ys.length := by have := List.length_pos_iff.2 hne; positivity
  unfold Spec.mean
  rw [le_div_iff₀ hn, div_le_iff₀ hn]
  constructor
  · have := List.card_nsmul_le_sum ys m hm
    rw [nsmul_eq_mul] at this; linarith
  · have := List.sum_le_card_nsmul ys M hM
    rw [nsmul_eq_mul] at this; linarith

/-- C52: the transformed value of a training record lies between the least and the greatest training target. -/
theorem C52_range (hp : ProperCodes sc) (hk : KnownTargetsC recs) (hu : UnitWeights recs)
    (hsort : ∀ l, (prebin l).Pairwise (· ≤ ·)) (hr : RespectsC c solver)
    (h : fitNumericalC sc none prebin solver old recs = .ok (old', f)) {m M : ℚ}
    (hm : IsMin (recs.filterMap RecC.y) m) (hM : IsMax (recs.filterMap RecC.y) M) {r : RecC α} (hrm : r ∈ recs) :
    m ≤ transformed f sc r.x ∧ transformed f sc r.x ≤ M := by
  obtain ⟨k, h1, -⟩ := idxC_lt hp f.splits r.x
  rw [transformed_eq hp hk hu hsort hr h h1]
  have hsub : ∀ y ∈ ysOf (recs.filter fun r => decide (idxC f.splits sc r.x = (k : ℤ))), y ∈ recs.filterMap RecC.y := by
    intro y hy
    obtain ⟨q, hq, hqy⟩ := List.mem_filterMap.1 hy
    exact List.mem_filterMap.2 ⟨q, List.mem_of_mem_filter hq, hqy⟩
  obtain ⟨y, hy⟩ := Option.ne_none_iff_exists'.1 (hk r hrm)
  refine mean_between (List.ne_nil_of_mem (a := y) ?_) (fun y hy => hm.2 y (hsub y hy)) fun y hy => hM.2 y (hsub y hy)
  exact List.mem_filterMap.2 ⟨r, List.mem_filter.2 ⟨hrm, by simpa using h1⟩, hy⟩

end

/-! ### non-vacuity -/

example : ∃ (f : FittedC ℕ) (st : MissingStats),
    fitNumericalC exCodesC none (fun _ => [3, 7]) exSolverC {} exRecsC = .ok (st, f) ∧
    transformMean f exCodesC .empirical .empirical [some 0, some 3, some 99, some 1000, none] =
      [some 3, some (-1), some 7, some 10, some 5] ∧
    (exRecsC.map fun r => transformed f exCodesC r.x).sum = 26 ∧
    (∀ g : ℤ → ℚ, (exRecsC.map fun r => (r.y.getD 0 - transformed f exCodesC r.x) ^ 2).sum ≤
      (exRecsC.map fun r => (r.y.getD 0 - g ((transformIndicesC f exCodesC .empirical .empirical [r.x]).headD 0)) ^ 2).sum) := by
  refine ⟨_, _, exFitC, by decide +kernel, ?_, ?_⟩
  · rw [C52_sum_preserved exCodesC_proper exRecsC_plain.1 exRecsC_plain.2 (prebin := fun _ => [3, 7])
      (fun _ => by simp) exSolverC_respects exFitC]
    decide +kernel
  · exact C52_least_squares exCodesC_proper exRecsC_plain.1 exRecsC_plain.2 (prebin := fun _ => [3, 7])
      (fun _ => by simp) exSolverC_respects exFitC

end OptBinning
