import Verif.Model.TransformRate
import Verif.Props.Metrics
import Verif.Props.Categorical

/-! # C39: `transform` with the metrics event rate and WoE shows the values of the binning table; C32 for WoE -/
namespace OptBinning
open Spec (Row ProperCodes KnownTargets WholeWeights IsSpecialValue Partitions IsRanking weight)

variable {α : Type*} [LinearOrder α] {κ : Type} [LinearOrder κ]

/-- The bin of a value, used to compare several metrics. -/
theorem transformOne_bin (splits : List α) (sc : SpecialCodes α) (hp : ProperCodes sc) (x : Option α) :
    ∃ k : ℕ, k < splits.length + 1 + sc.count + 1 ∧
      ∀ {β : Type} (mv : ℕ → β) (unk : β), transformOne splits sc mv unk none none x = mv k := by
  cases x with
  | none => exact ⟨_, by omega, fun mv unk => transformOne_missing _ _ _ _ _ _⟩
  | some v =>
    by_cases hs : IsSpecialValue sc (some v)
    · cases sc with
      | none => simp [IsSpecialValue] at hs
      | list l => exact ⟨splits.length + 1, by omega, fun mv unk => transformOne_list _ _ _ _ _ _ _ hs⟩
      | dict gs =>
        obtain ⟨g, hg, hv⟩ := hs
        obtain ⟨i, hi, rfl⟩ := List.getElem_of_mem hg
        exact ⟨splits.length + 1 + i, by simp only [SpecialCodes.count]; omega,
          fun mv unk => transformOne_dict _ _ _ _ _ _ _ hp.2 hi hv⟩
    · exact ⟨_, by have := digitize_le false splits (some v); omega, fun mv unk => transformOne_clean _ _ _ _ _ _ _ hs⟩

theorem rowsOf_getElem? {nonevent event : List ℕ} {k : ℕ} (h1 : k < nonevent.length) (h2 : k < event.length) :
    (rowsOf nonevent event)[k]? = some ⟨nonevent.getD k 0, event.getD k 0⟩ := by
  simp [rowsOf, List.getElem?_zipWith, List.getElem?_eq_getElem h1, List.getElem?_eq_getElem h2]

theorem rowsOf_columns : ∀ {nonevent event : List ℕ}, nonevent.length = event.length →
    (rowsOf nonevent event).map Row.event = event ∧ (rowsOf nonevent event).map Row.nonevent = nonevent
  | [], [], _ => by simp [rowsOf]
  | a :: l, b :: m, h => by
    have := rowsOf_columns (nonevent := l) (event := m) (by simpa using h)
    simpa [rowsOf] using this
  | [], _ :: _, h => by simp at h
  | _ :: _, [], h => by simp at h

theorem events_rowsOf {nonevent event : List ℕ} (h : nonevent.length = event.length) :
    Spec.events (rowsOf nonevent event) = event.sum ∧ Spec.nonevents (rowsOf nonevent event) = nonevent.sum := by
  rw [events_eq, nonevents_eq, (rowsOf_columns h).1, (rowsOf_columns h).2]
  exact ⟨rfl, rfl⟩

/-- The values used by `transform` are those of the table. -/
theorem tableRate_eq (sort) {nonevent event : List ℕ} {b : BuiltTable} (h : buildTable sort (rowsOf nonevent event) = .ok b)
    {k : ℕ} (h1 : k < nonevent.length) (h2 : k < event.length) (hl : nonevent.length = event.length) :
    b.eventRate[k]? = some ((tableRate nonevent event k : ℚ) : ℝ) ∧ b.woe[k]? = some (tableWoe nonevent event k) := by
  have hrow := rowsOf_getElem? h1 h2
  obtain ⟨hk, hget⟩ := List.getElem?_eq_some_iff.mp hrow
  by_cases hm : 0 < event.getD k 0 ∧ 0 < nonevent.getD k 0
  · obtain ⟨a1, a2, a3, -⟩ := C20_table_woe sort h hk (by rw [hget]; exact hm.1) (by rw [hget]; exact hm.2)
    have hr : ((tableRate nonevent event k : ℚ) : ℝ) = Spec.rate (rowsOf nonevent event)[k] := by
      rw [hget, tableRate, if_pos hm, Spec.rate]; push_cast; rfl
    rw [a1, a2, a3]
    refine ⟨by rw [hr], ?_⟩
    rw [tableWoe, if_pos hm, hr, (events_rowsOf hl).1, (events_rowsOf hl).2]
  · have hm' : ¬ (rowsOf nonevent event)[k].mixed = true := by rw [mixed_iff, hget]; exact hm
    rw [buildTable_ok h]
    constructor
    · simp only [buildCore, List.getElem?_map, List.getElem?_eq_getElem hk, Option.map_some]
      rw [if_neg hm', tableRate, if_neg hm]; simp
    · simp only [buildCore, List.getElem?_map, List.getElem?_eq_getElem hk, Option.map_some, List.zip_eq_zipWith,
        List.getElem?_zipWith]
      rw [if_neg hm', tableWoe, if_neg hm]

/-- C39: for every value (regular, special, missing) of a fitted numerical variable, `transform` with the metric event rate
(WoE) returns the event rate (WoE) which the binning table shows for the bin that `transform(metric="indices")` assigns. -/
theorem C39_transform_shows_table (sort) {cfg : PrebinCfg} {sc : SpecialCodes α} {prebin : List (Rec α) → List α}
    {solver : Solver} {c : SolverCfg} {recs : List (Rec α)} {f : Fitted α} (hsc : ProperCodes sc) (hk : KnownTargets recs)
    (hw : WholeWeights recs) (hsolver : Respects c solver) (hsort : ∀ l, (prebin l).Pairwise (· ≤ ·))
    (h : fitNumerical cfg sc {} prebin solver recs = .ok f) {b : BuiltTable}
    (hb : buildTable sort (rowsOf f.nonevent f.event) = .ok b) (x : Option α) :
    ∃ (k : ℕ) (er woe : ℝ), transformIndices f sc .empirical .empirical [x] = [(k : ℤ)] ∧
      b.eventRate[k]? = some er ∧ b.woe[k]? = some woe ∧
      (transformRate f sc .empirical .empirical [x]).map (fun (q : ℚ) => (q : ℝ)) = [er] ∧
      transformWoe f sc .empirical .empirical [x] = [woe] := by
  have l1 := (C03_histogram hsc hk hw hsolver hsort h false).1
  have l2 := (C03_histogram hsc hk hw hsolver hsort h true).1
  simp only [Fitted.column, Bool.false_eq_true, if_false, if_true] at l1 l2
  obtain ⟨k, hkl, hk⟩ := transformOne_bin f.splits sc hsc x
  obtain ⟨e1, e2⟩ := tableRate_eq sort hb (k := k) (by omega) (by omega) (by omega)
  refine ⟨k, _, _, ?_, e1, e2, ?_, ?_⟩
  · simp [transformIndices, MetricOpt.forIndices, hk]
  · simp [transformRate, MetricOpt.forRate, hk]
  · simp [transformWoe, MetricOpt.forRate, hk]

/-- C39: a numeric `metric_special` / `metric_missing` replaces the value of special and missing records only. -/
theorem C39_regular_values_unaffected (f : Fitted α) (sc : SpecialCodes α) (ms mm ms' mm' : MetricOpt) (v : α)
    (hv : ¬ IsSpecialValue sc (some v)) :
    transformRate f sc ms mm [some v] = transformRate f sc ms' mm' [some v] ∧
    transformWoe f sc ms mm [some v] = transformWoe f sc ms' mm' [some v] ∧
    (∀ q, transformRate f sc ms (.float q) [none] = [q]) ∧ (∀ q, transformWoe f sc ms (.float q) [none] = [(q : ℝ)]) := by
  simp [transformRate, transformWoe, transformOne_clean _ _ _ _ _ _ _ hv, transformOne_missing, MetricOpt.forRate]

/-- C32 for WoE: with `cat_unknown=None` an unknown category gets the WoE of the average event rate, which is 0 — if
special or missing values are treated empirically (otherwise the average is taken over the wrong number of records, see
`C32_default_exceeds_one`). -/
theorem C32_unknown_woe_zero (bins : List (List κ)) (nonevent event : List ℕ) (sc : SpecialCodes κ) (ms mm : MetricOpt)
    (he : ms = .empirical ∨ mm = .empirical) (h1 : 0 < nonevent.sum) (h2 : 0 < event.sum) (v : κ)
    (hv : ∀ b ∈ bins, v ∉ b) (hs : ¬ IsSpecialValue sc (some v)) :
    transformCatWoe bins nonevent event sc none ms mm [some v] = [0] := by
  simp only [transformCatWoe, List.map_cons, List.map_nil, C32_unknown _ _ _ _ _ _ _ hv hs]
  congr 1
  have p1 : (0 : ℝ) < (nonevent.sum : ℕ) := by exact_mod_cast h1
  have p2 : (0 : ℝ) < (event.sum : ℕ) := by exact_mod_cast h2
  have : (ms.isEmpirical || mm.isEmpirical) = true := by rcases he with rfl | rfl <;> simp [MetricOpt.isEmpirical]
  unfold meanWoe meanEventRate
  rw [if_pos this]
  generalize event.sum = te at *
  generalize nonevent.sum = tne at *
  push_cast
  have r1 : (te : ℝ) / ((te : ℝ) + (tne : ℝ)) < 1 := by
    rw [div_lt_one (by positivity)]; linarith
  exact (C20_woe_zero_iff (by positivity) r1 p1 p2).mpr rfl

/-- C32 for WoE: a given `cat_unknown` is returned for unknown categories, and a category of bin `i` gets the WoE of row `i`
whatever `cat_unknown` (float) is. -/
theorem C32_woe_known_and_given (bins : List (List κ)) (nonevent event : List ℕ) (sc : SpecialCodes κ) (ms mm : MetricOpt)
    (v : κ) (hs : ¬ IsSpecialValue sc (some v)) :
    (∀ q : ℚ, (∀ b ∈ bins, v ∉ b) → transformCatWoe bins nonevent event sc (some q) ms mm [some v] = [(q : ℝ)]) ∧
    (∀ (p : κ → Prop) (cu : Option ℚ) (i : ℕ), Partitions bins p → p v → v ∈ bins.getD i [] →
      transformCatWoe bins nonevent event sc cu ms mm [some v] = [tableWoe nonevent event i]) := by
  constructor
  · intro q hv
    simp [transformCatWoe, C32_unknown _ _ _ _ _ _ _ hv hs]
  · intro p cu i hp hv hi
    obtain ⟨k, ⟨h1, h2⟩, h3⟩ := hp.1 v hv
    have hlt : i < bins.length := by
      by_contra hc
      rw [List.getD_eq_default _ _ (by omega)] at hi
      simp at hi
    have hu : ∀ j, v ∈ bins.getD j [] → j = i := by
      intro j hj
      have hj' : j < bins.length := by
        by_contra hc
        rw [List.getD_eq_default _ _ (by omega)] at hj
        simp at hj
      rw [h3 j ⟨hj', hj⟩, h3 i ⟨hlt, hi⟩]
    simp only [transformCatWoe, List.map_cons, List.map_nil, transformCat, assign_clean _ _ _ _ _ _ _ hs,
      transformCatClean_known bins _ _ v hlt hi hu]

/-- C39 is not vacuous: the running example (regular bins, two special groups, missing). -/
example : ∃ b, buildTable exSort (rowsOf [1, 2, 1, 1, 0, 1, 1] [1, 1, 1, 3, 1, 0, 1]) = .ok b ∧
    ∀ x : Option ℕ, ∃ (k : ℕ) (er woe : ℝ),
      transformIndices ⟨"FEASIBLE", [3, 5, 7], [1, 2, 1, 1, 0, 1, 1], [1, 1, 1, 3, 1, 0, 1]⟩ exCodes .empirical .empirical [x]
        = [(k : ℤ)] ∧ b.eventRate[k]? = some er ∧ b.woe[k]? = some woe := by
  have hb : buildTable exSort (rowsOf [1, 2, 1, 1, 0, 1, 1] [1, 1, 1, 3, 1, 0, 1]) =
      .ok (buildCore exSort (rowsOf [1, 2, 1, 1, 0, 1, 1] [1, 1, 1, 3, 1, 0, 1])) := by
    unfold buildTable; rw [if_neg (by decide)]
  refine ⟨_, hb, fun x => ?_⟩
  obtain ⟨k, er, woe, h1, h2, h3, -⟩ := C39_transform_shows_table exSort exCodes_proper exRecs_known exRecs_whole
    (exSolver_respects _) (fun _ => by decide) exFit hb x
  exact ⟨k, er, woe, h1, h2, h3⟩

/-- C32 for WoE is not vacuous. -/
example : transformCatWoe [[1, 2], [3]] [3, 1, 0, 0] [1, 2, 0, 0] (.none : SpecialCodes ℕ) none .empirical (.int 0) [some 7]
    = [0] :=
  C32_unknown_woe_zero _ _ _ _ _ _ (Or.inl rfl) (by decide) (by decide) 7 (by decide) (by simp [IsSpecialValue])

end OptBinning
