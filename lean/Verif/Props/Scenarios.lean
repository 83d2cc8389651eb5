import Verif.Lemmas.Scenarios
import Verif.Props.ScenarioSolver
import Verif.Props.MulticlassTable

/-!
# Properties C60–C62: the fit, the tables and `transform` of `SBOptimalBinning`

`f.nonevent`, `f.event` hold the columns "Non-event" and "Event" of `binning_table_scenario(0)`, `…(1)`, …;
`f.merged` is the object as seen by `transform` and `binning_table`.
-/
set_option linter.unusedSectionVars false
set_option linter.unusedSimpArgs false
namespace OptBinning
open Spec Finset

variable {α : Type*} [LinearOrder α]

/-- `f` is the result of `fit` on the scenarios `scens`: without `user_splits`, for some pre-binning with sorted splits, or
with some `user_splits` and `user_splits_fixed`. -/
def FitResultS (c : ScenCfg) (sc : SpecialCodes α) (solver : SolverS) (scens : List (Scen α)) (f : FittedS α) : Prop :=
  (∃ prebin : List (RecM α Bool) → List α, (∀ l, (prebin l).Pairwise (· ≤ ·)) ∧ fitScen c sc prebin solver scens = .ok f) ∨
  (∃ us fx, fitUserS c sc solver us fx scens = .ok f)

/-- `status` of a fit which reports a solution. -/
def FittedS.Solved (f : FittedS α) : Prop := f.status = "OPTIMAL" ∨ f.status = "FEASIBLE"

theorem FitResultS.from {c : ScenCfg} {sc : SpecialCodes α} {solver : SolverS} {scens : List (Scen α)} {f : FittedS α}
    (h : FitResultS c sc solver scens f) :
    ∃ (st : ScenState α) (splits : List α), splits.Pairwise (· ≤ ·) ∧ fitFromS c sc solver scens st splits = .ok f := by
  rcases h with ⟨prebin, hs, h⟩ | ⟨us, fx, h⟩
  · exact ⟨{}, _, hs _, h⟩
  · unfold fitUserS at h
    split_ifs at h with h0
    cases hso : sortUserSplits { userSplits := us, fixed := fx } with
    | error e => simp [hso] at h
    | ok p =>
      simp only [hso] at h
      exact ⟨_, _, sorted_sortUserSplits (st1 := p.1) (l := p.2) (by rw [hso]), h⟩

/-- `transform([x], metric="indices", metric_special="empirical", metric_missing="empirical")` is `[k]`. -/
abbrev FittedS.rowOf (f : FittedS α) (sc : SpecialCodes α) (x : Option α) (k : ℕ) : Prop :=
  transformIndices f.merged sc .empirical .empirical [x] = [(k : ℤ)]

theorem rowOfS_iff (f : FittedS α) (sc : SpecialCodes α) (x : Option α) (k : ℕ) :
    f.rowOf sc x k ↔ idxC f.splits sc x = (k : ℤ) := by
  unfold FittedS.rowOf transformIndices idxC FittedS.merged
  simp [MetricOpt.forIndices]

section
variable {c : ScenCfg} {sc : SpecialCodes α} {solver : SolverS} {w : List ℝ} {scens : List (Scen α)} {f : FittedS α}

theorem countRest_eq {recs : Scen α} (hk : ∀ r ∈ recs, r.y ≠ none) (q : RecM α Bool → Bool) :
    countRest false (recs.filter q) = countRecs recs fun r => r.y = some true ∧ q r = true := by
  unfold countRest countRecs
  rw [List.countP_filter]
  refine List.countP_congr fun r hr => ?_
  have := hk r hr
  rcases hy : r.y with _ | _ | _ <;> simp_all

theorem notDict_count (h : sc.isDict = false) : sc.count = 1 := by
  cases sc <;> simp_all [SpecialCodes.isDict, SpecialCodes.count]

/-- C60: the table of scenario `i` has one row per interval, one for special and one for missing values; row `k` shows the
number of non-events and of events of that scenario which `transform(metric="indices")` sends to `k`. -/
theorem C60_rows (hp : ProperCodes sc) (hr : RespectsS w solver) (h : FitResultS c sc solver scens f) {i : ℕ}
    {recs : Scen α} (hi : scens[i]? = some recs) (hk : ∀ r ∈ recs, r.y ≠ none) :
    ∃ ne ev, f.nonevent[i]? = some ne ∧ f.event[i]? = some ev ∧ ne.length = f.splits.length + 3 ∧
      ev.length = f.splits.length + 3 ∧ ∀ k < f.splits.length + 3,
        ne.getD k 0 = countRecs recs (fun r => r.y = some false ∧ f.rowOf sc r.x k) ∧
        ev.getD k 0 = countRecs recs (fun r => r.y = some true ∧ f.rowOf sc r.x k) := by
  classical
  obtain ⟨st, splits, hsort, hf⟩ := h.from
  obtain ⟨hd, -, -, -, h5⟩ := fitFromS_column hr hsort hf
  obtain ⟨⟨rn, n1, n2, n3⟩, ⟨re, e1, e2, e3⟩⟩ := h5 i recs hi
  refine ⟨_, _, n1, e1, by simp [n2], by simp [e2], fun k hkk => ?_⟩
  rw [countRecs_congr (q := fun r => r.y = some false ∧ idxC f.splits sc r.x = (k : ℤ)) (fun r _ => by rw [rowOfS_iff]),
    countRecs_congr (p := fun r => r.y = some true ∧ f.rowOf sc r.x k)
      (q := fun r => r.y = some true ∧ idxC f.splits sc r.x = (k : ℤ)) (fun r _ => by rw [rowOfS_iff])]
  have hcnt := notDict_count hd
  by_cases c1 : k ≤ f.splits.length
  · have hx : ∀ r : RecM α Bool, r.y ≠ none → (((!r.isMissing && !r.isSpecial sc) && (digitize false f.splits r.x == k)) = true ↔
        idxC f.splits sc r.x = (k : ℤ)) := by
      intro r hy
      rw [idx_regular_iff hp _ c1, ← RecM.isSpecial_iff]
      cases hx : r.x <;> cases hy' : r.y <;> simp_all [RecM.isMissing]
    rw [List.getD_append _ _ _ _ (by omega), n3, List.getD_append _ _ _ _ (by omega), e3]
    simp only [splitDataM, List.filter_filter]
    rw [countClass_eq, countRest_eq hk]
    constructor
    · refine countRecs_congr fun r _ => and_congr_right fun hy => ?_
      rw [← hx r (by rw [hy]; simp), Bool.and_comm]
    · refine countRecs_congr fun r _ => and_congr_right fun hy => ?_
      rw [← hx r (by rw [hy]; simp), Bool.and_comm]
  · by_cases c2 : k = f.splits.length + 1
    · subst c2
      rw [List.getD_append_right _ _ _ _ (by omega), n2, Nat.sub_self, List.getD_append_right _ _ _ _ (by omega), e2,
        Nat.sub_self, List.getD_cons_zero, List.getD_cons_zero]
      have hx : ∀ r : RecM α Bool, r.isSpecial sc = true ↔ idxC f.splits sc r.x = ((f.splits.length + 1 : ℕ) : ℤ) := by
        intro r
        have := idx_special_iff (splits := f.splits) hp r.x (j := 0) (by omega)
        rw [Nat.add_zero] at this
        rw [this, RecM.isSpecial_iff]
        refine ⟨fun h => ⟨h, fun gs hgs => ?_⟩, fun h => h.1⟩
        rw [hgs] at hd
        simp [SpecialCodes.isDict] at hd
      simp only [splitDataM]
      rw [countClass_eq, countRest_eq hk]
      exact ⟨countRecs_congr fun r _ => and_congr_right fun _ => hx r,
        countRecs_congr fun r _ => and_congr_right fun _ => hx r⟩
    · have c3 : k = f.splits.length + 2 := by omega
      subst c3
      rw [List.getD_append_right _ _ _ _ (by omega), n2, List.getD_append_right _ _ _ _ (by omega), e2]
      have e : f.splits.length + 2 - (f.splits.length + 1) = 1 := by omega
      rw [e, List.getD_cons_succ, List.getD_cons_zero, List.getD_cons_succ, List.getD_cons_zero]
      have hx : ∀ r : RecM α Bool, r.y ≠ none → (r.isMissing = true ↔
          idxC f.splits sc r.x = ((f.splits.length + 2 : ℕ) : ℤ)) := by
        intro r hy
        have := idx_missing_iff (splits := f.splits) hp r.x
        rw [hcnt] at this
        rw [this]
        cases hx : r.x <;> cases hy' : r.y <;> simp_all [RecM.isMissing]
      simp only [splitDataM]
      rw [countClass_eq, countRest_eq hk]
      exact ⟨countRecs_congr fun r _ => and_congr_right fun hy => hx r (by rw [hy]; simp),
        countRecs_congr fun r _ => and_congr_right fun hy => hx r (by rw [hy]; simp)⟩

theorem notDict (hr : RespectsS w solver) (h : FitResultS c sc solver scens f) : sc.isDict = false ∧
    f.nonevent.length = scens.length ∧ f.event.length = scens.length := by
  obtain ⟨st, splits, hsort, hf⟩ := h.from
  obtain ⟨hd, -, h3, h4, -⟩ := fitFromS_column hr hsort hf
  exact ⟨hd, h3, h4⟩

theorem sum_rowsS (hp : ProperCodes sc) (hd : sc.isDict = false) (f : FittedS α) (recs : Scen α) (q : RecM α Bool → Prop)
    [DecidablePred q] :
    ((List.range (f.splits.length + 3)).map fun k => countRecs recs fun r => q r ∧ f.rowOf sc r.x k).sum =
      countRecs recs q := by
  classical
  have := sum_rows hp (⟨"", f.splits, [], []⟩ : FittedM α Bool) recs q
  rw [notDict_count hd] at this
  have e : ∀ k : ℕ, countRecs recs (fun r => q r ∧ f.rowOf sc r.x k) =
      countRecs recs (fun r => q r ∧ OptBinning.rowOf (⟨"", f.splits, [], []⟩ : FittedM α Bool) sc r.x k) := by
    intro k
    refine countRecs_congr fun r _ => ?_
    rw [rowOfS_iff, rowOf_iff]
  simp only [e]
  exact this

/-- C60: no record of a scenario is lost or counted twice: the totals row of its table shows its numbers of non-events and
events, whose sum is the number of its records. -/
theorem C60_totals (hp : ProperCodes sc) (hr : RespectsS w solver) (h : FitResultS c sc solver scens f) {i : ℕ}
    {recs : Scen α} (hi : scens[i]? = some recs) (hk : ∀ r ∈ recs, r.y ≠ none) :
    ∃ ne ev, f.nonevent[i]? = some ne ∧ f.event[i]? = some ev ∧ ne.sum = countRecs recs (fun r => r.y = some false) ∧
      ev.sum = countRecs recs (fun r => r.y = some true) ∧ ne.sum + ev.sum = recs.length := by
  classical
  obtain ⟨ne, ev, h1, h2, h3, h4, h5⟩ := C60_rows hp hr h hi hk
  obtain ⟨hd, -⟩ := notDict hr h
  have a : ∀ l : List ℕ, l.sum = ((List.range l.length).map fun k => l.getD k 0).sum := by
    intro l
    congr 1
    exact List.ext_getElem (by simp) fun i h1 h2 => by simp [List.getD, h1]
  have b1 : ne.sum = countRecs recs (fun r => r.y = some false) := by
    rw [a, h3, ← sum_rowsS hp hd f recs (fun r => r.y = some false)]
    exact congrArg List.sum (List.map_congr_left fun k hk => (h5 k (List.mem_range.1 hk)).1)
  have b2 : ev.sum = countRecs recs (fun r => r.y = some true) := by
    rw [a, h4, ← sum_rowsS hp hd f recs (fun r => r.y = some true)]
    exact congrArg List.sum (List.map_congr_left fun k hk => (h5 k (List.mem_range.1 hk)).2)
  refine ⟨ne, ev, h1, h2, b1, b2, ?_⟩
  rw [b1, b2]
  unfold countRecs
  rw [List.length_eq_countP_add_countP (fun r : RecM α Bool => decide (r.y = some false))]
  congr 1
  refine List.countP_congr fun r hr => ?_
  have := hk r hr
  clear b1 b2 a h5 h3 h4 h1 h2
  rcases hy : r.y with _ | _ | _
  · exact absurd hy this
  · simp [hy]
  · simp [hy]

theorem sumCols_getD {cols : List (List ℕ)} {n : ℕ} (hc : ∀ l ∈ cols, l.length = n) (hne : cols ≠ []) {k : ℕ} (hk : k < n) :
    (sumCols cols).getD k 0 = (cols.map fun l => l.getD k 0).sum := by
  have h0 : (cols.getD 0 []).length = n := by
    cases cols with
    | nil => exact absurd rfl hne
    | cons a l => exact hc a (by simp)
  unfold sumCols
  rw [h0, List.getD, List.getElem?_map, List.getElem?_range hk, Option.map_some, Option.getD_some]
  congr 1
  exact List.ext_getElem (by simp) fun i h1 h2 => by
    have : i < cols.length := by simpa using h1
    simp [cellM, List.getD, this]

/-- C60: `binning_table` (all scenarios) has the same rows, and shows in row `k` the numbers of non-events and events of all
scenarios together which `transform(metric="indices")` sends to `k`. -/
theorem C60_merged (hp : ProperCodes sc) (hr : RespectsS w solver) (h : FitResultS c sc solver scens f)
    (hk : ∀ recs ∈ scens, ∀ r ∈ recs, r.y ≠ none) :
    f.merged.splits = f.splits ∧ ∀ k < f.splits.length + 3,
      f.merged.nonevent.getD k 0 = countRecs scens.flatten (fun r => r.y = some false ∧ f.rowOf sc r.x k) ∧
      f.merged.event.getD k 0 = countRecs scens.flatten (fun r => r.y = some true ∧ f.rowOf sc r.x k) := by
  classical
  obtain ⟨hd, hl1, hl2⟩ := notDict hr h
  have hs0 : scens ≠ [] := by
    obtain ⟨st, splits, hsort, hf⟩ := h.from
    unfold fitFromS at hf
    simp only at hf
    split_ifs at hf with h1 h2
    exact fun hc => h2 (by rw [hc]; rfl)
  have hrow : ∀ i (hi : i < scens.length), ∃ ne ev, f.nonevent[i]? = some ne ∧ f.event[i]? = some ev ∧
      ne.length = f.splits.length + 3 ∧ ev.length = f.splits.length + 3 ∧ ∀ k < f.splits.length + 3,
        ne.getD k 0 = countRecs scens[i] (fun r => r.y = some false ∧ f.rowOf sc r.x k) ∧
        ev.getD k 0 = countRecs scens[i] (fun r => r.y = some true ∧ f.rowOf sc r.x k) := fun i hi =>
    C60_rows hp hr h (List.getElem?_eq_getElem hi) (hk _ (List.getElem_mem hi))
  have flat : ∀ (p : RecM α Bool → Prop) [DecidablePred p], countRecs scens.flatten p = (scens.map fun recs => countRecs recs p).sum := by
    intro p _
    unfold countRecs
    rw [List.countP_flatten]
  refine ⟨rfl, fun k hkk => ?_⟩
  rw [flat, flat]
  have hn : ∀ l ∈ f.nonevent, l.length = f.splits.length + 3 := by
    intro l hl
    obtain ⟨i, hi, rfl⟩ := List.mem_iff_getElem.1 hl
    obtain ⟨ne, ev, h1, -, h3, -⟩ := hrow i (by omega)
    rw [List.getElem?_eq_getElem hi, Option.some.injEq] at h1
    rw [h1, h3]
  have he : ∀ l ∈ f.event, l.length = f.splits.length + 3 := by
    intro l hl
    obtain ⟨i, hi, rfl⟩ := List.mem_iff_getElem.1 hl
    obtain ⟨ne, ev, -, h1, -, h3, -⟩ := hrow i (by omega)
    rw [List.getElem?_eq_getElem hi, Option.some.injEq] at h1
    rw [h1, h3]
  have hpos : 0 < scens.length := List.length_pos_iff.2 hs0
  constructor
  · change (sumCols f.nonevent).getD k 0 = _
    rw [sumCols_getD hn (List.length_pos_iff.1 (by omega)) hkk]
    refine congrArg List.sum (List.ext_getElem (by simp [hl1]) fun i h1 h2 => ?_)
    simp only [List.length_map] at h1 h2
    obtain ⟨ne, ev, a1, -, -, -, a5⟩ := hrow i h2
    rw [List.getElem?_eq_getElem h1, Option.some.injEq] at a1
    rw [List.getElem_map, List.getElem_map, a1]
    exact (a5 k hkk).1
  · change (sumCols f.event).getD k 0 = _
    rw [sumCols_getD he (List.length_pos_iff.1 (by omega)) hkk]
    refine congrArg List.sum (List.ext_getElem (by simp [hl2]) fun i h1 h2 => ?_)
    simp only [List.length_map] at h1 h2
    obtain ⟨ne, ev, -, a1, -, -, a5⟩ := hrow i h2
    rw [List.getElem?_eq_getElem h1, Option.some.injEq] at a1
    rw [List.getElem_map, List.getElem_map, a1]
    exact (a5 k hkk).2

/-- C60: every regular row of every scenario's table contains non-events and events. -/
theorem C60_nonpure (hr : RespectsS w solver) (h : FitResultS c sc solver scens f) {i k : ℕ} (hi : i < scens.length)
    (hk : k ≤ f.splits.length) : 0 < cellM f.nonevent k i ∧ 0 < cellM f.event k i := by
  obtain ⟨st, splits, hsort, hf⟩ := h.from
  obtain ⟨n, nev, ev, -, -, -, h6, -, -, -, h9⟩ := fitFromS_bins hr hf
  obtain ⟨s, e, hb, hbk, hc⟩ := h9 k hk
  obtain ⟨e1, e2⟩ := hc i hi
  have hmem : e ∈ Icc s e := mem_Icc.2 ⟨hb.1, le_rfl⟩
  rw [e1, e2]
  exact ⟨lt_of_lt_of_le (h6 i hi e hb.2.1).2 (single_le_sum (f := fun j => (nev.getD i []).getD j 0)
      (fun _ _ => Nat.zero_le _) hmem),
    lt_of_lt_of_le (h6 i hi e hb.2.1).1 (single_le_sum (f := fun j => (ev.getD i []).getD j 0)
      (fun _ _ => Nat.zero_le _) hmem)⟩

/-! ## C61 -/

/-- The bins behind the regular rows. -/
theorem rowsS_bins (hr : RespectsS w solver) (h : FitResultS c sc solver scens f) (hs : f.Solved) :
    ∃ (fixed : Option (List Bool)) (inp : MultiInput) (ans : SolverAnswer), inp.Rect ∧ inp.classes = scens.length ∧
      inp.test = c.test ∧ inp.policy = c.policy ∧ inp.minDiff = c.minDiff ∧
      ans.Valid (acceptsScen (c.opts (scens.map List.length) fixed) inp) (objectiveScen w inp) ∧
      OptBinning.Solved (solve inp.n ans) ∧ numBins inp.n (inp.sol ans) = f.splits.length + 1 ∧
      ∀ k ≤ f.splits.length, ∃ s e, IsBin inp.n (solOf (solve inp.n ans).2) s e ∧ binOf (solve inp.n ans).2 e = k ∧
        ∀ i < scens.length,
          binTotal (inp.cls i).ev s e = ((cellM f.event k i : ℕ) : ℤ) ∧
          binTotal (inp.cls i).ne s e = ((cellM f.nonevent k i : ℕ) : ℤ) := by
  obtain ⟨st, splits, hsort, hf⟩ := h.from
  obtain ⟨n, nev, ev, h1, h2, h3, -, -, h7, h8, h9⟩ := fitFromS_bins hr hf
  refine ⟨st.fixed, c.input n nev ev, solver (c.opts (scens.map List.length) st.fixed) (c.input n nev ev), h1, h3, rfl, rfl,
    rfl, hr _ _, ?_, ?_, ?_⟩
  · unfold OptBinning.Solved
    change (solve n _).1 = _ ∨ (solve n _).1 = _
    rw [← h7]
    exact hs
  · change numBins n (solOf _) = _
    rw [numBins_eq]
    have := binOf_length (solve n (solver (c.opts (scens.map List.length) st.fixed) (c.input n nev ev))).2
    rw [solve_length] at this
    rw [← h8, ← this]
    rfl
  · intro k hk
    obtain ⟨s, e, hb, hbk, hc⟩ := h9 k hk
    refine ⟨s, e, hb, hbk, fun i hi => ?_⟩
    obtain ⟨e1, e2⟩ := hc i hi
    exact ⟨by rw [e1]; exact binTotal_eq _ s e, by rw [e2]; exact binTotal_eq _ s e⟩

/-- Column "Event rate" of the table of scenario `i`. -/
def FittedS.rate (f : FittedS α) (i k : ℕ) : ℚ :=
  (cellM f.event k i : ℚ) / ((cellM f.nonevent k i : ℚ) + (cellM f.event k i : ℚ))

theorem rateS_eq {inp : MultiInput} {i k s e : ℕ}
    (h : binTotal (inp.cls i).ev s e = ((cellM f.event k i : ℕ) : ℤ) ∧
      binTotal (inp.cls i).ne s e = ((cellM f.nonevent k i : ℕ) : ℤ)) :
    eventRate (inp.cls i).ne (inp.cls i).ev s e = f.rate i k := by
  unfold eventRate FittedS.rate
  rw [h.1, h.2]
  push_cast
  rfl

/-- C61: the number of regular rows respects `min_n_bins` and `max_n_bins`. -/
theorem C61_n_bins (hr : RespectsS w solver) (h : FitResultS c sc solver scens f) (hs : f.Solved) :
    AtLeast c.minBins (f.splits.length + 1 : ℕ) ∧ AtMost c.maxBins (f.splits.length + 1 : ℕ) := by
  obtain ⟨fixed, inp, ans, hw, -, -, -, -, hv, hsol, hn, -⟩ := rowsS_bins hr h hs
  obtain ⟨-, h1, h2, -⟩ := C58_limits hw hv hsol
  rw [hn] at h1 h2
  exact ⟨h1, h2⟩

/-- C61: `min_bin_size`, `max_bin_size` are fractions of the records of each scenario: in every scenario, every regular row
counts at least the fraction `min_bin_size` of its records, and less than the fraction `max_bin_size` plus one record. -/
theorem C61_bin_size (hr : RespectsS w solver) (h : FitResultS c sc solver scens f) (hs : f.Solved) {i k : ℕ}
    {recs : Scen α} (hi : scens[i]? = some recs) (hk : k ≤ f.splits.length) :
    (∀ q, c.minSize = some q → q * (recs.length : ℚ) ≤ ((cellM f.nonevent k i + cellM f.event k i : ℕ) : ℚ)) ∧
    (∀ q, c.maxSize = some q → ((cellM f.nonevent k i + cellM f.event k i : ℕ) : ℚ) < q * (recs.length : ℚ) + 1) := by
  obtain ⟨fixed, inp, ans, hw, hc, -, -, -, hv, hsol, hn, hrow⟩ := rowsS_bins hr h hs
  obtain ⟨s, e, hb, -, hcell⟩ := hrow k hk
  have hlt : i < scens.length := (List.getElem?_eq_some_iff.1 hi).1
  obtain ⟨e1, e2⟩ := hcell i hlt
  obtain ⟨h1, h2⟩ := C58_bin_size hw hv hsol (i := i) (by rw [hc]; exact hlt) hb
  rw [e1, e2] at h1 h2
  have hsz : ∀ q : ℚ, ((scens.map List.length).map fun m : ℕ => ⌈q * (m : ℚ)⌉).getD i 0 = ⌈q * (recs.length : ℚ)⌉ := by
    intro q
    rw [List.getD, List.getElem?_map, List.getElem?_map, hi]; rfl
  constructor
  · intro q hq
    have := h1 ((scens.map List.length).map fun m : ℕ => ⌈q * (m : ℚ)⌉) (by simp only [ScenCfg.opts, hq, Option.map_some])
    rw [hsz] at this
    have h3 := Int.le_ceil (q * (recs.length : ℚ))
    have h4 : ((⌈q * (recs.length : ℚ)⌉ : ℤ) : ℚ) ≤ ((cellM f.nonevent k i + cellM f.event k i : ℕ) : ℚ) := by
      exact_mod_cast this
    linarith
  · intro q hq
    have := h2 ((scens.map List.length).map fun m : ℕ => ⌈q * (m : ℚ)⌉) (by simp only [ScenCfg.opts, hq, Option.map_some])
    rw [hsz] at this
    have h3 := Int.ceil_lt_add_one (q * (recs.length : ℚ))
    have h4 : ((cellM f.nonevent k i + cellM f.event k i : ℕ) : ℚ) ≤ ((⌈q * (recs.length : ℚ)⌉ : ℤ) : ℚ) := by
      exact_mod_cast this
    linarith

/-- From a trend of the bins to a trend of the rows, in all scenarios. -/
theorem trend_rows_all {R : Type*} [CommRing R] [LinearOrder R] {S n m : ℕ} {sol : List Bool} {r : ℕ → ℕ → ℕ → R}
    {rate : ℕ → ℕ → R} {t : Trend} (ht : TrendInAll S n (solOf sol) r t)
    (hrow : ∀ k ≤ m, ∃ s e, IsBin n (solOf sol) s e ∧ binOf sol e = k ∧ ∀ i < S, r i s e = rate i k) :
    RowsTrendInAll S m rate t := by
  classical
  choose! A E hb hk hv using hrow
  have hlt : ∀ k k', k < k' → k' ≤ m → E k < E k' := by
    intro k k' h1 h2
    exact lt_of_lt_of_le (bin_lt (hb k (by omega)) (hb k' h2) (by rw [hk k (by omega), hk k' h2]; exact h1))
      (hb k' h2).1
  have hpos : ∀ c : ℕ, ∃ t : ℕ, (∀ k ≤ m, k < t → E k < c) ∧ ∀ k ≤ m, t ≤ k → c ≤ E k := by
    intro c
    by_cases hex : ∃ k, k ≤ m ∧ c ≤ E k
    · refine ⟨Nat.find hex, fun k h1 h2 => ?_, fun k h1 h2 => ?_⟩
      · have := Nat.find_min hex h2
        push Not at this
        exact this h1
      · have h3 := Nat.find_spec hex
        rcases Nat.eq_or_lt_of_le h2 with h4 | h4
        · rw [← h4]; exact h3.2
        · exact le_trans h3.2 (hlt _ _ h4 h1).le
    · push Not at hex
      exact ⟨m + 1, fun k h1 _ => hex k h1, fun k h1 h2 => by omega⟩
  cases t with
  | ascending =>
    intro i hi k k' h1 h2
    rw [← hv k (by omega) i hi, ← hv k' h2 i hi]
    exact ht i hi _ _ _ _ (hb k (by omega)) (hb k' h2) (hlt k k' h1 h2) trivial trivial
  | descending =>
    intro i hi k k' h1 h2
    rw [← hv k (by omega) i hi, ← hv k' h2 i hi]
    exact ht i hi _ _ _ _ (hb k (by omega)) (hb k' h2) (hlt k k' h1 h2) trivial trivial
  | concave =>
    intro i hi k k' k'' h1 h2 h3
    rw [← hv k (by omega) i hi, ← hv k' (by omega) i hi, ← hv k'' h3 i hi]
    exact ht i hi _ _ _ _ _ _ (hb k (by omega)) (hb k' (by omega)) (hb k'' h3) (hlt k k' h1 (by omega)) (hlt k' k'' h2 h3)
  | convex =>
    intro i hi k k' k'' h1 h2 h3
    rw [← hv k (by omega) i hi, ← hv k' (by omega) i hi, ← hv k'' h3 i hi]
    exact ht i hi _ _ _ _ _ _ (hb k (by omega)) (hb k' (by omega)) (hb k'' h3) (hlt k k' h1 (by omega)) (hlt k' k'' h2 h3)
  | peak =>
    obtain ⟨c, hc⟩ := ht
    obtain ⟨t, ht1, ht2⟩ := hpos c
    refine ⟨t, fun i hi => ⟨fun k k' h1 h2 h3 => ?_, fun k k' h1 h2 h3 => ?_⟩⟩
    · rw [← hv k (by omega) i hi, ← hv k' h2 i hi]
      exact (hc i hi).1 _ _ _ _ (hb k (by omega)) (hb k' h2) (hlt k k' h1 h2) (ht1 k (by omega) (by omega)) (ht1 k' h2 h3)
    · rw [← hv k (by omega) i hi, ← hv k' h2 i hi]
      exact (hc i hi).2 _ _ _ _ (hb k (by omega)) (hb k' h2) (hlt k k' h1 h2) (ht2 k (by omega) h3) (ht2 k' h2 (by omega))
  | valley =>
    obtain ⟨c, hc⟩ := ht
    obtain ⟨t, ht1, ht2⟩ := hpos c
    refine ⟨t, fun i hi => ⟨fun k k' h1 h2 h3 => ?_, fun k k' h1 h2 h3 => ?_⟩⟩
    · rw [← hv k (by omega) i hi, ← hv k' h2 i hi]
      exact (hc i hi).1 _ _ _ _ (hb k (by omega)) (hb k' h2) (hlt k k' h1 h2) (ht1 k (by omega) (by omega)) (ht1 k' h2 h3)
    · rw [← hv k (by omega) i hi, ← hv k' h2 i hi]
      exact (hc i hi).2 _ _ _ _ (hb k (by omega)) (hb k' h2) (hlt k k' h1 h2) (ht2 k (by omega) h3) (ht2 k' h2 (by omega))
  | _ => trivial

/-- C61: the column "Event rate", cut off after six decimals, follows the requested trend in the table of every scenario;
for "peak" and "valley" the turning row is the same in all scenarios. -/
theorem C61_trend (hr : RespectsS w solver) (ht : c.trend.scen) (h : FitResultS c sc solver scens f) (hs : f.Solved) :
    RowsTrendInAll scens.length f.splits.length (fun i k => ⌊f.rate i k * 1000000⌋) c.trend := by
  obtain ⟨fixed, inp, ans, hw, hc, -, -, -, hv, hsol, hn, hrow⟩ := rowsS_bins hr h hs
  have := C58_trend hw ht hv hsol
  rw [hc] at this
  refine trend_rows_all this fun k hk => ?_
  obtain ⟨s, e, hb, hbk, hcell⟩ := hrow k hk
  exact ⟨s, e, hb, hbk, fun i hi => by rw [rateS_eq (hcell i hi)]⟩

/-- C61: in every scenario, consecutive regular rows differ in "Event rate" by more than `min_event_rate_diff - 2e-6`. -/
theorem C61_min_event_rate_diff (hr : RespectsS w solver) (h : FitResultS c sc solver scens f) (hs : f.Solved) {i k : ℕ}
    (hi : i < scens.length) (hk : k + 1 ≤ f.splits.length) :
    c.minDiff - 2 / 1000000 < |f.rate i k - f.rate i (k + 1)| := by
  obtain ⟨fixed, inp, ans, hw, hc, -, -, hmd, hv, hsol, hn, hrow⟩ := rowsS_bins hr h hs
  obtain ⟨s, e, hb, hbk, hcell⟩ := hrow k (by omega)
  obtain ⟨s', e', hb', hbk', hcell'⟩ := hrow (k + 1) hk
  have hnext := bins_next hb hbk hb' hbk'
  subst hnext
  rw [← rateS_eq (hcell i hi), ← rateS_eq (hcell' i hi), ← hmd]
  rcases le_or_gt inp.minDiff 0 with h0 | h0
  · refine lt_of_lt_of_le ?_ (abs_nonneg _)
    linarith
  · exact C58_min_event_rate_diff hw hv hsol h0 (i := i) (by rw [hc]; exact hi) hb hb'

/-- C61: in every scenario, no two consecutive regular rows (policy "all": no two regular rows) fail the proportion test on
the counts shown. -/
theorem C61_max_pvalue (hr : RespectsS w solver) (h : FitResultS c sc solver scens f) (hs : f.Solved)
    {t : ℕ → ℕ → ℕ → ℕ → Bool} (ht : c.test = some t) {i k k' : ℕ} (hi : i < scens.length) (hkk : k < k')
    (hk' : k' ≤ f.splits.length) (hpol : c.policy = .consecutive → k' = k + 1) :
    t (cellM f.event k i) (cellM f.nonevent k i) (cellM f.event k' i) (cellM f.nonevent k' i) = false := by
  obtain ⟨fixed, inp, ans, hw, hc, htest, hpl, -, hv, hsol, hn, hrow⟩ := rowsS_bins hr h hs
  obtain ⟨s, e, hb, hbk, hcell⟩ := hrow k (by omega)
  obtain ⟨s', e', hb', hbk', hcell'⟩ := hrow k' hk'
  have hlt : e < s' := bin_lt (sol := (solve inp.n ans).2) hb hb' (by omega)
  have := C58_max_pvalue hw hv hsol (i := i) (by rw [hc]; exact hi) (htest.trans ht) hb hb' hlt (fun hp => by
      have hk1 := hpol (hpl ▸ hp)
      exact bins_next (sol := (solve inp.n ans).2) hb hbk hb' (by rw [hbk', hk1]))
  rw [(hcell i hi).1, (hcell i hi).2, (hcell' i hi).1, (hcell' i hi).2] at this
  simpa only [Int.toNat_natCast] using this

end
end OptBinning
