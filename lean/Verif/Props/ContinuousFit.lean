import Verif.Props.ContinuousTransform

/-!
# C48 for the binning table of a fitted object, C53: robustness of `ContinuousOptimalBinning.fit`
-/
set_option linter.unusedSectionVars false
set_option linter.unusedSimpArgs false
namespace OptBinning
open Spec Finset

variable {α : Type*} [LinearOrder α]

/-- C48 for the table: if the optimisation succeeded and some split remains, the number of intervals and the Count of every
interval obey the limits, the Means of the intervals follow an ascending or descending trend (up to the rounding 2e-6), and
the Means of neighbouring intervals differ by at least `min_mean_diff`. -/
theorem C48_table {sc : SpecialCodes α} {det : Option (List (RecC α) → List Bool)} {prebin : List (RecC α) → List α}
    {solver : SolverC} {c : SolverCfgC} {o : Opts} {old old' : MissingStats} {recs : List (RecC α)} {f : FittedC α}
    (hr : RespectsC c solver) (ho : ∀ cells, c.opts cells = o)
    (htr : ∀ tc, o.trend ≠ .peakHeuristic tc ∧ o.trend ≠ .valleyHeuristic tc)
    (h : fitNumericalC sc det prebin solver old recs = .ok (old', f)) (hne : f.splits ≠ [])
    (hst : f.status = "OPTIMAL" ∨ f.status = "FEASIBLE") :
    AtLeast o.minBins ((f.splits.length + 1 : ℕ) : ℤ) ∧ AtMost o.maxBins ((f.splits.length + 1 : ℕ) : ℤ) ∧
    ∃ (row : ℕ → RowC) (m : ℕ → ℚ), ∀ k ≤ f.splits.length, f.rows[k]? = some (row k) ∧ 0 < (row k).cnt ∧
      (row k).mean = some (m k) ∧
      AtLeast o.minSize ((row k).cnt : ℤ) ∧ AtMost o.maxSize ((row k).cnt : ℤ) ∧
      (∀ j < k, (o.trend = .ascending → m j < m k + 2 / 1000000) ∧ (o.trend = .descending → m k < m j + 2 / 1000000)) ∧
      (k < f.splits.length → c.minDiff ≤ |m k - m (k + 1)|) := by
  obtain ⟨special, st', hs, hf⟩ := fitNumericalC_cases h
  obtain ⟨cells, h2, hpos, hstat, hcount, hrow⟩ := fitCoreC_bins (fun cells hn => hr.last cells hn) hf hne
  have hw : (c.input cells).Wf := by
    refine ⟨by simp [SolverCfgC.input], by simp [SolverCfgC.input], by simp [SolverCfgC.input]; omega, ?_⟩
    intro x hx
    simp only [SolverCfgC.input, List.mem_map] at hx
    obtain ⟨d, hd, rfl⟩ := hx
    exact Nat.pos_of_ne_zero (hpos d hd)
  have hn : (c.input cells).n = cells.length := by simp [SolverCfgC.input, ContInput.n]
  have hv := hr cells
  rw [ho cells] at hv
  have htc : ChangeInRange o (c.input cells) := by
    rintro tc (h | h)
    · exact absurd h (htr tc).1
    · exact absurd h (htr tc).2
  have hsolved : Solved (solve (c.input cells).n (solver cells)) := by rw [hn]; unfold Solved; rw [← hstat]; exact hst
  have hsol := C48_solution hw htc hv hsolved
  rw [hn] at hsol hsolved
  obtain ⟨hadm, -, -⟩ := hsol
  have hnb : ((numBins cells.length (solOf (solve cells.length (solver cells)).2) : ℕ) : ℤ) = ((f.splits.length + 1 : ℕ) : ℤ) := by
    rw [numBins_eq, ← hcount, ← binOf_length, solve_length]
  refine ⟨by rw [← hnb]; exact hadm.minBins, by rw [← hnb]; exact hadm.maxBins, ?_⟩
  have hch : ∀ k, ∃ s e row, k ≤ f.splits.length →
      IsBin cells.length (solOf (solve cells.length (solver cells)).2) s e ∧
        binOf (solve cells.length (solver cells)).2 e = k ∧ f.rows[k]? = some row ∧
        row.cnt = ∑ i ∈ Icc s e, (cells.map CellC.cnt).getD i 0 ∧
        row.sum = some (∑ i ∈ Icc s e, (cells.map CellC.s).getD i 0) := by
    intro k
    by_cases hk : k ≤ f.splits.length
    · obtain ⟨s, e, row, h⟩ := hrow k hk
      exact ⟨s, e, row, fun _ => h⟩
    · exact ⟨0, 0, ⟨0, none, none, none, none, 0⟩, fun h => absurd h hk⟩
  choose S E row hall using hch
  have hcnt : ∀ k ≤ f.splits.length, ((row k).cnt : ℤ) = binTotal (c.input cells).recs (S k) (E k) := by
    intro k hk
    rw [(hall k hk).2.2.2.1]
    unfold binTotal ContInput.recs
    push_cast
    rfl
  have hcpos : ∀ k ≤ f.splits.length, 0 < (row k).cnt := by
    intro k hk
    obtain ⟨hb, -, -, hc, -⟩ := hall k hk
    rw [hc]
    refine Finset.sum_pos (fun i hi => ?_) ⟨S k, mem_Icc.2 ⟨le_rfl, hb.1⟩⟩
    have hil : i < cells.length := lt_of_le_of_lt (mem_Icc.1 hi).2 hb.2.1
    rw [List.getD_eq_getElem?_getD, List.getElem?_map, List.getElem?_eq_getElem hil]
    exact Nat.pos_of_ne_zero (hpos _ (List.getElem_mem hil))
  refine ⟨row, fun k => binMean (c.input cells).recs (c.input cells).sum (S k) (E k), fun k hk => ?_⟩
  obtain ⟨hb, hbk, hr1, hc1, hs1⟩ := hall k hk
  refine ⟨hr1, hcpos k hk, ?_, ?_, ?_, ?_, ?_⟩
  · unfold RowC.mean
    rw [if_pos (hcpos k hk), hs1]
    simp only [Option.map_some]
    congr 1
    unfold binMean
    rw [← hcnt k hk]
    push_cast
    rfl
  · rw [hcnt k hk]; exact hadm.minSize _ _ hb
  · rw [hcnt k hk]; exact hadm.maxSize _ _ hb
  · intro j hj
    obtain ⟨hb', hbj, -⟩ := hall j (by omega)
    have hlt : E j < E k := by
      by_contra hc
      have := binOf_mono (solve cells.length (solver cells)).2 (not_lt.1 hc)
      omega
    have := C48_monotone hw hv (by rw [hn]; exact hsolved) (s := S j) (e := E j) (s' := S k) (e' := E k)
      (by rw [hn]; exact hb') (by rw [hn]; exact hb) hlt
    exact this
  · intro hkl
    obtain ⟨hb', hbj, -⟩ := hall (k + 1) (by omega)
    have hE : solOf (solve cells.length (solver cells)).2 (E k) = true := hb.2.2.1
    have h1 : binOf (solve cells.length (solver cells)).2 (E k + 1) = k + 1 := by
      rw [binOf_succ, hE, hbk]; simp
    have h3 : S (k + 1) = E k + 1 := by
      have h4 := ((binOf_iff hb' (E k + 1)).1 (by rw [h1, hbj])).1
      have h5 : ¬ S (k + 1) ≤ E k := by
        intro hle
        have := (binOf_iff hb' (E k)).2 ⟨hle, by
          have := ((binOf_iff hb' (E k + 1)).1 (by rw [h1, hbj])).2; omega⟩
        omega
      omega
    have := C48_min_mean_diff hw htc hv (by rw [hn]; exact hsolved) (s := S k) (e := E k) (e' := E (k + 1))
      (by rw [hn]; exact hb) (by rw [hn, ← h3]; exact hb')
    rw [← h3] at this
    exact this

/-! ## C50 with sample weights -/

/-- Count and Sum of a row are the total weight and the weighted sum of the targets of the records `l`. -/
def RowC.WeighsAs (row : RowC) (l : List (RecC α)) : Prop :=
  (row.cnt : ℚ) = (l.map RecC.w).sum ∧ row.sum = some ((l.map fun r => r.w * r.y.getD 0).sum)

theorem RowC.WeighsAs.perm {row : RowC} {l l' : List (RecC α)} (h : row.WeighsAs l) (hp : l.Perm l') : row.WeighsAs l' :=
  ⟨by rw [h.1, (hp.map _).sum_eq], by rw [h.2, (hp.map _).sum_eq]⟩

theorem cellOf_weighs {l : List (RecC α)} (hw : WholeC l) : (cellOf l).row.WeighsAs l :=
  ⟨truncWeightC_whole hw, rfl⟩

theorem summaryC_weighs {l : List (RecC α)} (hw : WholeC l) (hk : KnownTargetsC l) : (summaryC l).WeighsAs l := by
  refine ⟨truncWeightC_whole hw, ?_⟩
  have : l.map RecC.wy = (l.map fun r => r.w * r.y.getD 0).map some := by
    rw [List.map_map]
    refine List.map_congr_left fun r hr => ?_
    obtain ⟨y, hy⟩ := Option.ne_none_iff_exists'.1 (hk r hr)
    simp [RecC.wy, hy]
  simp only [summaryC, this, allKnown_some, Option.map_some]

theorem specialRows_weighs {sc : SpecialCodes α} {special : List (RecC α)} {rows : List RowC} (hw : WholeC special)
    (hk : KnownTargetsC special) (h : specialRows sc special = .ok rows) :
    rows.length = sc.count ∧ ∀ j < sc.count, ∃ row, rows[j]? = some row ∧ row.WeighsAs (specialGroup sc special j) := by
  cases sc with
  | none =>
    simp only [specialRows, Except.ok.injEq] at h
    subst h
    refine ⟨rfl, fun j hj => ?_⟩
    have hj : j = 0 := by simpa [SpecialCodes.count] using hj
    subst hj
    exact ⟨_, rfl, summaryC_weighs hw hk⟩
  | list l =>
    simp only [specialRows, Except.ok.injEq] at h
    subst h
    refine ⟨rfl, fun j hj => ?_⟩
    have hj : j = 0 := by simpa [SpecialCodes.count] using hj
    subst hj
    exact ⟨_, rfl, summaryC_weighs hw hk⟩
  | dict gs =>
    simp only [specialRows] at h
    split_ifs at h with h0
    cases h
    refine ⟨by simp [SpecialCodes.count], fun j hj => ?_⟩
    have hj : j < gs.length := by simpa [SpecialCodes.count] using hj
    have hget : gs.getD j ("", []) = gs[j] := by simp [List.getD, hj]
    refine ⟨_, by rw [List.getElem?_map, List.getElem?_eq_getElem hj]; rfl, ?_⟩
    simp only [specialGroup, hget]
    have hs : (summaryC (special.filter fun r => gs[j].2.contains r.x)).WeighsAs _ :=
      summaryC_weighs (hw.sublist List.filter_sublist.subset) fun r hr => hk r (List.mem_of_mem_filter hr)
    split_ifs with hz
    · exact hs
    · exact hs

/-- C50 with whole sample weights: Count and Sum of row `k` are the total weight and the weighted target sum of exactly the
training records which `transform(metric="indices")` sends to `k`. -/
theorem C50_weighted {sc : SpecialCodes α} {prebin : List (RecC α) → List α} {solver : SolverC} {c : SolverCfgC}
    {old old' : MissingStats} {recs : List (RecC α)} {f : FittedC α} (hp : ProperCodes sc) (hk : KnownTargetsC recs)
    (hw : ∀ r ∈ recs, ∃ n : ℕ, r.w = n) (hsort : ∀ l, (prebin l).Pairwise (· ≤ ·)) (hr : RespectsC c solver)
    (h : fitNumericalC sc none prebin solver old recs = .ok (old', f)) :
    f.rows.length = f.splits.length + 1 + sc.count + 1 ∧
    ∀ k < f.rows.length, ∃ row, f.rows[k]? = some row ∧
      row.WeighsAs (recs.filter fun r => decide (transformIndicesC f sc .empirical .empirical [r.x] = [(k : ℤ)])) := by
  obtain ⟨special, st', hs, hf⟩ := fitNumericalC_cases h
  have hsub1 : (splitDataC sc none recs).clean ⊆ recs := fun r hr => (splitC_clean_x hr).1
  have hsub2 : (splitDataC sc none recs).special ⊆ recs := List.filter_sublist.subset
  have hsub3 : (splitDataC sc none recs).missing ⊆ recs := List.filter_sublist.subset
  have hw' : WholeC recs := hw
  obtain ⟨-, reg, hrows, hlen, hreg⟩ := fitCoreC_rows (fun cells hn => hr.last cells hn)
    (fun r hr => (splitC_clean_x hr).2.1) (hw'.sublist hsub1) (hsort _) hf
  obtain ⟨hsl, hspec⟩ := specialRows_weighs (hw'.sublist hsub2) (fun r hr => hk r (hsub2 hr)) hs
  have htot : f.rows.length = f.splits.length + 1 + sc.count + 1 := by
    rw [hrows]; simp [hlen, hsl]; omega
  refine ⟨htot, fun k hkl => ?_⟩
  have hfilt : (recs.filter fun r => decide (transformIndicesC f sc .empirical .empirical [r.x] = [(k : ℤ)])) =
      recs.filter fun r => decide (idxC f.splits sc r.x = (k : ℤ)) := by
    refine List.filter_congr fun r _ => ?_
    rw [decide_eq_decide]
    exact transformIndicesC_idxC f sc r.x k
  rw [hfilt]
  simp only [Option.toList_none, List.nil_append] at hrows
  by_cases h1 : k ≤ f.splits.length
  · obtain ⟨l, hperm, hl⟩ := hreg k h1
    have hls : l ⊆ recs := fun r hr => hsub1 (List.filter_sublist.subset (hperm.subset hr))
    have hget : f.rows[k]? = reg[k]? := by rw [hrows, List.getElem?_append_left (by omega)]
    rw [idx_regular hp hk h1]
    rcases hl with hl | hl
    · exact ⟨_, hget.trans hl, (cellOf_weighs (hw'.sublist hls)).perm hperm⟩
    · exact ⟨_, hget.trans hl, (summaryC_weighs (hw'.sublist hls) fun r hr => hk r (hls hr)).perm hperm⟩
  · by_cases h2 : k < f.splits.length + 1 + sc.count
    · obtain ⟨j, rfl⟩ : ∃ j, k = f.splits.length + 1 + j := ⟨k - (f.splits.length + 1), by omega⟩
      have hj : j < sc.count := by omega
      obtain ⟨row, hrow, hsum⟩ := hspec j hj
      refine ⟨row, ?_, ?_⟩
      · rw [hrows, List.getElem?_append_right (by omega), hlen, Nat.add_sub_cancel_left,
          List.getElem?_append_left (by omega), hrow]
      · rw [idx_special hp hj]; exact hsum
    · have h3 : k = f.splits.length + 1 + sc.count := by omega
      subst h3
      refine ⟨missingRow old (splitDataC sc none recs).missing, ?_, ?_⟩
      · rw [hrows, List.getElem?_append_right (by omega), hlen, Nat.add_sub_cancel_left,
          List.getElem?_append_right (by omega), hsl]
        simp
      · rw [idx_missing hp hk]
        have := summaryC_weighs (hw'.sublist hsub3) fun r hr => hk r (hsub3 hr)
        unfold missingRow
        split_ifs
        · exact this
        · exact this

/-- C50, finding: with sample weights the columns Min, Max, Std and Zeros describe weight times target: a single record with
target 3 and weight 2 has Max 6. -/
theorem C50_weights_distort_max (solver : SolverC) :
    ∃ f st, fitNumericalC (SpecialCodes.none : SpecialCodes ℕ) none (fun _ => []) solver {} [⟨some 1, some 3, 2⟩] =
      .ok (st, f) ∧ ∃ row, f.rows[0]? = some row ∧ row.mean = some 3 ∧ row.mx = some 6 ∧ row.mn = some 6 := by
  have e : (splitDataC (SpecialCodes.none : SpecialCodes ℕ) none [⟨some 1, some 3, 2⟩]).clean =
      [⟨some 1, some 3, 2⟩] := by decide +kernel
  simp only [fitNumericalC, specialRows, fitCoreC, e, bind, Except.bind, pure, Except.pure, List.length_nil,
    if_true, fitOptimizerC, Nat.zero_le, List.replicate_zero, reduceCtorEq, if_false]
  refine ⟨_, _, rfl, summaryC [⟨some (1 : ℕ), some 3, 2⟩], rfl, by decide +kernel, by decide +kernel, by decide +kernel⟩

/-- C52: for all combinations of the options, special values get the given number or the mean of their row, missing values
likewise, and all other values the mean of their row. -/
theorem C52_options {sc : SpecialCodes α} (hp : ProperCodes sc) (f : FittedC α) (ms mm : MetricOpt) (x : Option α) :
    transformMean f sc ms mm [x] = if x = none then [mm.forMean.getD ((transformMean f sc .empirical .empirical [x]).headD none)]
      else if sc.codes.contains x then [ms.forMean.getD ((transformMean f sc .empirical .empirical [x]).headD none)]
      else transformMean f sc .empirical .empirical [x] := by
  cases x with
  | none =>
    rw [if_pos rfl]
    simp only [transformMean, List.map_cons, List.map_nil, transformOne_missing, List.headD_cons]
    cases ms <;> cases mm <;> simp [usedRows, MetricOpt.forMean]
  | some v =>
    rw [if_neg (by simp)]
    by_cases hs : IsSpecialValue sc (some v)
    · rw [if_pos ((contains_codes_iff _ _).2 hs)]
      obtain ⟨i, -, h1⟩ := special_index (β := Option ℚ) hp hs
      simp only [transformMean, List.map_cons, List.map_nil, h1, List.headD_cons]
      cases ms <;> cases mm <;> simp [usedRows, MetricOpt.forMean]
    · rw [if_neg (fun h => hs ((contains_codes_iff _ _).1 h))]
      simp only [transformMean, List.map_cons, List.map_nil, transformOne_clean _ _ _ _ _ _ _ hs]
      have := digitize_le false f.splits (some v)
      cases ms <;> cases mm <;> simp only [usedRows] <;> rw [List.getElem?_take_of_lt (by omega)]

/-! ## C53 -/

section
variable {sc : SpecialCodes α} {det : Option (List (RecC α) → List Bool)} {prebin : List (RecC α) → List α} {solver : SolverC}
    {old old' : MissingStats} {recs : List (RecC α)} {f : FittedC α}

theorem fitCoreC_last {clean : List (RecC α)} {special : List RowC} {missing : RowC} {st st' : PrebinState α}
    {splits : List α} (hf : fitCoreC false solver clean none special missing st splits = .ok (st', f)) :
    ∃ l, f.rows = l ++ [missing] := by
  rcases (fitCoreC_cases hf).2 with ⟨-, rfl⟩ | ⟨pb, -, -, -, rfl⟩
  · exact ⟨summaryC clean :: special, by simp⟩
  · exact ⟨accumRows (solve pb.cells.length (solver pb.cells)).2 pb.cells CellC.zero ++ special, by simp⟩

/-- C53, finding: with a dict of special codes `fit` raises whenever no training record has a special code. -/
theorem C53_dict_needs_special {gs : List (String × List (Option α))} (hg : gs ≠ [])
    (hno : ∀ r ∈ recs, ∀ g ∈ gs, r.x ∉ g.2) :
    ∃ e, fitNumericalC (.dict gs) det prebin solver old recs = .error e := by
  have h1 : (splitDataC (.dict gs) det recs).special = [] := by
    simp only [splitDataC, List.filter_eq_nil_iff]
    intro r hr h
    obtain ⟨g, hg, hx⟩ := (isSpecial_iff _ _).1 h
    exact hno r hr g hg hx
  refine ⟨"AttributeError: 'NoneType' object has no attribute 'append'", ?_⟩
  unfold fitNumericalC
  simp [specialRows, h1, hg, throw, throwThe, MonadExceptOf.throw]

/-- C53, finding: `user_splits=[]` always raises. -/
theorem C53_empty_user_splits (st : PrebinState α) (h : st.userSplits = []) :
    ∃ e, fitUserC sc det solver old st recs = .error e := by
  refine ⟨"UnboundLocalError: ssums", ?_⟩
  unfold fitUserC
  simp [h, throw, throwThe, MonadExceptOf.throw, bind, Except.bind]

/-- C53, finding: a single (non-fixed) split with all clean records on one side raises, although the refinement is meant to
drop empty pre-bins: `_compute_prebins` is called again without splits and returns the wrong number of values. -/
theorem C53_single_split_empty_side (clean : List (RecC α)) (others : Option RowC) (special : List RowC) (missing : RowC)
    (st : PrebinState α) (hst : st.fixed = none) (t : α)
    (hside : (∀ r ∈ clean, digitize false [t] r.x = 0) ∨ ∀ r ∈ clean, digitize false [t] r.x = 1) :
    ∃ e, fitCoreC false solver clean others special missing st [t] = .error e := by
  have hz : ∃ i < 2, (prebinCells false 2 [t] clean)[i]? = some CellC.zero := by
    rcases hside with h | h
    · refine ⟨1, by omega, ?_⟩
      have : clean.filter (fun r => digitize false [t] r.x == 1) = [] := by
        rw [List.filter_eq_nil_iff]; intro r hr; rw [h r hr]; decide
      simp [prebinCells, this, cellOf_nil]
    · refine ⟨0, by omega, ?_⟩
      have : clean.filter (fun r => digitize false [t] r.x == 0) = [] := by
        rw [List.filter_eq_nil_iff]; intro r hr; rw [h r hr]; decide
      simp [prebinCells, this, cellOf_nil]
  obtain ⟨i, hi, hcell⟩ := hz
  have hlen : (prebinCells false 2 [t] clean).length = 2 := by simp [prebinCells]
  have hany : (emptyMask (prebinCells false 2 [t] clean)).any id = true := by
    rw [List.any_eq_true]
    refine ⟨true, ?_, rfl⟩
    unfold emptyMask
    exact List.mem_map.2 ⟨CellC.zero, List.mem_of_getElem? hcell, by simp [CellC.zero]⟩
  have hmask : maskSplits false (emptyMask (prebinCells false 2 [t] clean)) = [true] := by
    match hm : emptyMask (prebinCells false 2 [t] clean), hany with
    | [a, b], h => simpa [maskSplits] using h
    | [], _ => have := congrArg List.length hm; simp [emptyMask, hlen] at this
    | [a], _ => have := congrArg List.length hm; simp [emptyMask, hlen] at this
    | a :: b :: d :: l, _ => have := congrArg List.length hm; simp [emptyMask, hlen] at this
  have hpb : computePrebinsC false clean st [t] = .error "ValueError: not enough values to unpack (expected 8, got 3)" := by
    rw [computePrebinsC]
    simp only [List.length_cons, List.length_nil, prebinNumber, Bool.false_eq_true, if_false]
    rw [dif_neg (by decide), dif_pos hany, hst]
    simp only [hmask]
    rw [computePrebinsC]
    simp [select]
  refine ⟨"ValueError: not enough values to unpack (expected 8, got 3)", ?_⟩
  unfold fitCoreC
  rw [if_neg (by simp), hpb]
  rfl

/-- C53, finding: fitting the same object again on data without missing records keeps the spread, least and greatest
target of the missing records of the first fit, and Min/Max of the totals row are computed from them. -/
theorem C53_refit_keeps_missing (h : fitNumericalC sc det prebin solver old recs = .ok (old', f))
    (hno : ∀ r ∈ recs, r.x ≠ none ∧ r.y ≠ none) :
    ∃ row, f.rows.getLast? = some row ∧ row.cnt = 0 ∧ row.var = old.var ∧ row.mn = old.mn ∧ row.mx = old.mx ∧
    (∀ m, old.mn = some m → ∃ t, tMin f.rows = some t ∧ t ≤ m) ∧
    (∀ m, old.mx = some m → ∃ t, tMax f.rows = some t ∧ m ≤ t) := by
  have hmiss : (splitDataC sc det recs).missing = [] := by
    simp only [splitDataC, List.filter_eq_nil_iff]
    intro r hr h
    simp only [RecC.isMissing, Bool.or_eq_true, Option.isNone_iff_eq_none] at h
    rcases h with h | h
    · exact (hno r hr).1 h
    · exact (hno r hr).2 h
  obtain ⟨special, st', hs, hf⟩ := fitNumericalC_cases h
  obtain ⟨l, hl⟩ := fitCoreC_last hf
  rw [hmiss] at hl
  have hmem : missingRow old ([] : List (RecC α)) ∈ f.rows := by rw [hl]; simp
  refine ⟨missingRow old ([] : List (RecC α)), by rw [hl]; simp, by simp [missingRow, summaryC, truncWeightC],
    by simp [missingRow], by simp [missingRow], by simp [missingRow], fun m hm => ?_, fun m hm => ?_⟩
  · have : m ∈ (f.rows.map RowC.mn).filterMap id :=
      List.mem_filterMap.2 ⟨some m, List.mem_map.2 ⟨_, hmem, by simp [missingRow, hm]⟩, rfl⟩
    obtain ⟨t, ht, hmin⟩ := isMin_min? (List.ne_nil_of_mem this)
    exact ⟨t, ht, hmin.2 m this⟩
  · have : m ∈ (f.rows.map RowC.mx).filterMap id :=
      List.mem_filterMap.2 ⟨some m, List.mem_map.2 ⟨_, hmem, by simp [missingRow, hm]⟩, rfl⟩
    obtain ⟨t, ht, hmax⟩ := isMax_max? (List.ne_nil_of_mem this)
    exact ⟨t, ht, hmax.2 m this⟩

/-- C53: a fresh object never reports a spread, minimum or maximum for missing records that do not exist. -/
theorem C53_fresh_missing (h : fitNumericalC sc det prebin solver {} recs = .ok (old', f))
    (hno : ∀ r ∈ recs, r.x ≠ none ∧ r.y ≠ none) :
    f.rows.getLast? = some ⟨0, some 0, none, none, none, 0⟩ := by
  obtain ⟨row, h1, h2, h3, h4, h5, -⟩ := C53_refit_keeps_missing h hno
  have hmiss : (splitDataC sc det recs).missing = [] := by
    simp only [splitDataC, List.filter_eq_nil_iff]
    intro r hr h
    simp only [RecC.isMissing, Bool.or_eq_true, Option.isNone_iff_eq_none] at h
    rcases h with h | h
    · exact (hno r hr).1 h
    · exact (hno r hr).2 h
  obtain ⟨special, st', hs, hf⟩ := fitNumericalC_cases h
  obtain ⟨l, hl⟩ := fitCoreC_last hf
  rw [hl, hmiss]
  simp [missingRow, summaryC, truncWeightC, allKnown]

/-- C53, finding: a single record with an unknown target (NaN) makes the information value of the variable NaN, whatever
the other records are (provided its row is not of weight less than 1). -/
theorem C53_unknown_target (h : fitNumericalC sc det prebin solver old recs = .ok (old', f)) (hw : ∀ r ∈ recs, 1 ≤ r.w)
    {r : RecC α} (hr : r ∈ recs) (hy : r.y = none) : tIv f.rows = none ∧ tWoe f.rows = none := by
  obtain ⟨special, st', hs, hf⟩ := fitNumericalC_cases h
  have hmem : r ∈ (splitDataC sc det recs).missing := by
    simp only [splitDataC, List.mem_filter]
    exact ⟨hr, by simp [RecC.isMissing, hy]⟩
  obtain ⟨l, hl⟩ := fitCoreC_last hf
  set row := missingRow old (splitDataC sc det recs).missing with hrow
  have hne : (splitDataC sc det recs).missing ≠ [] := List.ne_nil_of_mem hmem
  have hmean : row.mean = none := by
    rw [hrow]
    simp only [missingRow, hne, if_false]
    unfold RowC.mean summaryC
    have hk : allKnown ((splitDataC sc det recs).missing.map RecC.wy) = none := by
      unfold allKnown
      rw [if_pos]
      exact List.mem_map.2 ⟨r, hmem, by simp [RecC.wy, hy]⟩
    have hpos : 0 < truncWeightC (splitDataC sc det recs).missing := by
      unfold truncWeightC
      rw [Nat.floor_pos]
      have hsub : (splitDataC sc det recs).missing ⊆ recs := List.filter_sublist.subset
      have := List.single_le_sum (l := (splitDataC sc det recs).missing.map RecC.w) (by
        intro x hx
        obtain ⟨q, hq, rfl⟩ := List.mem_map.1 hx
        exact le_trans zero_le_one (hw q (hsub hq))) _ (List.mem_map.2 ⟨r, hmem, rfl⟩)
      exact le_trans (hw r hr) this
    simp [hk, hpos]
  have hin : row ∈ f.rows := by rw [hl]; simp
  constructor
  · unfold tIv sumNaN allKnown
    rw [if_pos]; rfl
    exact List.mem_map.2 ⟨row, hin, by simp [RowC.iv, RowC.woe, hmean]⟩
  · unfold tWoe sumNaN allKnown
    rw [if_pos]; rfl
    exact List.mem_map.2 ⟨row, hin, by simp [RowC.woe, hmean]⟩

end

/-! ### non-vacuity -/

example : ∃ e, fitNumericalC (.dict [("a", [some 99])]) none (fun _ => [3]) exSolverC {} [⟨some 1, some 2, 1⟩] = .error e :=
  C53_dict_needs_special (by simp) (by simp)

example : ∃ e, fitCoreC false exSolverC [⟨some 1, some 2, 1⟩, ⟨some 2, some 5, 1⟩] none [] ⟨0, some 0, none, none, none, 0⟩
    {} [7] = .error e :=
  C53_single_split_empty_side _ _ _ _ _ rfl 7 (Or.inl (by decide))

/-- C50 with weights is not vacuous: weights 1 and 3. -/
example : ∃ (f : FittedC ℕ) (st : MissingStats), fitNumericalC .none none (fun _ => []) exSolverC {}
      [⟨some 1, some 3, 1⟩, ⟨some 2, some 5, 3⟩] = .ok (st, f) ∧
    ∃ row, f.rows[0]? = some row ∧ row.cnt = 4 ∧ row.sum = some 18 := by
  have e : (splitDataC (SpecialCodes.none : SpecialCodes ℕ) none [⟨some 1, some 3, 1⟩, ⟨some 2, some 5, 3⟩]).clean =
      [⟨some 1, some 3, 1⟩, ⟨some 2, some 5, 3⟩] := by decide +kernel
  have hfit : ∃ (f : FittedC ℕ) (st : MissingStats), fitNumericalC .none none (fun _ => []) exSolverC {}
      [⟨some 1, some 3, 1⟩, ⟨some 2, some 5, 3⟩] = .ok (st, f) ∧ f.splits = [] := by
    simp only [fitNumericalC, specialRows, fitCoreC, e, bind, Except.bind, pure, Except.pure, List.length_nil,
      if_true, fitOptimizerC, Nat.zero_le, List.replicate_zero, reduceCtorEq, if_false]
    exact ⟨_, _, rfl, rfl⟩
  obtain ⟨f, st, h, hsp⟩ := hfit
  refine ⟨f, st, h, ?_⟩
  obtain ⟨hl, hrow⟩ := C50_weighted (c := {}) ⟨by simp [IsSpecialValue], trivial⟩ (by unfold KnownTargetsC; simp)
    (by simp only [List.mem_cons, List.not_mem_nil, or_false, forall_eq_or_imp, forall_eq]; exact ⟨⟨1, by simp⟩, ⟨3, by simp⟩⟩)
    (prebin := fun _ => []) (fun _ => by simp) exSolverC_respects h
  obtain ⟨row, h1, h2, h3⟩ := hrow 0 (by omega)
  have hf : ([⟨some 1, some 3, 1⟩, ⟨some 2, some 5, 3⟩] : List (RecC ℕ)).filter
      (fun r => decide (transformIndicesC f .none .empirical .empirical [r.x] = [((0 : ℕ) : ℤ)])) =
      [⟨some 1, some 3, 1⟩, ⟨some 2, some 5, 3⟩] := by
    obtain ⟨s, sp, rows⟩ := f
    simp only at hsp
    subst hsp
    rfl
  rw [hf] at h2 h3
  refine ⟨row, h1, ?_, ?_⟩
  · have : (row.cnt : ℚ) = 4 := by rw [h2]; norm_num
    exact_mod_cast this
  · rw [h3]; norm_num

/-- Second fit of the object of `exFitC` on two records without missing values. -/
theorem exRefitC : fitNumericalC .none none (fun _ => []) exSolverC ⟨some 0, some 5, some 5⟩
      [⟨some 1, some 3, 1⟩, ⟨some 2, some 3, 1⟩] =
      .ok (⟨some 0, some 5, some 5⟩, ⟨"OPTIMAL", ([] : List ℕ), [⟨2, some 6, some 0, some 3, some 3, 0⟩,
        ⟨0, some 0, none, none, none, 0⟩, ⟨0, some 0, some 0, some 5, some 5, 0⟩]⟩) := by
  have e : (splitDataC (SpecialCodes.none : SpecialCodes ℕ) none [⟨some 1, some 3, 1⟩, ⟨some 2, some 3, 1⟩]).clean =
      [⟨some 1, some 3, 1⟩, ⟨some 2, some 3, 1⟩] := by decide +kernel
  have e1 : (splitDataC (SpecialCodes.none : SpecialCodes ℕ) none [⟨some 1, some 3, 1⟩, ⟨some 2, some 3, 1⟩]).special =
      [] := by decide +kernel
  have e2 : (splitDataC (SpecialCodes.none : SpecialCodes ℕ) none [⟨some 1, some 3, 1⟩, ⟨some 2, some 3, 1⟩]).missing =
      [] := by decide +kernel
  simp only [fitNumericalC, e, e1, e2, specialRows, fitCoreC, bind, Except.bind, pure, Except.pure, List.length_nil,
    if_true, fitOptimizerC]
  simp only [List.length_nil, Nat.zero_le, if_true, List.replicate_zero, reduceCtorEq, if_false]
  simp only [Except.ok.injEq, Prod.mk.injEq, FittedC.mk.injEq, true_and]
  refine ⟨by simp [missingRow], by decide +kernel⟩

/-- The totals row of the second fit reports the maximum 5 although all targets are 3. -/
example : ∃ (f : FittedC ℕ) (st : MissingStats), fitNumericalC .none none (fun _ => []) exSolverC ⟨some 0, some 5, some 5⟩
      [⟨some 1, some 3, 1⟩, ⟨some 2, some 3, 1⟩] = .ok (st, f) ∧ tMax f.rows = some 5 :=
  ⟨_, _, exRefitC, by decide +kernel⟩

/-- C48 for the table is not vacuous. -/
example : ∃ (f : FittedC ℕ) (st : MissingStats),
    fitNumericalC exCodesC none (fun _ => [3, 7]) exSolverC {} exRecsC = .ok (st, f) ∧
    ∃ (row : ℕ → RowC) (m : ℕ → ℚ), ∀ k ≤ 2, f.rows[k]? = some (row k) ∧ 0 < (row k).cnt ∧ (row k).mean = some (m k) := by
  refine ⟨_, _, exFitC, ?_⟩
  obtain ⟨-, -, row, m, h⟩ := C48_table (o := {}) exSolverC_respects (fun _ => rfl) (by simp) exFitC (by simp) (Or.inr rfl)
  exact ⟨row, m, fun k hk => ⟨(h k hk).1, (h k hk).2.1, (h k hk).2.2.1⟩⟩

end OptBinning
