import Verif.Spec.ParamsC
import Verif.Lemmas.ContinuousCells
import Verif.Props.ContinuousFit
import Verif.Props.TrendRows

/-!
# C104: the constructor arguments of `ContinuousOptimalBinning` and the table
-/
namespace OptBinning
open Finset Spec

/-- C104: arguments in the documented ranges are accepted; accepted arguments are in the documented ranges, except that
`min_mean_diff`, `gamma` and `time_limit` may also be NaN or infinite; all others are refused with `ValueError`. -/
theorem C104_checks (p : ParamsC) :
    (ValidParamsC p → checkParametersC p = .ok ()) ∧
    (checkParametersC p = .ok () → (∀ d g t, p.minMeanDiff = .num d → p.gamma = .num g → p.timeLimit = .num t → ValidParamsC p) ∧
      ∀ d g t, ValidParamsC { p with minMeanDiff := .num |d|, gamma := .num |g|, timeLimit := .num |t| }) ∧
    (checkParametersC p = .ok () ∨ checkParametersC p = .error "ValueError") := by
  have key : checkParametersC p = .ok () ↔ (1 < p.maxPrebins ∧ (NumIn p.minPrebinSize fun q => 0 < q ∧ q ≤ 1 / 2) ∧
      PositiveIfGiven p.minBins ∧ PositiveIfGiven p.maxBins ∧ OrderedIfGiven p.minBins p.maxBins ∧
      (∀ v, p.minBinSize = some v → NumIn v fun q => 0 < q ∧ q ≤ 1 / 2) ∧
      (∀ v, p.maxBinSize = some v → NumIn v fun q => 0 < q ∧ q ≤ 1) ∧
      (∀ a b, p.minBinSize = some (.num a) → p.maxBinSize = some (.num b) → a ≤ b) ∧
      p.minMeanDiff.below 0 = false ∧
      (∀ v, p.maxPvalue = some v → NumIn v fun q => 0 < q ∧ q ≤ 1) ∧ p.gamma.below 0 = false ∧
      (∀ d, p.splitDigits = some d → 0 ≤ d ∧ d ≤ 8) ∧ p.timeLimit.below 0 = false) := by
    have hopt : ∀ (o : Option XQ) (b : ℚ), ¬ (o.any fun v => !(v.above 0 && v.atMost b)) = true ↔
        ∀ v, o = some v → NumIn v fun q => 0 < q ∧ q ≤ b := by
      intro o b
      cases o with
      | none => simp
      | some v =>
        rw [Option.any_some, Bool.not_eq_true', Bool.not_eq_false, open_closed]
        simp
    have hord : ¬ (p.minBinSize.any fun v => p.maxBinSize.any fun w => v.greater w) = true ↔
        ∀ a b, p.minBinSize = some (.num a) → p.maxBinSize = some (.num b) → a ≤ b := by
      cases p.minBinSize with
      | none => simp
      | some v =>
        cases p.maxBinSize with
        | none => simp
        | some w => cases v <;> cases w <;> simp [XQ.greater]
    have hd : ¬ (p.splitDigits.any fun d => !(decide (0 ≤ d) && decide (d ≤ 8))) = true ↔ ∀ d, p.splitDigits = some d → 0 ≤ d ∧ d ≤ 8 := by
      cases p.splitDigits with
      | none => simp
      | some d => simp
    unfold checkParametersC
    have ite_ok : ∀ (b : Prop) [Decidable b] (x : Except String Unit), (if b then Except.error "ValueError" else x) = .ok () ↔ ¬ b ∧ x = .ok () := by
      intro b _ x
      by_cases hb : b <;> simp [hb]
    have hn : ∀ b : Bool, ¬ (!b) = true ↔ b = true := by intro b; cases b <;> simp
    simp only [ite_ok, hopt, hord, hd, hn, open_closed, Bool.not_eq_true, badCount_false, badOrder_false, not_le, and_true]
  refine ⟨fun h => key.2 ⟨h.1, h.2, h.3, h.4, h.5, h.6, h.7, h.8, ?_, h.10, ?_, h.12, ?_⟩, ?_, ?_⟩
  · obtain ⟨q, hq, h0⟩ := h.9; rw [hq]; simp [XQ.below, h0]
  · obtain ⟨q, hq, h0⟩ := h.11; rw [hq]; simp [XQ.below, h0]
  · obtain ⟨q, hq, h0⟩ := h.13; rw [hq]; simp [XQ.below, h0]
  · intro h
    obtain ⟨h1, h2, h3, h4, h5, h6, h7, h8, h9, h10, h11, h12, h13⟩ := key.1 h
    refine ⟨fun d g t hd hg ht => ⟨h1, h2, h3, h4, h5, h6, h7, h8, ⟨d, hd, ?_⟩, h10, ⟨g, hg, ?_⟩, h12, ⟨t, ht, ?_⟩⟩,
      fun d g t => ⟨h1, h2, h3, h4, h5, h6, h7, h8, ⟨_, rfl, abs_nonneg d⟩, h10, ⟨_, rfl, abs_nonneg g⟩, h12, ⟨_, rfl, abs_nonneg t⟩⟩⟩
    · rw [hd] at h9; simpa [XQ.below] using h9
    · rw [hg] at h11; simpa [XQ.below] using h11
    · rw [ht] at h13; simpa [XQ.below] using h13
  · unfold checkParametersC
    have ite_or : ∀ (b : Prop) [Decidable b] (x : Except String Unit), (x = .ok () ∨ x = .error "ValueError") →
        ((if b then Except.error "ValueError" else x) = .ok () ∨ (if b then Except.error "ValueError" else x) = .error "ValueError") := by
      intro b _ x hx
      by_cases hb : b <;> simp [hb, hx]
    repeat refine ite_or _ _ ?_
    exact Or.inl rfl

/-- Finding: NaN is accepted as `min_mean_diff` (and has no effect). -/
theorem C104_nan_accepted : checkParametersC { minMeanDiff := .nan } = .ok () ∧ ¬ ValidParamsC { minMeanDiff := .nan } := by
  refine ⟨by decide +kernel, fun h => ?_⟩
  obtain ⟨q, hq, -⟩ := h.minMeanDiff
  cases hq

/-- The default arguments are valid. -/
example : ValidParamsC {} := by
  have h : checkParametersC {} = .ok () := by decide +kernel
  exact ((C104_checks {}).2.1 h).1 0 0 100 rfl rfl rfl

/-! ### the automatic trend -/

/-- C104: every `monotonic_trend` resolves for two or more pre-bins, explicit ones to themselves, `"auto"` to one of ascending,
descending, peak and valley, `"auto_asc_desc"` to ascending or descending; the position of the heuristic peak (valley) is a
pre-bin with the largest (smallest) mean. -/
theorem C104_resolve (hull : List ℚ → Option ℚ) (cells : List CellC) (h : 2 ≤ cells.length) (a : TrendArg) :
    ∃ t, resolveTrendC hull cells a = .ok t ∧ MayResolve a t ∧
      (∀ c, t = .peakHeuristic c → ∃ m, (cellMeans cells)[c]? = some m ∧ ∀ m' ∈ cellMeans cells, m' ≤ m) ∧
      (∀ c, t = .valleyHeuristic c → ∃ m, (cellMeans cells)[c]? = some m ∧ ∀ m' ∈ cellMeans cells, m ≤ m') := by
  have hne : cellMeans cells ≠ [] := by
    rw [← List.length_pos_iff_ne_nil]
    simp [cellMeans]; omega
  obtain ⟨h1, h2, -⟩ := argmax_spec hne
  obtain ⟨h3, h4, -⟩ := argmin_spec hne
  have hpk : ∀ c, Trend.peakHeuristic (argmaxIdx (cellMeans cells)) = .peakHeuristic c →
      ∃ m, (cellMeans cells)[c]? = some m ∧ ∀ m' ∈ cellMeans cells, m' ≤ m := by
    intro c hc
    cases hc
    exact ⟨_, List.getElem?_eq_getElem h1, h2⟩
  have hvl : ∀ c, Trend.valleyHeuristic (argminIdx (cellMeans cells)) = .valleyHeuristic c →
      ∃ m, (cellMeans cells)[c]? = some m ∧ ∀ m' ∈ cellMeans cells, m ≤ m' := by
    intro c hc
    cases hc
    exact ⟨_, List.getElem?_eq_getElem h3, h4⟩
  have hno : ∀ t : Trend, (∀ c, t ≠ .peakHeuristic c) → (∀ c, t ≠ .valleyHeuristic c) →
      (∀ c, t = .peakHeuristic c → ∃ m, (cellMeans cells)[c]? = some m ∧ ∀ m' ∈ cellMeans cells, m' ≤ m) ∧
      (∀ c, t = .valleyHeuristic c → ∃ m, (cellMeans cells)[c]? = some m ∧ ∀ m' ∈ cellMeans cells, m ≤ m') :=
    fun t a b => ⟨fun c e => absurd e (a c), fun c e => absurd e (b c)⟩
  cases a with
  | peakHeuristic => exact ⟨_, rfl, ⟨_, rfl⟩, hpk, by simp⟩
  | valleyHeuristic => exact ⟨_, rfl, ⟨_, rfl⟩, by simp, hvl⟩
  | auto =>
    unfold resolveTrendC autoDataC
    rw [if_neg (by omega), if_neg (by omega)]
    simp only [bind, Except.bind, pure, Except.pure, decide']
    generalize hd : AutoData.mk _ _ _ _ _ _ _ _ = d
    rcases trendName_cases d with e | e | e | e <;> rw [e] <;> exact ⟨_, rfl, by simp [MayResolve, trendOfName], hno _ (by simp [trendOfName]) (by simp [trendOfName])⟩
  | autoAscDesc =>
    unfold resolveTrendC autoDataC
    rw [if_neg (by omega), if_neg (by omega)]
    simp only [bind, Except.bind, pure, Except.pure, decide']
    generalize hd : AutoData.mk _ _ _ _ _ _ _ _ = d
    rcases ascDesc_cases d with e | e <;> rw [e] <;> exact ⟨_, rfl, by simp [MayResolve, trendOfName], hno _ (by simp [trendOfName]) (by simp [trendOfName])⟩
  | autoHeuristic =>
    unfold resolveTrendC autoDataC
    rw [if_neg (by omega), if_neg (by omega)]
    simp only [bind, Except.bind, pure, Except.pure, decide']
    generalize hd : AutoData.mk _ _ _ _ _ _ _ _ = d
    rcases trendName_cases d with e | e | e | e <;> rw [e]
    · exact ⟨_, rfl, by simp [MayResolve, trendOfName], hno _ (by simp [trendOfName]) (by simp [trendOfName])⟩
    · exact ⟨_, rfl, by simp [MayResolve, trendOfName], hno _ (by simp [trendOfName]) (by simp [trendOfName])⟩
    · exact ⟨_, rfl, by simp [MayResolve, trendOfName], hpk, by simp [trendOfName]⟩
    · exact ⟨_, rfl, by simp [MayResolve, trendOfName], by simp [trendOfName], hvl⟩
  | _ => exact ⟨_, rfl, rfl, hno _ (by simp) (by simp)⟩

theorem optionsC_ok (p : ParamsC) (hull : List ℚ → Option ℚ) (pv : ℚ → ℝ → ℕ → ℚ → ℝ → ℕ → ℝ) (n : ℕ) (cells : List CellC)
    (h : 2 ≤ cells.length) :
    ∃ t o, (p.cfg hull pv n).opts cells = o ∧ o.trend = t ∧ MayResolve p.trend t ∧ ChangeInRange o ((p.cfg hull pv n).input cells) ∧
      o.minBins = p.minBins ∧ o.maxBins = p.maxBins ∧ o.minSize = p.minBinSize.map (ceilSize n) ∧ o.maxSize = p.maxBinSize.map (ceilSize n) := by
  obtain ⟨t, ht, hm, hp, hv⟩ := C104_resolve hull cells h p.trend
  have ho : p.options hull n cells = .ok
      { trend := t, minBins := p.minBins, maxBins := p.maxBins,
         minSize := p.minBinSize.map (ceilSize n), maxSize := p.maxBinSize.map (ceilSize n), gamma := decide (p.gamma ≠ .num 0) } := by
    unfold ParamsC.options
    rw [ht]
    rfl
  have hcfg : (p.cfg hull pv n).opts cells =
      { trend := t, minBins := p.minBins, maxBins := p.maxBins,
         minSize := p.minBinSize.map (ceilSize n), maxSize := p.maxBinSize.map (ceilSize n), gamma := decide (p.gamma ≠ .num 0) } := by
    unfold ParamsC.cfg
    simp only [ho]
  refine ⟨t, _, hcfg, rfl, hm, ?_, rfl, rfl, rfl, rfl⟩
  · have key : ∀ c m, (cellMeans cells)[c]? = some m → c ≤ cells.length := by
      intro c m hc
      have := (List.getElem?_eq_some_iff.1 hc).1
      simp only [cellMeans, List.length_map] at this
      omega
    have hn : ((p.cfg hull pv n).input cells).n = cells.length := by simp [ContInput.n, SolverCfgC.input]
    rintro tc (h | h)
    · obtain ⟨m, h1, -⟩ := hp tc h
      rw [hn]; exact key tc m h1
    · obtain ⟨m, h1, -⟩ := hv tc h
      rw [hn]; exact key tc m h1

/-! ### the table -/

section
variable {α : Type*} [LinearOrder α]

theorem fitParamsC_fit {p : ParamsC} {sc : SpecialCodes α} {det : Option (List (RecC α) → List Bool)} {prebin : List (RecC α) → List α}
    {solver : SolverC} {old old' : MissingStats} {recs : List (RecC α)} {f : FittedC α}
    (h : fitParamsC p sc det prebin solver old recs = .ok (old', f)) : fitNumericalC sc det prebin solver old recs = .ok (old', f) := by
  unfold fitParamsC at h
  split at h
  · cases h
  · exact h

/-- Everything the solver guarantees, in terms of the rows of the table. -/
theorem contTable {sc : SpecialCodes α} {det : Option (List (RecC α) → List Bool)} {prebin : List (RecC α) → List α}
    {solver : SolverC} {c : SolverCfgC} {old old' : MissingStats} {recs : List (RecC α)} {f : FittedC α}
    (hr : RespectsC c solver) (h : fitNumericalC sc det prebin solver old recs = .ok (old', f)) (hne : f.splits ≠ []) :
    ∃ cells : List CellC, 2 ≤ cells.length ∧ ∀ o, c.opts cells = o → ChangeInRange o (c.input cells) →
      ∃ (sol : List Bool) (S E : ℕ → ℕ), AdmissibleMean o cells.length (solOf sol) (c.input cells).recs (mean6 (c.input cells)) ∧
        Separated c.policy cells.length (solOf sol) (failsTTest (c.input cells)) ∧
        Separated .consecutive cells.length (solOf sol) (meansTooClose (c.input cells)) ∧
        numBins cells.length (solOf sol) = f.splits.length + 1 ∧
        (∀ k < f.splits.length + 1, IsBin cells.length (solOf sol) (S k) (E k) ∧ binOf sol (E k) = k ∧
          ∃ cnt : ℕ, 0 < cnt ∧ (cnt : ℤ) = binTotal (c.input cells).recs (S k) (E k) ∧
          RowShows f.rows k cnt (binMean (c.input cells).recs (c.input cells).sum (S k) (E k)) (binStd (c.input cells) (S k) (E k))) ∧
        ∀ j k, j < k → k < f.splits.length + 1 → E j < E k := by
  obtain ⟨special, st', hs, hf⟩ := fitNumericalC_cases h
  obtain ⟨cells, h2, hpos, hstat, hcount, hrow⟩ := fitCoreC_cells (fun cells hn => hr.last cells hn) hf hne
  refine ⟨cells, h2, ?_⟩
  rintro o rfl htc
  have hw : (c.input cells).Wf := by
    refine ⟨by simp [SolverCfgC.input], by simp [SolverCfgC.input], by simp [SolverCfgC.input]; omega, ?_⟩
    intro x hx
    simp only [SolverCfgC.input, List.mem_map] at hx
    obtain ⟨d, hd, rfl⟩ := hx
    exact Nat.pos_of_ne_zero (hpos d hd)
  have hn : (c.input cells).n = cells.length := by simp [SolverCfgC.input, ContInput.n]
  have hpos' : 0 < f.splits.length := List.length_pos_iff.2 hne
  have hsolved : Solved (solve (c.input cells).n (solver cells)) := by
    rw [hn]
    unfold Solved
    cases hs : solver cells with
    | optimal a => exact Or.inl rfl
    | feasible a => exact Or.inr rfl
    | other m =>
      exfalso
      rw [hs] at hcount
      simp only [solve] at hcount
      have : ∀ n m : ℕ, ((List.range n).map fun i => i == m).count true ≤ 1 := by
        intro n m
        rw [List.count_eq_countP, List.countP_map]
        have e : (List.range n).countP ((fun x => x == true) ∘ fun i => i == m) = (List.range n).count m := by
          rw [List.count_eq_countP]
          congr 1
          funext i
          simp
        rw [e]
        exact List.nodup_iff_count_le_one.1 List.nodup_range m
      have := this cells.length (cells.length - 1)
      omega
  obtain ⟨hadm, hsep, hclose⟩ := C48_solution hw htc (hr cells) hsolved
  rw [hn] at hadm hsep hclose
  obtain ⟨S, E, hall, hE⟩ := choose_rows hrow
  refine ⟨_, S, E, hadm, hsep, hclose, ?_, fun k hk => ?_, hE⟩
  · rw [numBins_eq, ← hcount, ← binOf_length, solve_length]
  · obtain ⟨hb, hbk, cell, hrow, e1, e2, e3⟩ := hall k hk
    have hgd : ∀ i, (cells.map fun c => ((c.cnt : ℕ) : ℚ)).getD i 0 = (((cells.map CellC.cnt).getD i 0 : ℕ) : ℚ) := by
      intro i
      by_cases hi : i < cells.length <;> simp [List.getD, hi]
    have hcnt : ((cell.cnt : ℕ) : ℤ) = binTotal (c.input cells).recs (S k) (E k) := by
      have : ((cell.cnt : ℕ) : ℚ) = ((∑ i ∈ Icc (S k) (E k), (cells.map CellC.cnt).getD i 0 : ℕ) : ℚ) := by
        rw [e1]; push_cast; exact sum_congr rfl fun i _ => hgd i
      have h3 : cell.cnt = ∑ i ∈ Icc (S k) (E k), (cells.map CellC.cnt).getD i 0 := by exact_mod_cast this
      rw [h3]
      unfold binTotal ContInput.recs
      push_cast
      rfl
    have hcpos : 0 < cell.cnt := by
      have : (0 : ℤ) < ((cell.cnt : ℕ) : ℤ) := by
        rw [hcnt]
        refine Finset.sum_pos (fun i hi => ?_) ⟨S k, mem_Icc.2 ⟨le_rfl, hb.1⟩⟩
        have hil : i < cells.length := lt_of_le_of_lt (mem_Icc.1 hi).2 hb.2.1
        have : 0 < (cells.map CellC.cnt).getD i 0 := by
          rw [List.getD_eq_getElem?_getD, List.getElem?_map, List.getElem?_eq_getElem hil]
          exact Nat.pos_of_ne_zero (hpos _ (List.getElem_mem hil))
        unfold ContInput.recs
        exact_mod_cast this
      exact_mod_cast this
    have hmean : cell.s / ((cell.cnt : ℕ) : ℚ) = binMean (c.input cells).recs (c.input cells).sum (S k) (E k) := by
      unfold binMean
      rw [← hcnt, e2]
      push_cast
      rfl
    refine ⟨hb, hbk, cell.cnt, hcpos, hcnt, cell.row, hrow, rfl, ?_, _, rfl, ?_⟩
    · unfold RowC.mean CellC.row
      rw [if_pos hcpos]
      simp only [Option.map_some, hmean]
    · unfold binStd
      have e4 : binTotal (c.input cells).ssum (S k) (E k) = cell.ss := by rw [e3]; rfl
      rw [← hmean, ← hcnt, e4]
      push_cast
      rfl

theorem rowShows_unique {rows : List RowC} {k cnt cnt' : ℕ} {m m' : ℚ} {sd sd' : ℝ} (h : RowShows rows k cnt m sd)
    (h' : RowShows rows k cnt' m' sd') : cnt = cnt' ∧ m = m' ∧ sd = sd' := by
  obtain ⟨r, h1, h2, h3, v, h4, h5⟩ := h
  obtain ⟨r', g1, g2, g3, v', g4, g5⟩ := h'
  rw [h1] at g1
  obtain rfl := Option.some.inj g1
  rw [h3] at g3
  rw [h4] at g4
  obtain rfl := Option.some.inj g3
  obtain rfl := Option.some.inj g4
  exact ⟨h2.symm.trans g2, rfl, h5.trans g5.symm⟩

/-- C104: a fit with at least two bins meets the requested limits: the number of bins is in the limits, each bin has at least
`min_bin_size * N` records and less than one record more than `max_bin_size * N` (`N` records passed to `fit`); each bin shows
a Count, a Mean and a standard deviation. -/
theorem C104_limits (p : ParamsC) (hull : List ℚ → Option ℚ) (pv : ℚ → ℝ → ℕ → ℚ → ℝ → ℕ → ℝ) (sc : SpecialCodes α)
    (det : Option (List (RecC α) → List Bool)) (prebin : List (RecC α) → List α) (solver : SolverC) (old old' : MissingStats)
    (recs : List (RecC α)) (f : FittedC α) (hr : RespectsC (p.cfg hull pv recs.length) solver)
    (h : fitParamsC p sc det prebin solver old recs = .ok (old', f)) (hne : f.splits ≠ []) :
    (∀ b, p.minBins = some b → b ≤ f.splits.length + 1) ∧ (∀ b, p.maxBins = some b → (f.splits.length : ℤ) + 1 ≤ b) ∧
    ∀ k ≤ f.splits.length, ∃ (cnt : ℕ) (m : ℚ) (sd : ℝ), RowShows f.rows k cnt m sd ∧ 0 < cnt ∧
      (∀ q, p.minBinSize = some (.num q) → q * (recs.length : ℚ) ≤ (cnt : ℚ)) ∧
      (∀ q, p.maxBinSize = some (.num q) → (cnt : ℚ) < q * (recs.length : ℚ) + 1) := by
  obtain ⟨cells, h2, hk⟩ := contTable hr (fitParamsC_fit h) hne
  obtain ⟨t, o, ho, -, -, hc, b1, b2, b3, b4⟩ := optionsC_ok p hull pv recs.length cells h2
  obtain ⟨sol, S, E, hadm, -, -, hn, hrow, -⟩ := hk o ho hc
  have a1 := hadm.minBins
  have a2 := hadm.maxBins
  rw [b1, hn] at a1
  rw [b2, hn] at a2
  refine ⟨fun b hb => by have := a1 b hb; push_cast at this; exact this, fun b hb => by have := a2 b hb; push_cast at this; exact this, ?_⟩
  intro k hk
  obtain ⟨hb, -, cnt, hpos, hcnt, hsh⟩ := hrow k (by omega)
  have a3 := hadm.minSize _ _ hb
  have a4 := hadm.maxSize _ _ hb
  rw [b3, ← hcnt] at a3
  rw [b4, ← hcnt] at a4
  exact ⟨cnt, _, _, hsh, hpos, ceil_atLeast a3, ceil_atMost a4⟩

/-- C104: every value of `monotonic_trend`: the Means of the bins, truncated towards zero to six digits, follow the trend. -/
theorem C104_trend (p : ParamsC) (hull : List ℚ → Option ℚ) (pv : ℚ → ℝ → ℕ → ℚ → ℝ → ℕ → ℝ) (sc : SpecialCodes α)
    (det : Option (List (RecC α) → List Bool)) (prebin : List (RecC α) → List α) (solver : SolverC) (old old' : MissingStats)
    (recs : List (RecC α)) (f : FittedC α) (hr : RespectsC (p.cfg hull pv recs.length) solver)
    (h : fitParamsC p sc det prebin solver old recs = .ok (old', f)) (hne : f.splits ≠ []) (cnt : ℕ → ℕ) (m : ℕ → ℚ) (sd : ℕ → ℝ)
    (hm : ∀ k ≤ f.splits.length, RowShows f.rows k (cnt k) (m k) (sd k)) :
    RowsFollow (f.splits.length + 1) (fun k => truncRat (m k * 1000000)) p.trend := by
  obtain ⟨cells, h2, hk⟩ := contTable hr (fitParamsC_fit h) hne
  obtain ⟨t, o, ho, ht, hmr, hc, -⟩ := optionsC_ok p hull pv recs.length cells h2
  obtain ⟨sol, S, E, hadm, -, -, hn, hrow, hE⟩ := hk o ho hc
  have hT := hadm.trend
  rw [ht] at hT
  refine rowsFollow_congr (rowsFollow_of (fun k hk => (hrow k hk).1) hE hmr hT) fun k hk => ?_
  obtain ⟨-, -, cnt', -, -, hsh⟩ := hrow k hk
  rw [(rowShows_unique (hm k (by omega)) hsh).2.1]
  rfl

/-- C104: with "ascending" ("descending") the Means do not decrease (increase) by 2e-6 or more. -/
theorem C104_monotone (p : ParamsC) (hull : List ℚ → Option ℚ) (pv : ℚ → ℝ → ℕ → ℚ → ℝ → ℕ → ℝ) (sc : SpecialCodes α)
    (det : Option (List (RecC α) → List Bool)) (prebin : List (RecC α) → List α) (solver : SolverC) (old old' : MissingStats)
    (recs : List (RecC α)) (f : FittedC α) (hr : RespectsC (p.cfg hull pv recs.length) solver)
    (h : fitParamsC p sc det prebin solver old recs = .ok (old', f)) (hne : f.splits ≠ []) (cnt : ℕ → ℕ) (m : ℕ → ℚ) (sd : ℕ → ℝ)
    (hm : ∀ k ≤ f.splits.length, RowShows f.rows k (cnt k) (m k) (sd k)) (j k : ℕ) (hjk : j < k) (hk : k ≤ f.splits.length) :
    (p.trend = .ascending → m j < m k + 2 / 1000000) ∧ (p.trend = .descending → m k < m j + 2 / 1000000) := by
  have key := C104_trend p hull pv sc det prebin solver old old' recs f hr h hne cnt m sd hm
  constructor <;> intro ht <;> rw [ht] at key <;> exact trunc_le_imp (key j k (Nat.zero_le _) hjk (by omega))

/-- C104: `min_mean_diff`: the Means of neighbouring bins differ at least by this much. -/
theorem C104_min_mean_diff (p : ParamsC) (hull : List ℚ → Option ℚ) (pv : ℚ → ℝ → ℕ → ℚ → ℝ → ℕ → ℝ) (sc : SpecialCodes α)
    (det : Option (List (RecC α) → List Bool)) (prebin : List (RecC α) → List α) (solver : SolverC) (old old' : MissingStats)
    (recs : List (RecC α)) (f : FittedC α) (hr : RespectsC (p.cfg hull pv recs.length) solver)
    (h : fitParamsC p sc det prebin solver old recs = .ok (old', f)) (cnt : ℕ → ℕ) (m : ℕ → ℚ) (sd : ℕ → ℝ)
    (hm : ∀ k ≤ f.splits.length, RowShows f.rows k (cnt k) (m k) (sd k)) (v : ℚ) (hv : p.minMeanDiff = .num v) (k : ℕ)
    (hk : k + 1 ≤ f.splits.length) : v ≤ |m k - m (k + 1)| := by
  have hne : f.splits ≠ [] := fun hc => by rw [hc] at hk; simp at hk
  obtain ⟨cells, h2, hkk⟩ := contTable hr (fitParamsC_fit h) hne
  obtain ⟨t, o, ho, ht, hmr, hc, -⟩ := optionsC_ok p hull pv recs.length cells h2
  obtain ⟨sol, S, E, hadm, -, hclose, hn, hrow, hE⟩ := hkk o ho hc
  obtain ⟨hb, hbk, _, -, -, hsh⟩ := hrow k (by omega)
  obtain ⟨hb', hbk', _, -, -, hsh'⟩ := hrow (k + 1) (by omega)
  rw [(rowShows_unique (hm k (by omega)) hsh).2.1, (rowShows_unique (hm (k + 1) (by omega)) hsh').2.1]
  have hlt : E k < S (k + 1) ∧ S (k + 1) = E k + 1 := by
    have h1 := bin_lt hb hb' (by omega)
    have h2 : binOf sol (E k + 1) = k + 1 := by
      have := binOf_succ sol (E k)
      rw [hb.2.2.1] at this
      simpa [hbk] using this
    have h3 := (binOf_iff hb' (E k + 1)).1 (by omega)
    omega
  have hd : ((p.cfg hull pv recs.length).input cells).minDiff = v := by
    show p.minMeanDiff.value = v
    rw [hv]; rfl
  rcases le_or_gt v 0 with h0 | h0
  · exact le_trans h0 (abs_nonneg _)
  · have := hclose _ _ _ _ hb hb' hlt.1 fun _ => hlt.2
    unfold meansTooClose at this
    push Not at this
    rw [hd] at this
    exact this h0

/-- C104: `max_pvalue`: the p-value of the t-test of two neighbouring bins (any two bins with policy "all"), computed from the Count,
Mean and standard deviation shown in the table, is at most `max_pvalue`. -/
theorem C104_pvalues (p : ParamsC) (hull : List ℚ → Option ℚ) (pv : ℚ → ℝ → ℕ → ℚ → ℝ → ℕ → ℝ) (sc : SpecialCodes α)
    (det : Option (List (RecC α) → List Bool)) (prebin : List (RecC α) → List α) (solver : SolverC) (old old' : MissingStats)
    (recs : List (RecC α)) (f : FittedC α) (hr : RespectsC (p.cfg hull pv recs.length) solver)
    (h : fitParamsC p sc det prebin solver old recs = .ok (old', f)) (cnt : ℕ → ℕ) (m : ℕ → ℚ) (sd : ℕ → ℝ)
    (hm : ∀ k ≤ f.splits.length, RowShows f.rows k (cnt k) (m k) (sd k)) (v : ℚ) (hv : p.maxPvalue = some (.num v)) (j k : ℕ)
    (hjk : j < k) (hk : k ≤ f.splits.length) (hpol : p.policy = .consecutive → k = j + 1) :
    pv (m j) (sd j) (cnt j) (m k) (sd k) (cnt k) ≤ (v : ℝ) := by
  have hne : f.splits ≠ [] := fun hc => by rw [hc] at hk; simp at hk; omega
  obtain ⟨cells, h2, hkk⟩ := contTable hr (fitParamsC_fit h) hne
  obtain ⟨t, o, ho, ht, hmr, hc, -⟩ := optionsC_ok p hull pv recs.length cells h2
  obtain ⟨sol, S, E, hadm, hsep, -, hn, hrow, hE⟩ := hkk o ho hc
  obtain ⟨hb, hbk, cj, -, hcj, hsh⟩ := hrow j (by omega)
  obtain ⟨hb', hbk', ck, -, hck, hsh'⟩ := hrow k (by omega)
  obtain ⟨e1, e2, e3⟩ := rowShows_unique (hm j (by omega)) hsh
  obtain ⟨e1', e2', e3'⟩ := rowShows_unique (hm k (by omega)) hsh'
  have hlt := bin_lt hb hb' (by omega)
  have := hsep _ _ _ _ hb hb' hlt fun hp => by
    have hk1 := hpol hp
    have h1 : binOf sol (E j + 1) = j + 1 := by
      have := binOf_succ sol (E j)
      rw [hb.2.2.1] at this
      simpa [hbk] using this
    have h2 := (binOf_iff hb' (E j + 1)).1 (by omega)
    omega
  unfold failsTTest at this
  push Not at this
  have h3 := this (fun u s r u2 s2 r2 => decide ((v : ℝ) < pv u s r u2 s2 r2)) (by
    show (p.maxPvalue.map _) = _
    rw [hv]; rfl)
  rw [← hcj, ← hck, ← e2, ← e2', ← e3, ← e3', Int.toNat_natCast, Int.toNat_natCast, ← e1, ← e1', ne_eq, Bool.not_eq_true,
    decide_eq_false_iff_not, not_lt] at h3
  exact h3

/-- C104: arguments outside the documented ranges make `fit` raise `ValueError`, whatever the data. -/
theorem C104_refused (p : ParamsC) (sc : SpecialCodes α) (det : Option (List (RecC α) → List Bool)) (prebin : List (RecC α) → List α)
    (solver : SolverC) (old : MissingStats) (recs : List (RecC α))
    (hbad : (∀ d g t, ¬ ValidParamsC { p with minMeanDiff := .num |d|, gamma := .num |g|, timeLimit := .num |t| }) ∨
      (∃ d g t, p.minMeanDiff = .num d ∧ p.gamma = .num g ∧ p.timeLimit = .num t ∧ ¬ ValidParamsC p)) :
    fitParamsC p sc det prebin solver old recs = .error "ValueError" := by
  unfold fitParamsC
  obtain ⟨-, h2, h3⟩ := C104_checks p
  rcases h3 with h3 | h3
  · rcases hbad with hbad | ⟨d, g, t, hd, hg, ht, hbad⟩
    · exact absurd ((h2 h3).2 0 0 0) (hbad 0 0 0)
    · exact absurd ((h2 h3).1 d g t hd hg ht) hbad
  · rw [h3]

end

end OptBinning
