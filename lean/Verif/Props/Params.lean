import Verif.Spec.Params
import Verif.Props.FitTable
import Verif.Props.AnalysisFit
import Verif.Props.Trend

/-!
# C102: the constructor arguments of `OptimalBinning` and the table
-/
namespace OptBinning
open Finset Spec

theorem badCount_false (x : Option ℤ) : badCount x = false ↔ PositiveIfGiven x := by
  unfold badCount PositiveIfGiven
  cases x <;> simp

theorem badOrder_false (a b : Option ℤ) : badOrder a b = false ↔ OrderedIfGiven a b := by
  unfold badOrder OrderedIfGiven
  cases a <;> cases b <;> simp

theorem open_closed (v : XQ) (b : ℚ) : (v.above 0 && v.atMost b) = true ↔ NumIn v fun q => 0 < q ∧ q ≤ b := by
  unfold NumIn
  cases v <;> simp [XQ.above, XQ.atMost]

theorem closed_closed (v : XQ) (b : ℚ) : (v.atLeast 0 && v.atMost b) = true ↔ NumIn v fun q => 0 ≤ q ∧ q ≤ b := by
  unfold NumIn
  cases v <;> simp [XQ.atLeast, XQ.atMost]

/-- C102: arguments in the documented ranges are accepted; accepted arguments are in the documented ranges, except that
`gamma` and `time_limit` may also be NaN or infinite; all others are refused with `ValueError`. -/
theorem C102_checks (p : Params) :
    (ValidParams p → checkParameters p = .ok ()) ∧
    (checkParameters p = .ok () → (∀ g t, p.gamma = .num g → p.timeLimit = .num t → ValidParams p) ∧
      ∀ g t, ValidParams { p with gamma := .num |g|, timeLimit := .num |t| }) ∧
    (checkParameters p = .ok () ∨ checkParameters p = .error "ValueError") := by
  have key : checkParameters p = .ok () ↔ (1 < p.maxPrebins ∧ (NumIn p.minPrebinSize fun q => 0 < q ∧ q ≤ 1 / 2) ∧
      PositiveIfGiven p.minBins ∧ PositiveIfGiven p.maxBins ∧ OrderedIfGiven p.minBins p.maxBins ∧
      (∀ v, p.minBinSize = some v → NumIn v fun q => 0 < q ∧ q ≤ 1 / 2) ∧
      (∀ v, p.maxBinSize = some v → NumIn v fun q => 0 < q ∧ q ≤ 1) ∧
      (∀ a b, p.minBinSize = some (.num a) → p.maxBinSize = some (.num b) → a ≤ b) ∧
      PositiveIfGiven p.minNonevent ∧ PositiveIfGiven p.maxNonevent ∧ OrderedIfGiven p.minNonevent p.maxNonevent ∧
      PositiveIfGiven p.minEvent ∧ PositiveIfGiven p.maxEvent ∧ OrderedIfGiven p.minEvent p.maxEvent ∧
      (NumIn p.minRateDiff fun q => 0 ≤ q ∧ q ≤ 1) ∧
      (∀ v, p.maxPvalue = some v → NumIn v fun q => 0 < q ∧ q ≤ 1) ∧ p.gamma.below 0 = false ∧
      (∀ d, p.splitDigits = some d → 0 ≤ d ∧ d ≤ 8) ∧ p.timeLimit.below 0 = false) := by
    have hopt : ∀ (o : Option XQ) (b : ℚ), ¬ (o.any fun v => !(v.above 0 && v.atMost b)) = true ↔
        ∀ v, o = some v → NumIn v fun q => 0 < q ∧ q ≤ b := by
      intro o b
      cases o with
      | none => simp
      | some v => 
        rw [Option.any_some, Bool.not_eq_true', Bool.not_eq_false, open_closed]
        simp
    have hord : ¬ (p.minBinSize.any fun v => p.maxBinSize.any fun w => v.greater w) = true ↔
        ∀ a b, p.minBinSize = some (.num a) → p.maxBinSize = some (.num b) → a ≤ b := by
      cases p.minBinSize with
      | none => simp
      | some v =>
        cases p.maxBinSize with
        | none => simp
        | some w => cases v <;> cases w <;> simp [XQ.greater]
    have hd : ¬ (p.splitDigits.any fun d => !(decide (0 ≤ d) && decide (d ≤ 8))) = true ↔ ∀ d, p.splitDigits = some d → 0 ≤ d ∧ d ≤ 8 := by
      cases p.splitDigits with
      | none => simp
      | some d => simp
    unfold checkParameters
    have ite_ok : ∀ (b : Prop) [Decidable b] (x : Except String Unit), (if b then Except.error "ValueError" else x) = .ok () ↔ ¬ b ∧ x = .ok () := by
      intro b _ x
      by_cases hb : b <;> simp [hb]
    have hn : ∀ b : Bool, ¬ (!b) = true ↔ b = true := by intro b; cases b <;> simp
    simp only [ite_ok, hopt, hord, hd, hn, open_closed, closed_closed, Bool.not_eq_true, badCount_false, badOrder_false, not_le, and_true]
  refine ⟨fun h => key.2 ⟨h.1, h.2, h.3, h.4, h.5, h.6, h.7, h.8, h.9, h.10, h.11, h.12, h.13, h.14, h.15, h.16, ?_, h.18, ?_⟩, ?_, ?_⟩
  · obtain ⟨q, hq, h0⟩ := h.17; rw [hq]; simp [XQ.below, h0]
  · obtain ⟨q, hq, h0⟩ := h.19; rw [hq]; simp [XQ.below, h0]
  · intro h
    obtain ⟨h1, h2, h3, h4, h5, h6, h7, h8, h9, h10, h11, h12, h13, h14, h15, h16, h17, h18, h19⟩ := key.1 h
    refine ⟨fun g t hg ht => ⟨h1, h2, h3, h4, h5, h6, h7, h8, h9, h10, h11, h12, h13, h14, h15, h16, ⟨g, hg, ?_⟩, h18, ⟨t, ht, ?_⟩⟩,
      fun g t => ⟨h1, h2, h3, h4, h5, h6, h7, h8, h9, h10, h11, h12, h13, h14, h15, h16, ⟨_, rfl, abs_nonneg g⟩, h18, ⟨_, rfl, abs_nonneg t⟩⟩⟩
    · rw [hg] at h17; simpa [XQ.below] using h17
    · rw [ht] at h19; simpa [XQ.below] using h19
  · unfold checkParameters
    have ite_or : ∀ (b : Prop) [Decidable b] (x : Except String Unit), (x = .ok () ∨ x = .error "ValueError") →
        ((if b then Except.error "ValueError" else x) = .ok () ∨ (if b then Except.error "ValueError" else x) = .error "ValueError") := by
      intro b _ x hx
      by_cases hb : b <;> simp [hb, hx]
    repeat refine ite_or _ _ ?_
    exact Or.inl rfl

/-- Finding: NaN is accepted as `gamma` (all comparisons with NaN are false). -/
theorem C102_nan_gamma_accepted : checkParameters { gamma := .nan } = .ok () ∧ ¬ ValidParams { gamma := .nan } := by
  refine ⟨by decide +kernel, fun h => ?_⟩
  obtain ⟨q, hq, -⟩ := h.gamma
  cases hq

/-- The default arguments are valid. -/
example : ValidParams {} := by
  have h : checkParameters {} = .ok () := by decide +kernel
  exact ((C102_checks {}).2.1 h).1 0 100 rfl rfl

section
variable {α : Type*} [LinearOrder α]

theorem computePrebins_keep {cfg : PrebinCfg} {recs : List (Rec α)} {st : PrebinState α} {splits : List α} {pb : Prebins α}
    (h : computePrebins cfg recs st splits = .ok pb) (hp : (pureMask pb.nonevent pb.event).any id = false) :
    computePrebins { cfg with keepPure := false } recs st splits = .ok pb := by
  cases hk : cfg.keepPure with
  | false => rw [← hk]; exact h
  | true =>
    rw [computePrebins] at h ⊢
    by_cases h0 : splits.length = 0
    · simp only [h0, dite_true] at h ⊢
      exact h
    · simp only [h0, dite_false] at h ⊢
      by_cases ha : (pureMask (prebinCounts cfg.catUser (prebinNumber cfg.catUser splits) splits recs false)
          (prebinCounts cfg.catUser (prebinNumber cfg.catUser splits) splits recs true)).any id = true
      · simp only [ha, dite_true, hk, if_true, Except.ok.injEq] at h
        rw [← h] at hp
        simp only at hp
        rw [hp] at ha
        cases ha
      · simp only [ha, dite_false] at h ⊢
        exact h

theorem fit_mixed {cfg : PrebinCfg} {sc : SpecialCodes α} {so : SplitOpts α} {prebin : List (Rec α) → List α}
    {solver : Solver} {recs : List (Rec α)} {f : Fitted α}
    (hsolver : ∀ nev ev : List ℕ, 0 < nev.length → (solve nev.length (solver nev ev)).2.getLast? = some true)
    (h : fitNumerical cfg sc so prebin solver recs = .ok f) (hk : cfg.keepPure = false) (hne : f.splits ≠ []) :
    ∀ k ≤ f.splits.length, 0 < f.nonevent.getD k 0 ∧ 0 < f.event.getD k 0 := by
  obtain ⟨ne, e, ht, hl, hp⟩ := fitNumerical_table hsolver h
  have hpos : 0 < f.splits.length := List.length_pos_iff.2 hne
  intro k hk'
  obtain ⟨t, ht1, -⟩ := ht.nonevent
  obtain ⟨t', ht2⟩ := ht.event
  have hs := ht.same
  have := hp hk (by omega) k (by omega)
  rw [ht1, ht2, List.getD_append _ _ _ _ (by omega), List.getD_append _ _ _ _ (by omega)]
  exact this

/-- The solver is asked about one pair of lists of pre-bin counts only. -/
theorem fitNumerical_local {cfg : PrebinCfg} {sc : SpecialCodes α} {so : SplitOpts α} {prebin : List (Rec α) → List α}
    {solver : Solver} {recs : List (Rec α)} {f : Fitted α} (h : fitNumerical cfg sc so prebin solver recs = .ok f) (hne : f.splits ≠ []) :
    ∃ nev ev : List ℕ, ev.length = nev.length ∧ 2 ≤ nev.length ∧
      ((pureMask nev ev).any id = false → fitNumerical { cfg with keepPure := false } sc so prebin solver recs = .ok f) ∧
      ∀ solver' : Solver, solver' nev ev = solver nev ev → fitNumerical cfg sc so prebin solver' recs = .ok f := by
  unfold fitNumerical at h ⊢
  unfold fitFrom fitCore at h ⊢
  simp only at h ⊢
  cases hpb : computePrebins { cfg with catUser := false } (splitData sc so recs).clean {} (prebin (splitData sc so recs).clean) with
  | error e => simp [hpb, bind, Except.bind] at h
  | ok pb =>
    simp only [hpb, bind, Except.bind, pure, Except.pure, Except.ok.injEq] at h ⊢
    obtain ⟨hsub, hcase⟩ := computePrebins_spec _ _ _ _ _ hpb
    rcases hcase with ⟨h1, h2, h3⟩ | ⟨h1, h2, h3, -⟩
    · exfalso
      have hr : fitOptimizer false solver pb.splits pb.nonevent pb.event = ⟨"OPTIMAL", [], []⟩ := by
        simp [fitOptimizer, h1, h2]
      rw [hr] at h
      exact hne (by rw [← h])
    · refine ⟨pb.nonevent, pb.event, by rw [h2, h3, length_prebinCounts, length_prebinCounts], ?_, ?_, ?_⟩
      · have := List.length_pos_iff.2 h1
        rw [h2, length_prebinCounts]; simp [prebinNumber]; omega
      · intro hp
        have := computePrebins_keep hpb hp
        simp only at this
        simp only [this]
        exact congrArg Except.ok h
      · intro s' hs'
        have : fitOptimizer false s' pb.splits pb.nonevent pb.event = fitOptimizer false solver pb.splits pb.nonevent pb.event := by
          unfold fitOptimizer; rw [hs']
        rw [this]
        exact h

/-- A solver which respects options depending on the pre-bins may be replaced by one which respects the constant options of
the pre-bins of this fit. -/
theorem fitNumerical_const {cfg : PrebinCfg} {sc : SpecialCodes α} {so : SplitOpts α} {prebin : List (Rec α) → List α}
    {solver : Solver} {c : SolverCfg} {recs : List (Rec α)} {f : Fitted α} (hne : f.splits ≠ [])
    (h : fitNumerical cfg sc so prebin solver recs = .ok f) :
    ∃ nev ev : List ℕ, ev.length = nev.length ∧ 2 ≤ nev.length ∧
      ((pureMask nev ev).any id = false → fitNumerical { cfg with keepPure := false } sc so prebin solver recs = .ok f) ∧ ∃ solver' : Solver,
      fitNumerical cfg sc so prebin solver' recs = .ok f ∧
      (∀ reg, RespectsCP c reg solver → RespectsCP { c with opts := fun _ _ => c.opts nev ev } reg solver') ∧
      (∀ reg, RespectsMIP c reg solver → RespectsMIP { c with opts := fun _ _ => c.opts nev ev } reg solver') := by
  obtain ⟨nev, ev, h1, h2, hp, hl⟩ := fitNumerical_local h hne
  refine ⟨nev, ev, h1, h2, hp, fun a b => if a = nev ∧ b = ev then solver nev ev else .other "UNKNOWN", hl _ (by simp), ?_, ?_⟩
  · intro reg hr a b
    simp only
    split_ifs with hab
    · obtain ⟨rfl, rfl⟩ := hab
      exact hr a b
    · exact ⟨by decide, by decide⟩
  · intro reg hr a b
    simp only
    split_ifs with hab
    · obtain ⟨rfl, rfl⟩ := hab
      exact hr a b
    · exact ⟨by decide, by decide⟩

/-- Without a solution (status neither OPTIMAL nor FEASIBLE) the result is a single bin. -/
theorem solved_of_splits {cfg : PrebinCfg} {sc : SpecialCodes α} {so : SplitOpts α} {prebin : List (Rec α) → List α}
    {solver : Solver} {recs : List (Rec α)} {f : Fitted α}
    (hsolver : ∀ nev ev : List ℕ, 0 < nev.length → (solve nev.length (solver nev ev)).2.getLast? = some true)
    (h : fitNumerical cfg sc so prebin solver recs = .ok f) (hne : f.splits ≠ []) : f.Solved := by
  obtain ⟨st', hf⟩ := fitNumerical_from h
  obtain ⟨nev, ev, h1, h2, h3, h4, -⟩ := fitFrom_rows rfl hsolver hf hne
  unfold Fitted.Solved
  rw [h3]
  have hpos : 0 < f.splits.length := List.length_pos_iff.2 hne
  cases hs : solver nev ev with
  | optimal a => exact Or.inl rfl
  | feasible a => exact Or.inr rfl
  | other m =>
    exfalso
    rw [hs] at h4
    simp only [solve] at h4
    have : ∀ n m : ℕ, ((List.range n).map fun i => i == m).count true ≤ 1 := by
      intro n m
      rw [List.count_eq_countP, List.countP_map]
      have e : (List.range n).countP ((fun x => x == true) ∘ fun i => i == m) = (List.range n).count m := by
        rw [List.count_eq_countP]
        congr 1
        funext i
        simp
      rw [e]
      exact List.nodup_iff_count_le_one.1 List.nodup_range m
    have := this nev.length (nev.length - 1)
    omega

/-- C09–C11 with options depending on the pre-bins (as they do with `monotonic_trend="auto"`). -/
theorem C09_table_limits {cfg : PrebinCfg} {sc : SpecialCodes α} {so : SplitOpts α} {prebin : List (Rec α) → List α}
    {solver : Solver} {c : SolverCfg} {recs : List (Rec α)} {f : Fitted α} (hr : Respects c solver)
    (h : fitNumerical cfg sc so prebin solver recs = .ok f) (hs : f.Solved) (hne : f.splits ≠ []) :
    ∃ nev ev : List ℕ, ev.length = nev.length ∧ 2 ≤ nev.length ∧
    ((cfg.keepPure = false ∨ (pureMask nev ev).any id = false) → ∀ k ≤ f.splits.length, 0 < f.nonevent.getD k 0 ∧ 0 < f.event.getD k 0) ∧
    ∀ o, c.opts nev ev = o →
    AtLeast o.minBins (f.splits.length + 1 : ℕ) ∧ AtMost o.maxBins (f.splits.length + 1 : ℕ) ∧
    ∀ k ≤ f.splits.length,
      AtLeast o.minSize (f.nonevent.getD k 0 + f.event.getD k 0 : ℕ) ∧
      AtMost o.maxSize (f.nonevent.getD k 0 + f.event.getD k 0 : ℕ) ∧
      AtLeast o.minNonevent (f.nonevent.getD k 0 : ℕ) ∧ AtMost o.maxNonevent (f.nonevent.getD k 0 : ℕ) ∧
      AtLeast o.minEvent (f.event.getD k 0 : ℕ) ∧ AtMost o.maxEvent (f.event.getD k 0 : ℕ) := by
  obtain ⟨nev, ev, h1, h2, hpure, s', hf, hcp, hmip⟩ := fitNumerical_const (c := c) hne h
  have hlast : ∀ nev ev : List ℕ, 0 < nev.length → (solve nev.length (solver nev ev)).2.getLast? = some true :=
    fun nev ev hn => hr.last nev ev hn
  refine ⟨nev, ev, h1, h2, ?_, ?_⟩
  · intro hc
    have hf' : fitNumerical { cfg with keepPure := false } sc so prebin solver recs = .ok f := by
      rcases hc with hc | hc
      · rw [← hc]; exact h
      · exact hpure hc
    exact fit_mixed hlast hf' rfl hne
  rintro o rfl
  rcases hr with ⟨reg, hr⟩ | ⟨reg, hr⟩
  · exact C09_table_limits_cp (fun _ _ => rfl) (hcp reg hr) hf hs hne
  · exact C09_table_limits_mip (fun _ _ => rfl) (hmip reg hr) hf hs hne

theorem options_ok (p : Params) (hull : List ℚ → Option ℚ) (stale : Bool) (n : ℕ) (nev ev : List ℕ) (h : 2 ≤ nev.length)
    (hl : ev.length = nev.length) :
    ∃ t, resolveTrend hull nev ev p.trend = .ok t ∧ ∃ o, p.options hull stale n nev ev = .ok o ∧
      (p.cfg hull stale pv n).opts nev ev = o ∧ o.trend = t ∧ o.minBins = p.minBins ∧ o.maxBins = p.maxBins ∧
      o.minSize = p.minBinSize.map (ceilSize n) ∧ o.maxSize = p.maxBinSize.map (ceilSize n) ∧
      (∃ flag, ((p.divergence.keepsPure = true → (pureMask nev ev).any id = true → flag = true) ∧
        o.minEvent = p.minCount flag p.minEvent ∧ o.minNonevent = p.minCount flag p.minNonevent)) ∧
      o.maxEvent = p.maxEvent ∧ o.maxNonevent = p.maxNonevent := by
  have ht : ∃ t, resolveTrend hull nev ev p.trend = .ok t := by
    cases hp : p.trend with
    | auto => obtain ⟨t, -, ht⟩ := C30_auto hull nev ev h; exact ⟨t, ht⟩
    | autoAscDesc => obtain ⟨t, -, ht⟩ := C30_auto_asc_desc hull nev ev h; exact ⟨t, ht⟩
    | autoHeuristic => obtain ⟨t, ht, -⟩ := C30_auto_heuristic hull nev ev h hl; exact ⟨t, ht⟩
    | _ => exact ⟨_, rfl⟩
  obtain ⟨t, ht⟩ := ht
  refine ⟨t, ht, ?_⟩
  have ho : p.options hull stale n nev ev = .ok
      { trend := t, minBins := p.minBins, maxBins := p.maxBins,
         minSize := p.minBinSize.map (ceilSize n), maxSize := p.maxBinSize.map (ceilSize n),
         minEvent := p.minCount (stale || (p.divergence.keepsPure && (pureMask nev ev).any id)) p.minEvent, maxEvent := p.maxEvent,
         minNonevent := p.minCount (stale || (p.divergence.keepsPure && (pureMask nev ev).any id)) p.minNonevent, maxNonevent := p.maxNonevent,
         minRateDiffZero := decide (p.minRateDiff = .num 0), gamma := decide (p.gamma ≠ .num 0) } := by
    unfold Params.options
    rw [ht]
    rfl
  refine ⟨_, ho, ?_, rfl, rfl, rfl, rfl, rfl, ⟨_, ?_, rfl, rfl⟩, rfl, rfl⟩
  · unfold Params.cfg
    simp only [ho]
  · intro h1 h2
    simp [h1, h2]

theorem minCount_ge (p : Params) (flag : Bool) {m : Option ℤ} {v : ℤ} (h : AtLeast (p.minCount flag m) v) : AtLeast m v := by
  unfold Params.minCount at h
  split_ifs at h with hc
  · intro b hb
    subst hb
    exact le_trans (le_max_left b 1) (h _ rfl)
  · exact h

theorem minCount_pos (p : Params) (hk : p.divergence.keepsPure = true) {m : Option ℤ} {v : ℤ} (h : AtLeast (p.minCount true m) v) : 0 < v := by
  unfold Params.minCount at h
  rw [hk] at h
  simp only [Bool.and_self, if_true] at h
  cases m with
  | none => exact h 1 rfl
  | some b => have := h _ rfl; have := le_max_right b 1; omega

theorem ceil_atLeast {n : ℕ} {o : Option XQ} {c : ℕ} (h : AtLeast (o.map (ceilSize n)) (c : ℤ)) (q : ℚ) (hq : o = some (.num q)) :
    q * (n : ℚ) ≤ (c : ℚ) := by
  subst hq
  have := h _ rfl
  unfold ceilSize at this
  have h2 := Int.ceil_le.1 this
  exact_mod_cast h2

theorem ceil_atMost {n : ℕ} {o : Option XQ} {c : ℕ} (h : AtMost (o.map (ceilSize n)) (c : ℤ)) (q : ℚ) (hq : o = some (.num q)) :
    (c : ℚ) < q * (n : ℚ) + 1 := by
  subst hq
  have := h _ rfl
  unfold ceilSize at this
  have h2 := Int.ceil_lt_add_one (q * (n : ℚ))
  have h3 : ((c : ℤ) : ℚ) ≤ ((⌈q * (n : ℚ)⌉ : ℤ) : ℚ) := by exact_mod_cast this
  push_cast at h3
  linarith

/-- `C102_limits` for a fit whose options are computed from `N` records. -/
theorem limits_of_size {N : ℕ} (p : Params) (hull : List ℚ → Option ℚ) (stale : Bool) (pv : ℕ → ℕ → ℕ → ℕ → ℝ) (sc : SpecialCodes α)
    (so : SplitOpts α) (prebin : List (Rec α) → List α) (solver : Solver) (recs : List (Rec α)) (f : Fitted α)
    (hr : Respects (p.cfg hull stale pv N) solver)
    (h : fitParams p sc so prebin solver recs = .ok f) (hne : f.splits ≠ []) :
    (∀ b, p.minBins = some b → b ≤ f.splits.length + 1) ∧ (∀ b, p.maxBins = some b → (f.splits.length : ℤ) + 1 ≤ b) ∧
    ∀ k ≤ f.splits.length, ∀ ne e : ℕ, f.nonevent.getD k 0 = ne → f.event.getD k 0 = e →
      (∀ q, p.minBinSize = some (.num q) → q * (N : ℚ) ≤ ((ne + e : ℕ) : ℚ)) ∧
      (∀ q, p.maxBinSize = some (.num q) → ((ne + e : ℕ) : ℚ) < q * (N : ℚ) + 1) ∧
      (∀ b, p.minNonevent = some b → b ≤ ne) ∧ (∀ b, p.maxNonevent = some b → (ne : ℤ) ≤ b) ∧
      (∀ b, p.minEvent = some b → b ≤ e) ∧ (∀ b, p.maxEvent = some b → (e : ℤ) ≤ b) ∧ 0 < ne ∧ 0 < e := by
  have hfit : fitNumerical { keepPure := p.divergence.keepsPure } sc so prebin solver recs = .ok f := by
    unfold fitParams at h
    split at h
    · cases h
    · exact h
  have hs := solved_of_splits (fun nev ev hn => hr.last nev ev hn) hfit hne
  obtain ⟨nev, ev, h1, h2, hpure, hlim⟩ := C09_table_limits hr hfit hs hne
  obtain ⟨t, ht, o, ho, hoc, ht', hb1, hb2, hb3, hb4, ⟨flag, hflag, hb5, hb6⟩, hb7, hb8⟩ :=
    options_ok (pv := pv) p hull stale N nev ev h2 h1
  obtain ⟨l1, l2, l3⟩ := hlim o hoc
  rw [hb1] at l1
  rw [hb2] at l2
  refine ⟨fun b hb => by have := l1 b hb; push_cast at this; exact this, fun b hb => by have := l2 b hb; push_cast at this; exact this, ?_⟩
  rintro k hk ne e rfl rfl
  obtain ⟨m1, m2, m3, m4, m5, m6⟩ := l3 k hk
  rw [hb3] at m1
  rw [hb4] at m2
  rw [hb6] at m3
  rw [hb8] at m4
  rw [hb5] at m5
  rw [hb7] at m6
  refine ⟨ceil_atLeast m1, ceil_atMost m2, minCount_ge p flag m3, m4, minCount_ge p flag m5, m6, ?_⟩
  cases hkp : p.divergence.keepsPure with
  | false => exact hpure (Or.inl hkp) k hk
  | true =>
    cases hpm : (pureMask nev ev).any id with
    | false => exact hpure (Or.inr hpm) k hk
    | true =>
      rw [hflag hkp hpm] at m3 m5
      have := minCount_pos p hkp m3
      have := minCount_pos p hkp m5
      omega

/-- C102: what the limits given to the constructor mean for a binning table with at least two bins: `N` records were passed to `fit`; each bin contains at least `min_bin_size * N` records, less than one record more than
`max_bin_size * N`, and the numbers of bins, events and non-events are within their limits.  Each bin contains an event and a
non-event. -/
theorem C102_limits (p : Params) (hull : List ℚ → Option ℚ) (stale : Bool) (pv : ℕ → ℕ → ℕ → ℕ → ℝ) (sc : SpecialCodes α)
    (so : SplitOpts α) (prebin : List (Rec α) → List α) (solver : Solver) (recs : List (Rec α)) (f : Fitted α)
    (hr : Respects (p.cfg hull stale pv recs.length) solver)
    (h : fitParams p sc so prebin solver recs = .ok f) (hne : f.splits ≠ []) :
    (∀ b, p.minBins = some b → b ≤ f.splits.length + 1) ∧ (∀ b, p.maxBins = some b → (f.splits.length : ℤ) + 1 ≤ b) ∧
    ∀ k ≤ f.splits.length, ∀ ne e : ℕ, f.nonevent.getD k 0 = ne → f.event.getD k 0 = e →
      (∀ q, p.minBinSize = some (.num q) → q * (recs.length : ℚ) ≤ ((ne + e : ℕ) : ℚ)) ∧
      (∀ q, p.maxBinSize = some (.num q) → ((ne + e : ℕ) : ℚ) < q * (recs.length : ℚ) + 1) ∧
      (∀ b, p.minNonevent = some b → b ≤ ne) ∧ (∀ b, p.maxNonevent = some b → (ne : ℤ) ≤ b) ∧
      (∀ b, p.minEvent = some b → b ≤ e) ∧ (∀ b, p.maxEvent = some b → (e : ℤ) ≤ b) ∧ 0 < ne ∧ 0 < e :=
  limits_of_size p hull stale pv sc so prebin solver recs f hr h hne

theorem fitParams_fit {p : Params} {sc : SpecialCodes α} {so : SplitOpts α} {prebin : List (Rec α) → List α} {solver : Solver}
    {recs : List (Rec α)} {f : Fitted α} (h : fitParams p sc so prebin solver recs = .ok f) :
    fitNumerical { keepPure := p.divergence.keepsPure } sc so prebin solver recs = .ok f := by
  unfold fitParams at h
  split at h
  · cases h
  · exact h

/-- `C102_trend_mip` for a fit whose options are computed from `N` records. -/
theorem trend_mip_of_size {N : ℕ} (p : Params) (hull : List ℚ → Option ℚ) (stale : Bool) (pv : ℕ → ℕ → ℕ → ℕ → ℝ) (sc : SpecialCodes α)
    (so : SplitOpts α) (prebin : List (Rec α) → List α) (solver : Solver) (recs : List (Rec α)) (f : Fitted α) (reg : ℝ)
    (hr : RespectsMIP (p.cfg hull stale pv N) reg solver)
    (h : fitParams p sc so prebin solver recs = .ok f) :
    (p.trend = .ascending → ∀ k k', k < k' → k' ≤ f.splits.length → rateOfRow f.nonevent f.event k ≤ rateOfRow f.nonevent f.event k') ∧
    (p.trend = .descending → ∀ k k', k < k' → k' ≤ f.splits.length → rateOfRow f.nonevent f.event k' ≤ rateOfRow f.nonevent f.event k) ∧
    (p.trend = .autoAscDesc →
      (∀ k k', k < k' → k' ≤ f.splits.length → rateOfRow f.nonevent f.event k ≤ rateOfRow f.nonevent f.event k') ∨
      (∀ k k', k < k' → k' ≤ f.splits.length → rateOfRow f.nonevent f.event k' ≤ rateOfRow f.nonevent f.event k)) := by
  have hfit := fitParams_fit h
  by_cases hne : f.splits = []
  · rw [hne]
    refine ⟨fun _ k k' h1 h2 => ?_, fun _ k k' h1 h2 => ?_, fun _ => Or.inl fun k k' h1 h2 => ?_⟩ <;> simp at h2 <;> omega
  · have hs := solved_of_splits (fun nev ev hn => Respects.last (Or.inr ⟨reg, hr⟩) nev ev hn) hfit hne
    obtain ⟨nev, ev, h1, h2, -, s', hf, -, hmip⟩ := fitNumerical_const (c := p.cfg hull stale pv N) hne hfit
    obtain ⟨t, ht, o, ho, hoc, ht', -⟩ := options_ok (pv := pv) p hull stale N nev ev h2 h1
    have key := fun k k' (a : k < k') (b : k' ≤ f.splits.length) => C12_table_mip (fun _ _ => rfl) (hmip reg hr) hf hs a b
    simp only [ho, ht'] at key
    have asc : t = .ascending → ∀ k k', k < k' → k' ≤ f.splits.length → rateOfRow f.nonevent f.event k ≤ rateOfRow f.nonevent f.event k' :=
      fun e k k' a b => (key k k' a b).1 e
    have desc : t = .descending → ∀ k k', k < k' → k' ≤ f.splits.length → rateOfRow f.nonevent f.event k' ≤ rateOfRow f.nonevent f.event k :=
      fun e k k' a b => (key k k' a b).2 e
    refine ⟨fun e => ?_, fun e => ?_, fun e => ?_⟩
    · rw [e] at ht; exact asc (Except.ok.inj ht).symm
    · rw [e] at ht; exact desc (Except.ok.inj ht).symm
    · obtain ⟨t', hm, ht2⟩ := C30_auto_asc_desc hull nev ev h2
      rw [e, ht2] at ht
      simp only [List.mem_cons, List.not_mem_nil, or_false] at hm
      rcases hm with rfl | rfl
      · exact Or.inl (asc (Except.ok.inj ht).symm)
      · exact Or.inr (desc (Except.ok.inj ht).symm)

/-- C102: `monotonic_trend` "ascending", "descending" and "auto_asc_desc" on the table, `solver="mip"`. -/
theorem C102_trend_mip (p : Params) (hull : List ℚ → Option ℚ) (stale : Bool) (pv : ℕ → ℕ → ℕ → ℕ → ℝ) (sc : SpecialCodes α)
    (so : SplitOpts α) (prebin : List (Rec α) → List α) (solver : Solver) (recs : List (Rec α)) (f : Fitted α) (reg : ℝ)
    (hr : RespectsMIP (p.cfg hull stale pv recs.length) reg solver)
    (h : fitParams p sc so prebin solver recs = .ok f) :
    (p.trend = .ascending → ∀ k k', k < k' → k' ≤ f.splits.length → rateOfRow f.nonevent f.event k ≤ rateOfRow f.nonevent f.event k') ∧
    (p.trend = .descending → ∀ k k', k < k' → k' ≤ f.splits.length → rateOfRow f.nonevent f.event k' ≤ rateOfRow f.nonevent f.event k) ∧
    (p.trend = .autoAscDesc →
      (∀ k k', k < k' → k' ≤ f.splits.length → rateOfRow f.nonevent f.event k ≤ rateOfRow f.nonevent f.event k') ∨
      (∀ k k', k < k' → k' ≤ f.splits.length → rateOfRow f.nonevent f.event k' ≤ rateOfRow f.nonevent f.event k)) :=
  trend_mip_of_size p hull stale pv sc so prebin solver recs f reg hr h

/-- `C102_trend_cp` for a fit whose options are computed from `N` records. -/
theorem trend_cp_of_size {N : ℕ} (p : Params) (hull : List ℚ → Option ℚ) (stale : Bool) (pv : ℕ → ℕ → ℕ → ℕ → ℝ) (sc : SpecialCodes α)
    (so : SplitOpts α) (prebin : List (Rec α) → List α) (solver : Solver) (recs : List (Rec α)) (f : Fitted α) (reg : ℤ)
    (hr : RespectsCP (p.cfg hull stale pv N) reg solver)
    (h : fitParams p sc so prebin solver recs = .ok f) :
    (p.trend = .ascending → ∀ k k', k < k' → k' ≤ f.splits.length → rateOfRow f.nonevent f.event k < rateOfRow f.nonevent f.event k' + 1 / 1000000) ∧
    (p.trend = .descending → ∀ k k', k < k' → k' ≤ f.splits.length → rateOfRow f.nonevent f.event k' < rateOfRow f.nonevent f.event k + 1 / 1000000) ∧
    (p.trend = .autoAscDesc →
      (∀ k k', k < k' → k' ≤ f.splits.length → rateOfRow f.nonevent f.event k < rateOfRow f.nonevent f.event k' + 1 / 1000000) ∨
      (∀ k k', k < k' → k' ≤ f.splits.length → rateOfRow f.nonevent f.event k' < rateOfRow f.nonevent f.event k + 1 / 1000000)) := by
  have hfit := fitParams_fit h
  by_cases hne : f.splits = []
  · rw [hne]
    refine ⟨fun _ k k' h1 h2 => ?_, fun _ k k' h1 h2 => ?_, fun _ => Or.inl fun k k' h1 h2 => ?_⟩ <;> simp at h2 <;> omega
  · have hs := solved_of_splits (fun nev ev hn => Respects.last (Or.inl ⟨reg, hr⟩) nev ev hn) hfit hne
    obtain ⟨nev, ev, h1, h2, -, s', hf, hcp, -⟩ := fitNumerical_const (c := p.cfg hull stale pv N) hne hfit
    obtain ⟨t, ht, o, ho, hoc, ht', -⟩ := options_ok (pv := pv) p hull stale N nev ev h2 h1
    have key := fun k k' (a : k < k') (b : k' ≤ f.splits.length) => C12_table_cp (fun _ _ => rfl) (hcp reg hr) hf hs a b
    simp only [ho, ht'] at key
    have asc : t = .ascending → ∀ k k', k < k' → k' ≤ f.splits.length → rateOfRow f.nonevent f.event k < rateOfRow f.nonevent f.event k' + 1 / 1000000 :=
      fun e k k' a b => (key k k' a b).1 e
    have desc : t = .descending → ∀ k k', k < k' → k' ≤ f.splits.length → rateOfRow f.nonevent f.event k' < rateOfRow f.nonevent f.event k + 1 / 1000000 :=
      fun e k k' a b => (key k k' a b).2 e
    refine ⟨fun e => ?_, fun e => ?_, fun e => ?_⟩
    · rw [e] at ht; exact asc (Except.ok.inj ht).symm
    · rw [e] at ht; exact desc (Except.ok.inj ht).symm
    · obtain ⟨t', hm, ht2⟩ := C30_auto_asc_desc hull nev ev h2
      rw [e, ht2] at ht
      simp only [List.mem_cons, List.not_mem_nil, or_false] at hm
      rcases hm with rfl | rfl
      · exact Or.inl (asc (Except.ok.inj ht).symm)
      · exact Or.inr (desc (Except.ok.inj ht).symm)

/-- C102: the same with `solver="cp"`, up to 1e-6. -/
theorem C102_trend_cp (p : Params) (hull : List ℚ → Option ℚ) (stale : Bool) (pv : ℕ → ℕ → ℕ → ℕ → ℝ) (sc : SpecialCodes α)
    (so : SplitOpts α) (prebin : List (Rec α) → List α) (solver : Solver) (recs : List (Rec α)) (f : Fitted α) (reg : ℤ)
    (hr : RespectsCP (p.cfg hull stale pv recs.length) reg solver)
    (h : fitParams p sc so prebin solver recs = .ok f) :
    (p.trend = .ascending → ∀ k k', k < k' → k' ≤ f.splits.length → rateOfRow f.nonevent f.event k < rateOfRow f.nonevent f.event k' + 1 / 1000000) ∧
    (p.trend = .descending → ∀ k k', k < k' → k' ≤ f.splits.length → rateOfRow f.nonevent f.event k' < rateOfRow f.nonevent f.event k + 1 / 1000000) ∧
    (p.trend = .autoAscDesc →
      (∀ k k', k < k' → k' ≤ f.splits.length → rateOfRow f.nonevent f.event k < rateOfRow f.nonevent f.event k' + 1 / 1000000) ∨
      (∀ k k', k < k' → k' ≤ f.splits.length → rateOfRow f.nonevent f.event k' < rateOfRow f.nonevent f.event k + 1 / 1000000)) :=
  trend_cp_of_size p hull stale pv sc so prebin solver recs f reg hr h

end

end OptBinning
