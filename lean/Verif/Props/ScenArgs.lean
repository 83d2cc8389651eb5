import Verif.Props.Params
import Verif.Props.ScenOrder2
import Verif.Spec.ScenArgs

/-!
# C114: the arguments of `SBOptimalBinning`

`pv` is the p-value of the proportion test, `prebin` the external pre-binning, `solver w` the external solver for the weights `w`.
-/
set_option linter.unusedSectionVars false
namespace OptBinning
open Finset Spec

variable {α : Type*}

/-- C114: arguments in the documented ranges are accepted; accepted arguments are in the documented ranges, except that `time_limit`
may also be NaN or infinite; all others are refused with `ValueError`, or `TypeError` if `special_codes` is a dict. -/
theorem C114_checks (p : ParamsS α) :
    (ValidScen p → checkParametersS p = .ok ()) ∧
    (checkParametersS p = .ok () → (∀ t, p.timeLimit = .num t → ValidScen p) ∧ ∀ t, ValidScen { p with timeLimit := .num |t| }) ∧
    (checkParametersS p = .ok () ∨ checkParametersS p = .error "ValueError" ∨
      (checkParametersS p = .error "TypeError" ∧ p.specialCodes.isDict = true)) := by
  have hopt : ∀ (o : Option XQ) (b : ℚ), ¬ (o.any fun v => !(v.above 0 && v.atMost b)) = true ↔
      ∀ v, o = some v → NumIn v fun q => 0 < q ∧ q ≤ b := by
    intro o b
    cases o with
    | none => simp
    | some v =>
      rw [Option.any_some, Bool.not_eq_true', Bool.not_eq_false, open_closed]
      simp
  have hord : ¬ (p.minBinSize.any fun v => p.maxBinSize.any fun w => v.greater w) = true ↔
      ∀ x y, p.minBinSize = some (.num x) → p.maxBinSize = some (.num y) → x ≤ y := by
    cases p.minBinSize with
    | none => simp
    | some v =>
      cases p.maxBinSize with
      | none => simp
      | some w => cases v <;> cases w <;> simp [XQ.greater]
  have hd : ¬ (p.splitDigits.any fun d => !(decide (0 ≤ d) && decide (d ≤ 8))) = true ↔
      ∀ d, p.splitDigits = some d → 0 ≤ d ∧ d ≤ 8 := by
    cases p.splitDigits with
    | none => simp
    | some d => simp
  have htr : ¬ p.trend.unknown = true ↔
      p.trend ∈ [TrendS.none, .ascending, .descending, .concave, .convex, .peak, .valley] := by
    cases p.trend <;> simp [TrendS.unknown]
  have hfx : ¬ badFixed p.userSplits p.userSplitsFixed = true ↔
      ∀ fx, p.userSplitsFixed = some fx → ∃ us, p.userSplits = some us ∧ us.length = fx.length := by
    cases p.userSplitsFixed with
    | none => simp [badFixed]
    | some fx => cases p.userSplits <;> simp [badFixed]
  have hsd : ¬ p.specialCodes.isDict = true ↔ p.specialCodes.isDict = false := by simp
  have ite_ok : ∀ (b : Prop) [Decidable b] (e : String) (x : Except String Unit),
      (if b then Except.error e else x) = .ok () ↔ ¬ b ∧ x = .ok () := by
    intro b _ e x
    by_cases hb : b <;> simp [hb]
  have hn : ∀ b : Bool, ¬ (!b) = true ↔ b = true := by intro b; cases b <;> simp
  have key : checkParametersS p = .ok () ↔ (1 < p.maxPrebins ∧ (NumIn p.minPrebinSize fun q => 0 < q ∧ q ≤ 1 / 2) ∧
      PositiveIfGiven p.minBins ∧ PositiveIfGiven p.maxBins ∧ OrderedIfGiven p.minBins p.maxBins ∧
      (∀ v, p.minBinSize = some v → NumIn v fun q => 0 < q ∧ q ≤ 1 / 2) ∧
      (∀ v, p.maxBinSize = some v → NumIn v fun q => 0 < q ∧ q ≤ 1) ∧
      (∀ x y, p.minBinSize = some (.num x) → p.maxBinSize = some (.num y) → x ≤ y) ∧
      p.trend ∈ [TrendS.none, .ascending, .descending, .concave, .convex, .peak, .valley] ∧
      (NumIn p.minRateDiff fun q => 0 ≤ q ∧ q ≤ 1) ∧
      (∀ v, p.maxPvalue = some v → NumIn v fun q => 0 < q ∧ q ≤ 1) ∧
      (∀ fx, p.userSplitsFixed = some fx → ∃ us, p.userSplits = some us ∧ us.length = fx.length) ∧
      p.specialCodes.isDict = false ∧
      (∀ d, p.splitDigits = some d → 0 ≤ d ∧ d ≤ 8) ∧ p.timeLimit.below 0 = false) := by
    unfold checkParametersS
    rw [ite_ok, ite_ok, ite_ok, ite_ok, ite_ok, ite_ok, ite_ok, ite_ok, ite_ok, ite_ok, ite_ok, ite_ok, ite_ok, ite_ok, ite_ok,
      hopt, hopt, hopt, hord, hd, htr, hfx, hsd, hn, hn, open_closed, closed_closed]
    simp only [Bool.not_eq_true, badCount_false, badOrder_false, not_le, and_true]
  refine ⟨fun h => key.2 ⟨h.1, h.2, h.3, h.4, h.5, h.6, h.7, h.8, h.9, h.10, h.11, h.12, h.13, h.14, ?_⟩, ?_, ?_⟩
  · obtain ⟨q, hq, h0⟩ := h.15; rw [hq]; simp [XQ.below, h0]
  · intro h
    obtain ⟨h1, h2, h3, h4, h5, h6, h7, h8, h9, h10, h11, h12, h13, h14, h15⟩ := key.1 h
    refine ⟨fun t ht => ⟨h1, h2, h3, h4, h5, h6, h7, h8, h9, h10, h11, h12, h13, h14, ⟨t, ht, ?_⟩⟩,
      fun t => ⟨h1, h2, h3, h4, h5, h6, h7, h8, h9, h10, h11, h12, h13, h14, ⟨_, rfl, abs_nonneg t⟩⟩⟩
    rw [ht] at h15; simpa [XQ.below] using h15
  · unfold checkParametersS
    have ite_or : ∀ (b : Prop) [Decidable b] (x : Except String Unit), (x = .ok () ∨ x = .error "ValueError" ∨ (x = .error "TypeError" ∧ p.specialCodes.isDict = true)) →
        ((if b then Except.error "ValueError" else x) = .ok () ∨ (if b then Except.error "ValueError" else x) = .error "ValueError" ∨
          ((if b then Except.error "ValueError" else x) = .error "TypeError" ∧ p.specialCodes.isDict = true)) := by
      intro b _ x hx
      by_cases hb : b <;> simp [hb, hx]
    iterate 12 refine ite_or _ _ ?_
    by_cases hdic : p.specialCodes.isDict = true
    · right; right
      rw [if_pos hdic]
      exact ⟨rfl, hdic⟩
    · rw [if_neg hdic]
      iterate 2 refine ite_or _ _ ?_
      exact Or.inl rfl

/-- The default arguments are accepted. -/
example : checkParametersS ({} : ParamsS ℕ) = .ok () := by decide +kernel
/-- Unlike `OptimalBinning`, a dictionary of special codes is refused. -/
example : checkParametersS ({ specialCodes := .dict [("a", [some 9])] } : ParamsS ℕ) = .error "TypeError" := by decide +kernel

variable [LinearOrder α]
variable {p : ParamsS α} {pv : ℕ → ℕ → ℕ → ℕ → ℝ} {prebin : List (RecM α Bool) → List α} {solver : List ℝ → SolverS}
  {scens : List (Scen α)} {ny : ℕ} {weights : Option (List ℝ)} {f : FittedS α}

/-- A successful `fit` means: the arguments pass, there are as many targets and weights as scenarios, at least one scenario. -/
theorem fitArgsS_inv (h : fitArgsS p pv prebin solver scens ny weights = .ok f) :
    checkParametersS p = .ok () ∧ scens.length = ny ∧ (∀ w, weights = some w → w.length = scens.length) ∧
    (match p.userSplits with
      | none => fitScen (p.cfg pv) p.specialCodes prebin (solver (defaultWeights weights scens.length)) scens = .ok f
      | some us => fitUserS (p.cfg pv) p.specialCodes (solver (defaultWeights weights scens.length)) us p.userSplitsFixed scens = .ok f) := by
  unfold fitArgsS at h
  cases hc : checkParametersS p with
  | error e => rw [hc] at h; cases h
  | ok u =>
    rw [hc] at h
    simp only at h
    cases hx : checkXYW scens.length ny (weights.map List.length) with
    | error e => rw [hx] at h; cases h
    | ok v =>
      rw [hx] at h
      simp only at h
      unfold checkXYW at hx
      split_ifs at hx with h1 h2
      refine ⟨rfl, not_not.1 h1, ?_, ?_⟩
      · intro w hw
        subst hw
        simp only [Option.map_some, Option.any_some, bne_iff_ne, ne_eq, not_not] at h2
        exact h2.symm
      · cases hu : p.userSplits with
        | none => rw [hu] at h; exact h
        | some us => rw [hu] at h; exact h

/-- C114: `fit` succeeds only with accepted arguments, at least one scenario, as many targets as scenarios and, if weights are given, as
many weights; with other lengths it raises `ValueError` before anything else. -/
theorem C114_lengths (hr : ∀ w, RespectsS w (solver w)) :
    (∀ f, fitArgsS p pv prebin solver scens ny weights = .ok f →
      checkParametersS p = .ok () ∧ scens ≠ [] ∧ ny = scens.length ∧ ∀ w, weights = some w → w.length = scens.length) ∧
    (checkParametersS p = .ok () → (ny ≠ scens.length ∨ ∃ w, weights = some w ∧ w.length ≠ scens.length) →
      fitArgsS p pv prebin solver scens ny weights = .error "ValueError") := by
  constructor
  · intro f h
    obtain ⟨h1, h2, h3, h4⟩ := fitArgsS_inv h
    refine ⟨h1, ?_, h2.symm, h3⟩
    rintro rfl
    cases hu : p.userSplits with
    | none =>
      rw [hu] at h4
      simp only [fitScen, fitFromS, List.length_nil, if_true] at h4
      split_ifs at h4
    | some us =>
      rw [hu] at h4
      simp only [fitUserS, fitFromS, List.length_nil, if_true] at h4
      split_ifs at h4 with a1 a2
      · cases hso : sortUserSplits { userSplits := us, fixed := p.userSplitsFixed } with
        | error e => rw [hso] at h4; cases h4
        | ok q => rw [hso] at h4; cases h4
      · cases hso : sortUserSplits { userSplits := us, fixed := p.userSplitsFixed } with
        | error e => rw [hso] at h4; cases h4
        | ok q => rw [hso] at h4; cases h4
  · intro hc h
    unfold fitArgsS
    rw [hc]
    simp only
    have : checkXYW scens.length ny (weights.map List.length) = .error "ValueError" := by
      unfold checkXYW
      rcases h with h | ⟨w, rfl, hw⟩
      · rw [if_pos (Ne.symm h)]
      · split_ifs with h1 h2
        · rfl
        · rfl
        · exfalso
          apply h2
          simp only [Option.map_some, Option.any_some, bne_iff_ne, ne_eq]
          exact fun h => hw h.symm
    rw [this]

theorem fitArgsS_result (hsort : ∀ l, (prebin l).Pairwise (· ≤ ·)) (h : fitArgsS p pv prebin solver scens ny weights = .ok f) :
    FitResultS (p.cfg pv) p.specialCodes (solver (defaultWeights weights scens.length)) scens f := by
  obtain ⟨-, -, -, h4⟩ := fitArgsS_inv h
  cases hu : p.userSplits with
  | none => rw [hu] at h4; exact Or.inl ⟨prebin, hsort, h4⟩
  | some us => rw [hu] at h4; exact Or.inr ⟨us, _, h4⟩

/-- C114: the arguments passed to the constructor are respected in the table of every scenario (index `i` in the lists given to `fit`):
`min_n_bins`, `max_n_bins`, `min_bin_size` and `max_bin_size` (fractions of the records of that scenario), `min_event_rate_diff` (up to
2e-6) and `max_pvalue`. -/
theorem C114_limits (hr : ∀ w, RespectsS w (solver w)) (hsort : ∀ l, (prebin l).Pairwise (· ≤ ·))
    (h : fitArgsS p pv prebin solver scens ny weights = .ok f) (hs : f.Solved) :
    (∀ b, p.minBins = some b → b ≤ f.splits.length + 1) ∧ (∀ b, p.maxBins = some b → (f.splits.length : ℤ) + 1 ≤ b) ∧
    (∀ i recs, scens[i]? = some recs → ∀ k ≤ f.splits.length,
      (∀ q, p.minBinSize = some (.num q) → q * (recs.length : ℚ) ≤ ((cellM f.nonevent k i + cellM f.event k i : ℕ) : ℚ)) ∧
      (∀ q, p.maxBinSize = some (.num q) → ((cellM f.nonevent k i + cellM f.event k i : ℕ) : ℚ) < q * (recs.length : ℚ) + 1)) ∧
    (∀ q, p.minRateDiff = .num q → ∀ i < scens.length, ∀ k < f.splits.length, q - 2 / 1000000 < |f.rate i k - f.rate i (k + 1)|) ∧
    (∀ q, p.maxPvalue = some (.num q) → ∀ i < scens.length, ∀ k k', k < k' → k' ≤ f.splits.length →
      (p.policy = .consecutive → k' = k + 1) →
      pv (cellM f.event k i) (cellM f.nonevent k i) (cellM f.event k' i) (cellM f.nonevent k' i) ≤ (q : ℝ)) := by
  have hf := fitArgsS_result hsort h
  have hrw := hr (defaultWeights weights scens.length)
  obtain ⟨h1, h2⟩ := C61_n_bins hrw hf hs
  refine ⟨?_, ?_, ?_, ?_, ?_⟩
  · intro b hb
    have := h1
    simp only [ParamsS.cfg, hb, AtLeast] at this
    have := this b rfl
    push_cast at this
    exact this
  · intro b hb
    have := h2
    simp only [ParamsS.cfg, hb, AtMost] at this
    have := this b rfl
    push_cast at this
    exact this
  · intro i recs hi k hk
    obtain ⟨h3, h4⟩ := C61_bin_size hrw hf hs hi hk
    exact ⟨fun q hq => h3 q (by simp [ParamsS.cfg, hq, XQ.value]), fun q hq => h4 q (by simp [ParamsS.cfg, hq, XQ.value])⟩
  · intro q hq i hi k hk
    have := C61_min_event_rate_diff hrw hf hs hi (k := k) (by omega)
    simpa [ParamsS.cfg, hq, XQ.value] using this
  · intro q hq i hi k k' hkk hk' hpol
    have := C61_max_pvalue hrw hf hs (t := fun e₁ ne₁ e₂ ne₂ => decide (((XQ.num q).value : ℝ) < pv e₁ ne₁ e₂ ne₂))
      (by simp [ParamsS.cfg, hq]) hi hkk hk' hpol
    have h6 := of_decide_eq_false this
    simp only [XQ.value, not_lt] at h6
    exact h6

/-- C114: `monotonic_trend` is respected in the table of every scenario (event rates cut off after six decimals). -/
theorem C114_trend (hr : ∀ w, RespectsS w (solver w)) (hsort : ∀ l, (prebin l).Pairwise (· ≤ ·))
    (h : fitArgsS p pv prebin solver scens ny weights = .ok f) (hs : f.Solved) {t : Trend}
    (ht : (p.trend, t) ∈ [(TrendS.ascending, Trend.ascending), (.descending, .descending), (.concave, .concave), (.convex, .convex), (.peak, .peak),
      (.valley, .valley)]) :
    RowsTrendInAll scens.length f.splits.length (fun i k => ⌊f.rate i k * 1000000⌋) t := by
  have htt : t = (p.cfg pv).trend ∧ (p.cfg pv).trend.scen := by
    simp only [List.mem_cons, Prod.mk.injEq, List.not_mem_nil, or_false] at ht
    simp only [ParamsS.cfg]
    rcases ht with ⟨h1, rfl⟩ | ⟨h1, rfl⟩ | ⟨h1, rfl⟩ | ⟨h1, rfl⟩ | ⟨h1, rfl⟩ | ⟨h1, rfl⟩ <;> simp [h1, TrendS.trend, Trend.scen]
  rw [htt.1]
  exact C61_trend (hr _) htt.2 (fitArgsS_result hsort h) hs

/-- C114: `binning_table_scenario(i)` returns, for the indices 0, …, n - 1 of the scenarios given to `fit`, the table of that scenario:
row `k` counts its non-events and events which `transform(metric="indices")` sends to `k`; any other integer is refused with
`ValueError`. -/
theorem C114_table (hr : ∀ w, RespectsS w (solver w)) (hsort : ∀ l, (prebin l).Pairwise (· ≤ ·)) (hp : ProperCodes p.specialCodes)
    (h : fitArgsS p pv prebin solver scens ny weights = .ok f) :
    (∀ (i : ℕ) (recs : Scen α), scens[i]? = some recs → (∀ r ∈ recs, r.y ≠ none) → ∃ ne ev, f.tableScenario i = .ok (ne, ev) ∧
      ne.length = f.splits.length + 3 ∧ ev.length = f.splits.length + 3 ∧
      ∀ k < f.splits.length + 3, ne.getD k 0 = countRecs recs (fun r => r.y = some false ∧ f.rowOf p.specialCodes r.x k) ∧
        ev.getD k 0 = countRecs recs (fun r => r.y = some true ∧ f.rowOf p.specialCodes r.x k)) ∧
    (∀ id : ℤ, id < 0 ∨ (scens.length : ℤ) ≤ id → f.tableScenario id = .error "ValueError") := by
  have hf := fitArgsS_result hsort h
  have hlen : f.nonevent.length = scens.length := by
    obtain ⟨st, splits, -, hfrom⟩ := hf.from
    unfold fitFromS at hfrom
    simp only at hfrom
    split_ifs at hfrom with a1 a2
    cases hpb : computePrebinsS ((scens.map (splitDataM p.specialCodes none)).map SplitM.clean) st splits with
    | error e => rw [hpb] at hfrom; cases hfrom
    | ok pb =>
      rw [hpb] at hfrom
      simp only at hfrom
      split_ifs at hfrom with a3
      injection hfrom with hfrom
      rw [← hfrom]
      simp
  constructor
  · intro i recs hi hk
    obtain ⟨ne, ev, h1, h2, h3, h4, h5⟩ := C60_rows hp (hr _) hf hi hk
    refine ⟨ne, ev, ?_, h3, h4, h5⟩
    have hlt : i < scens.length := (List.getElem?_eq_some_iff.1 hi).1
    unfold FittedS.tableScenario
    rw [if_pos ⟨by omega, by rw [hlen]; omega⟩]
    simp [List.getD, h1, h2]
  · intro id hid
    unfold FittedS.tableScenario
    rw [if_neg (by rw [hlen]; omega)]

end OptBinning
