import Verif.Props.ScenArgs
import Verif.Props.MulticlassTable

/-!
# C114: the order of the scenarios; one scenario; examples
-/
set_option linter.unusedSectionVars false
namespace OptBinning
open Finset Spec

variable {α : Type*} [LinearOrder α]

/-- C114: the order in which the scenarios are listed does not matter.  `L` is a list of scenarios with their weights, `L'` another
order of it; the pre-binning (used only without `user_splits`) may depend on the records, but not on their order.  If `fit` on `L` can
return `f`, then `fit` on `L'` can return an object with the same `status` and the same `splits`, and with the same table for the same
scenario.  (`can return`: for some solver which respects the constraints and the objective it is given.) -/
theorem C114_order {p : ParamsS α} {pv : ℕ → ℕ → ℕ → ℕ → ℝ} {prebin : List (RecM α Bool) → List α}
    (hpre : p.userSplits = none → ∀ l l', l.Perm l' → prebin l = prebin l') {solver : List ℝ → SolverS} (hr : ∀ w, RespectsS w (solver w))
    {L L' : List (Scen α × ℝ)} (hp : L.Perm L') {f : FittedS α}
    (h : fitArgsS p pv prebin solver (L.map Prod.fst) L.length (some (L.map Prod.snd)) = .ok f) :
    ∃ solver', (∀ w, RespectsS w (solver' w)) ∧ ∃ f',
      fitArgsS p pv prebin solver' (L'.map Prod.fst) L'.length (some (L'.map Prod.snd)) = .ok f' ∧
      f'.status = f.status ∧ f'.splits = f.splits ∧
      ((L'.map Prod.fst).zip (f'.nonevent.zip f'.event)).Perm ((L.map Prod.fst).zip (f.nonevent.zip f.event)) := by
  classical
  obtain ⟨hc, -, -, h4⟩ := fitArgsS_inv h
  have hx : checkXYW (L'.map Prod.fst).length L'.length ((some (L'.map Prod.snd)).map List.length) = .ok () := by
    simp [checkXYW]
  simp only [defaultWeights, Option.getD_some] at h4
  cases hu : p.userSplits with
  | none =>
    rw [hu] at h4
    simp only [fitScen] at h4
    have hpre' : prebin (((L.map Prod.fst).map fun s => (splitDataM p.specialCodes none s).clean).flatten) =
        prebin (((L'.map Prod.fst).map fun s => (splitDataM p.specialCodes none s).clean).flatten) :=
      hpre hu _ _ (((hp.map Prod.fst).map _).flatten)
    obtain ⟨s', hs', f', h5, h6, h7, h8⟩ := ScenOrder.fitFrom_perm hp (hr _) h4
    refine ⟨fun w => if w = L'.map Prod.snd then s' else solver w, ?_, f', ?_, h6, h7, h8⟩
    · intro w
      simp only
      split_ifs with hw
      · rw [hw]; exact hs'
      · exact hr w
    · unfold fitArgsS
      simp only [hc, hx, hu, defaultWeights, Option.getD_some, if_true, fitScen]
      rw [← hpre']
      exact h5
  | some us =>
    rw [hu] at h4
    simp only [fitUserS] at h4
    split_ifs at h4 with h0
    cases hso : sortUserSplits { userSplits := us, fixed := p.userSplitsFixed } with
    | error e => rw [hso] at h4; cases h4
    | ok q =>
      rw [hso] at h4
      simp only at h4
      obtain ⟨s', hs', f', h5, h6, h7, h8⟩ := ScenOrder.fitFrom_perm hp (hr _) h4
      refine ⟨fun w => if w = L'.map Prod.snd then s' else solver w, ?_, f', ?_, h6, h7, h8⟩
      · intro w
        simp only
        split_ifs with hw
        · rw [hw]; exact hs'
        · exact hr w
      · unfold fitArgsS
        simp only [hc, hx, hu, defaultWeights, Option.getD_some, if_true, fitUserS]
        rw [if_neg h0, hso]
        exact h5

/-- C114: and an exception raised for one order is raised for every order. -/
theorem C114_order_error {p : ParamsS α} {pv : ℕ → ℕ → ℕ → ℕ → ℝ} {prebin : List (RecM α Bool) → List α}
    (hpre : p.userSplits = none → ∀ l l', l.Perm l' → prebin l = prebin l') {solver solver' : List ℝ → SolverS}
    {L L' : List (Scen α × ℝ)} (hp : L.Perm L') {e : String}
    (h : fitArgsS p pv prebin solver (L.map Prod.fst) L.length (some (L.map Prod.snd)) = .error e) :
    fitArgsS p pv prebin solver' (L'.map Prod.fst) L'.length (some (L'.map Prod.snd)) = .error e := by
  have hx : ∀ M : List (Scen α × ℝ), checkXYW (M.map Prod.fst).length M.length ((some (M.map Prod.snd)).map List.length) = .ok () := by
    intro M; simp [checkXYW]
  unfold fitArgsS at h ⊢
  cases hc : checkParametersS p with
  | error e1 => rw [hc] at h; exact h
  | ok u =>
    rw [hc] at h
    simp only [hx, defaultWeights, Option.getD_some] at h ⊢
    cases hu : p.userSplits with
    | none =>
      rw [hu] at h
      simp only [fitScen] at h ⊢
      rw [← hpre hu _ _ (((hp.map Prod.fst).map _).flatten)]
      exact ScenOrder.fitFrom_perm_error hp h
    | some us =>
      rw [hu] at h
      simp only [fitUserS] at h ⊢
      split_ifs at h ⊢ with h0
      · exact h
      · cases hso : sortUserSplits { userSplits := us, fixed := p.userSplitsFixed } with
        | error e => rw [hso] at h; exact h
        | ok q =>
          rw [hso] at h
          exact ScenOrder.fitFrom_perm_error hp h

/-! ### one scenario -/

/-- The options of `OptimalBinning` corresponding to the options `c` of `SBOptimalBinning` for one scenario with `size` records
(binning.py `_fit_optimizer`: `min_bin_size` and `max_bin_size` become numbers of records). -/
def Spec.asBinary (c : ScenCfg) (size : ℕ) (fixed : Option (List Bool)) : Opts where
  trend := c.trend
  minBins := c.minBins
  maxBins := c.maxBins
  minSize := c.minSize.map fun q => ⌈q * (size : ℚ)⌉
  maxSize := c.maxSize.map fun q => ⌈q * (size : ℚ)⌉
  fixed := fixed.map fun l i => l.getD i false

theorem one_core {c : ScenCfg} (hsc : c.trend.scen) {ne ev : List ℕ} {size : ℕ} {fixed : Option (List Bool)} {w : ℝ}
    (hlen : ev.length = ne.length) {a : Assign} :
    (acceptsCP (asBinary c size fixed) (ScenOrder.clsOf c ⟨ne, ev, size, w⟩) a →
      acceptsScen (c.opts [size] fixed) (c.input ne.length [ne] [ev]) a) ∧
    ((c.minDiff ≠ 0 ∨ (c.trend ≠ .ascending ∧ c.trend ≠ .descending)) →
      acceptsScen (c.opts [size] fixed) (c.input ne.length [ne] [ev]) a →
      ∃ a', acceptsCP (asBinary c size fixed) (ScenOrder.clsOf c ⟨ne, ev, size, w⟩) a' ∧ a'.x = a.x) := by
  have hiff := ScenOrder.acceptsScen_iff c ne.length fixed [⟨ne, ev, size, w⟩] a
  simp only [List.map_cons, List.map_nil, List.mem_singleton, forall_eq] at hiff
  rw [hiff]
  set inp := ScenOrder.clsOf c ⟨ne, ev, size, w⟩ with hinp
  have hn : inp.dataCP.n = ne.length := by
    simp [hinp, ScenOrder.clsOf, BinaryInput.dataCP, BinaryInput.n]
  unfold acceptsCP feasibleCP feasibleCore
  rw [hn]
  constructor
  · rintro ⟨⟨h1, h2, h3, h4, h5, h6, h7, h8, h9, h10⟩, h11, h12⟩
    have hcore := h1.1
    refine ⟨⟨⟨h1.1, h1.2.1, h1.2.2.1, by simp [ScenOpts.base, ScenCfg.opts]⟩, h2, h3, h4, h10, ?_⟩, ?_, ?_, h11, h12⟩
    · intro ht
      unfold monotonicity at h8
      rcases ht with ht | ht <;> simp only [asBinary, ht] at h8 <;> exact h8.1
    · intro i hi
      unfold minMaxBinSize at h5
      simp only [asBinary] at h5
      have hu := h1.2.2.2
      simp only [asBinary] at hu
      cases hmn : c.minSize with
      | none =>
        refine ⟨by simp, fun q hq => ?_⟩
        rw [hmn, hq] at h5
        exact h5 i hi
      | some qm =>
        cases hmx : c.maxSize with
        | none =>
          refine ⟨fun q hq => ?_, by simp⟩
          rw [hmn, hmx] at h5
          simp only [Option.some.injEq] at hq
          subst hq
          exact h5 i hi
        | some qx =>
          rw [hmn, hmx] at h5 hu
          obtain ⟨g1, g2⟩ := h5 i hi
          obtain ⟨g3, g4⟩ := hu _ _ rfl rfl i hi
          refine ⟨fun q hq => ?_, fun q hq => ?_⟩
          · simp only [Option.some.injEq] at hq
            subst hq
            have : rowTotal inp.dataCP.records a.x i = ⌈qx * (size : ℚ)⌉ * a.x i i - a.u i := by linarith
            change rowTotal inp.dataCP.records a.x i ≥ ⌈qm * (size : ℚ)⌉ * a.x i i
            rw [this]
            linarith
          · simp only [Option.some.injEq] at hq
            subst hq
            change rowTotal inp.dataCP.records a.x i ≤ ⌈qx * (size : ℚ)⌉ * a.x i i
            linarith
    · unfold monotonicity at h8
      simp only [asBinary] at h8
      cases ht : c.trend with
      | unconstrained => trivial
      | ascending =>
        rw [ht] at h8
        exact ⟨h8.1, fun hcut => absurd hcut.2 (by simp [ScenOpts.base])⟩
      | descending =>
        rw [ht] at h8
        exact ⟨h8.1, fun hcut => absurd hcut.2 (by simp [ScenOpts.base])⟩
      | concave => rw [ht] at h8; exact h8
      | convex => rw [ht] at h8; exact h8
      | peak => rw [ht] at h8; exact h8.2
      | valley => rw [ht] at h8; exact h8.2
      | peakHeuristic tc => rw [ht] at hsc; simp [Trend.scen] at hsc
      | valleyHeuristic tc => rw [ht] at hsc; simp [Trend.scen] at hsc
  · rintro hcuts ⟨⟨h1, h2, h3, h4, h10, hcp⟩, hsz, htr, h11, h12⟩
    have hrecs : ∀ k, 0 ≤ inp.dataCP.records k := by
      intro k
      simp only [Data.records, BinaryInput.dataCP]
      positivity
    have hrow : ∀ i < ne.length, 0 ≤ rowTotal inp.dataCP.records a.x i := by
      intro i hi
      refine Finset.sum_nonneg fun j hj => mul_nonneg (hrecs j) ?_
      rcases h1.1 i hi j (by simpa [Nat.lt_succ_iff] using hj) with h | h <;> rw [h] <;> norm_num
    refine ⟨{ a with u := fun i => ((c.maxSize.map fun q => ⌈q * (size : ℚ)⌉).getD 0) * a.x i i - rowTotal inp.dataCP.records a.x i },
      ⟨⟨⟨h1.1, h1.2.1, h1.2.2.1, ?_⟩, h2, h3, h4, ?_, ?_, ?_, ?_, ?_, h10⟩, h11, h12⟩, rfl⟩
    · intro mn mx hmn hmx i hi
      simp only [asBinary, Option.map_eq_some_iff] at hmn hmx
      obtain ⟨qm, em, rfl⟩ := hmn
      obtain ⟨qx, ex, rfl⟩ := hmx
      simp only [ex, Option.map_some, Option.getD_some]
      obtain ⟨s1, s2⟩ := hsz i hi
      have s1 := s1 qm em
      have s2 := s2 qx ex
      change rowTotal inp.dataCP.records a.x i ≥ ⌈qm * (size : ℚ)⌉ * a.x i i at s1
      change rowTotal inp.dataCP.records a.x i ≤ ⌈qx * (size : ℚ)⌉ * a.x i i at s2
      refine ⟨by linarith, ?_⟩
      rcases h1.1 i hi i le_rfl with h0 | h0
      · rw [h0] at s1 s2 ⊢
        have := hrow i hi
        -- the last pre-bin always ends a bin
        have hl : ne.length - 1 < ne.length := by omega
        have hlast := h2 (ne.length - 1) hl
        have hico : Ico (ne.length - 1) ne.length = {ne.length - 1} := by
          ext k; simp only [mem_Ico, mem_singleton]; omega
        rw [hico, sum_singleton] at hlast
        obtain ⟨l1, l2⟩ := hsz _ hl
        have l1 := l1 qm em
        have l2 := l2 qx ex
        change rowTotal inp.dataCP.records a.x (ne.length - 1) ≥ ⌈qm * (size : ℚ)⌉ * a.x (ne.length - 1) (ne.length - 1) at l1
        change rowTotal inp.dataCP.records a.x (ne.length - 1) ≤ ⌈qx * (size : ℚ)⌉ * a.x (ne.length - 1) (ne.length - 1) at l2
        rw [hlast] at l1 l2
        linarith
      · rw [h0] at s1 s2 ⊢
        linarith
    · unfold minMaxBinSize
      simp only [asBinary]
      cases hmn : c.minSize with
      | none =>
        cases hmx : c.maxSize with
        | none => trivial
        | some qx => exact fun i hi => (hsz i hi).2 qx hmx
      | some qm =>
        cases hmx : c.maxSize with
        | none => exact fun i hi => (hsz i hi).1 qm hmn
        | some qx =>
          intro i hi
          have s1 := (hsz i hi).1 qm hmn
          change rowTotal inp.dataCP.records a.x i ≥ ⌈qm * (size : ℚ)⌉ * a.x i i at s1
          simp only [Option.map_some, Option.getD_some]
          constructor
          · ring
          · rw [sub_mul]; linarith
    · intro i hi; simp [asBinary]
    · intro i hi; simp [asBinary]
    · unfold monotonicity
      simp only [asBinary]
      cases ht : c.trend with
      | unconstrained => trivial
      | ascending =>
        rw [ht] at htr hcuts
        refine ⟨htr.1, fun hcut => ?_⟩
        rcases hcuts with h0 | h0
        · exact absurd (of_decide_eq_true hcut.1) h0
        · simp at h0
      | descending =>
        rw [ht] at htr hcuts
        refine ⟨htr.1, fun hcut => ?_⟩
        rcases hcuts with h0 | h0
        · exact absurd (of_decide_eq_true hcut.1) h0
        · simp at h0
      | concave => rw [ht] at htr; exact htr
      | convex => rw [ht] at htr; exact htr
      | peak => rw [ht] at htr; exact ⟨hcp (Or.inl ht), htr⟩
      | valley => rw [ht] at htr; exact ⟨hcp (Or.inr ht), htr⟩
      | peakHeuristic tc => rw [ht] at hsc; simp [Trend.scen] at hsc
      | valleyHeuristic tc => rw [ht] at hsc; simp [Trend.scen] at hsc
    · intro hg; simp [asBinary] at hg

/-- C114: one scenario.  `ne`, `ev` are the numbers of non-events and events of the pre-bins, `inp` the same data for `OptimalBinning`
(divergence "iv", solver "cp", the same options).  Every binning which `OptimalBinning` may return may be returned by `SBOptimalBinning`;
if `min_event_rate_diff > 0` or the trend is not "ascending" or "descending" the two have the same choice.  With status OPTIMAL the
information value found by `SBOptimalBinning` is at least that found by `OptimalBinning`, and equal in the second case. -/
theorem C114_one_scenario {c : ScenCfg} (hsc : c.trend.scen) {ne ev : List ℕ} (hne : ne ≠ []) (hlen : ev.length = ne.length) {size : ℕ}
    {fixed : Option (List Bool)} {reg : ℤ} {inp : BinaryInput}
    (hinp : inp = { nonevent := ne, event := ev, div := jeffrey, test := c.test, policy := c.policy, minDiff := c.minDiff }) :
    (∀ a, acceptsCP (asBinary c size fixed) inp a → acceptsScen (c.opts [size] fixed) (c.input ne.length [ne] [ev]) a) ∧
    ((c.minDiff ≠ 0 ∨ (c.trend ≠ .ascending ∧ c.trend ≠ .descending)) → ∀ a,
      acceptsScen (c.opts [size] fixed) (c.input ne.length [ne] [ev]) a → ∃ a', acceptsCP (asBinary c size fixed) inp a' ∧ a'.x = a.x) ∧
    ∀ ans ans' : SolverAnswer, ans.Valid (acceptsCP (asBinary c size fixed) inp) (objectiveCP (asBinary c size fixed) inp reg) →
      ans'.Valid (acceptsScen (c.opts [size] fixed) (c.input ne.length [ne] [ev])) (objectiveScen (defaultWeights none 1) (c.input ne.length [ne] [ev])) →
      (solve ne.length ans).1 = "OPTIMAL" → (solve ne.length ans').1 = "OPTIMAL" →
      scenIV6 (c.input ne.length [ne] [ev]) 0 (solOf (solve ne.length ans).2) ≤ scenIV6 (c.input ne.length [ne] [ev]) 0 (solOf (solve ne.length ans').2) ∧
      ((c.minDiff ≠ 0 ∨ (c.trend ≠ .ascending ∧ c.trend ≠ .descending)) →
        scenIV6 (c.input ne.length [ne] [ev]) 0 (solOf (solve ne.length ans).2) = scenIV6 (c.input ne.length [ne] [ev]) 0 (solOf (solve ne.length ans').2)) := by
  have hcls : inp = ScenOrder.clsOf c ⟨ne, ev, size, 1⟩ := hinp
  clear hinp
  subst hcls
  have h1 := fun a => (one_core hsc (size := size) (fixed := fixed) (w := 1) hlen (a := a)).1
  have h2 := fun hc a => (one_core hsc (size := size) (fixed := fixed) (w := 1) hlen (a := a)).2 hc
  refine ⟨h1, h2, ?_⟩
  intro ans ans' hv hv' hs hs'
  set sinp := c.input ne.length [ne] [ev] with hsinp
  have hrect : sinp.Rect := ⟨by simp [hsinp, ScenCfg.input]; exact List.length_pos_iff.2 hne, by simp [hsinp, ScenCfg.input, MultiInput.classes],
    by simp [hsinp, ScenCfg.input], by simp [hsinp, ScenCfg.input, hlen], by simp [hsinp, ScenCfg.input]⟩
  have hcl1 : sinp.classes = 1 := by simp [hsinp, ScenCfg.input, MultiInput.classes]
  have hobj : ∀ a, acceptsScen (c.opts [size] fixed) sinp a →
      objectiveScen (defaultWeights none 1) sinp a = scenIV6 sinp 0 (fun k => a.x k k != 0) := by
    intro a ha
    rw [C59_objective hrect ha, hcl1, sum_range_one, C59_default_weights (by norm_num), one_mul]
  have hobj2 : ∀ a, objectiveCP (asBinary c size fixed) (ScenOrder.clsOf c ⟨ne, ev, size, 1⟩) reg a = objectiveScen (defaultWeights none 1) sinp a := by
    intro a
    unfold objectiveScen objectiveCP
    rw [hcl1, sum_range_one, C59_default_weights (by norm_num), one_mul]
    simp [asBinary]
    rfl
  have hsol : ∀ (a : Assign), scenIV6 sinp 0 (solOf ((List.range ne.length).map fun i => a.x i i != 0)) = scenIV6 sinp 0 (fun k => a.x k k != 0) :=
    fun a => scenIV6_sol (fun k hk => solOf_map a.x hk)
  cases ans with
  | optimal a =>
    cases ans' with
    | optimal b =>
      obtain ⟨ha, hmax⟩ := hv
      obtain ⟨hb, hmax'⟩ := hv'
      have ha' := h1 a ha
      simp only [solve]
      rw [hsol, hsol, ← hobj a ha', ← hobj b hb]
      refine ⟨hmax' a ha', fun hc => le_antisymm (hmax' a ha') ?_⟩
      obtain ⟨b', hb', hx⟩ := h2 hc b hb
      have := hmax b' hb'
      rw [hobj2, hobj2] at this
      have hbb : objectiveScen (defaultWeights none 1) sinp b' = objectiveScen (defaultWeights none 1) sinp b := by
        unfold objectiveScen; rw [hx]
      rw [hbb] at this
      exact this
    | feasible b => simp [solve] at hs'
    | other s => exact absurd hs' hv'.1
  | feasible a => simp [solve] at hs
  | other s => exact absurd hs hv.1

/-! ### examples -/

/-- Arguments corresponding to `exCfgS` (`Props/ScenarioFixed.lean`). -/
def exArgsS : ParamsS ℕ :=
  { trend := .ascending, minBinSize := some (.num (1 / 5)), maxBins := some 3, specialCodes := .list [some 99] }

theorem exArgsS_fit (weights : Option (List ℝ)) (hw : ∀ w, weights = some w → w.length = 2) :
    fitArgsS exArgsS (fun _ _ _ _ => 0) (fun _ => [2, 3]) (fun _ => exSolverS fun _ _ => true) exScens 2 weights = .ok exFittedS := by
  unfold fitArgsS
  have h1 : checkParametersS exArgsS = .ok () := by decide +kernel
  have h2 : checkXYW exScens.length 2 (weights.map List.length) = .ok () := by
    unfold checkXYW
    rw [if_neg (by decide), if_neg]
    cases weights with
    | none => simp
    | some w => simp [hw w rfl, exScens]
  rw [h1]
  simp only [h2]
  exact exFitS

/-- A fit of two scenarios with weights which meets the hypotheses of `C114_limits`, `C114_trend`, `C114_table` and (with the scenarios
swapped) `C114_order`. -/
example : (∀ w, RespectsS w (exSolverS fun _ _ => true)) ∧ (∀ _l : List (RecM ℕ Bool), ([2, 3] : List ℕ).Pairwise (· ≤ ·)) ∧
    fitArgsS exArgsS (fun _ _ _ _ => 0) (fun _ => [2, 3]) (fun _ => exSolverS fun _ _ => true) exScens 2 (some [1, 2]) = .ok exFittedS ∧
    exFittedS.Solved ∧ ProperCodes exArgsS.specialCodes ∧ exFittedS.tableScenario 1 = .ok ([1, 1, 1, 0, 1], [1, 2, 2, 1, 0]) ∧
    exFittedS.tableScenario 2 = .error "ValueError" ∧ exFittedS.tableScenario (-1) = .error "ValueError" :=
  ⟨fun w => exSolverS_respects w _, fun _ => by decide, exArgsS_fit _ (by simp), Or.inr rfl, exCodesM_proper,
    by decide +kernel, by decide +kernel, by decide +kernel⟩

/-- One scenario with three pre-bins: both binning processes may return the three pre-bins. -/
example : ∃ a, acceptsCP (asBinary {} 12 none) { nonevent := [2, 2, 1], event := [1, 2, 2], div := jeffrey, test := none, policy := .consecutive, minDiff := 0 } a ∧
    acceptsScen (({} : ScenCfg).opts [12] none) (({} : ScenCfg).input 3 [[2, 2, 1]] [[1, 2, 2]]) a ∧ ∀ k < 3, (a.x k k != 0) = true := by
  have hone := C114_one_scenario (c := {}) trivial (ne := [2, 2, 1]) (ev := [1, 2, 2]) (size := 12) (fixed := none) (by simp) rfl (reg := 0) rfl
  obtain ⟨a, ha, hd⟩ := accepts_plain (inp := ({} : ScenCfg).input 3 [[2, 2, 1]] [[1, 2, 2]]) ⟨by decide, by decide, by decide, by decide, by decide⟩ rfl rfl
    (fx := none) (sizes := [12]) (sol := fun _ => true) ⟨by decide, rfl⟩ (by simp)
  obtain ⟨a', ha', hx⟩ := hone.2.1 (Or.inr (by decide)) a ha
  exact ⟨a', ha', hone.1 a' ha', fun k hk => by rw [hx]; exact hd k hk⟩

end OptBinning
