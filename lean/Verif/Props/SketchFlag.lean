import Verif.Props.SketchArgs3

/-!
# C113: a flag left over from an earlier call of `solve` does not matter
-/
set_option linter.unusedSectionVars false
namespace OptBinning
open Finset Spec

theorem minMaxCount_flag (p : Params) (m mx : Option ℤ) {n : ℕ} {x : ℕ → ℕ → ℤ} {c : ℕ → ℤ} (h : Core n x) (hc : ∀ k < n, 0 < c k) :
    minMaxCount (p.minCount true m) mx n x c ↔ minMaxCount (p.minCount false m) mx n x c := by
  rw [minMaxCount_iff h, minMaxCount_iff h]
  refine forall_congr' fun s => forall_congr' fun e => forall_congr' fun hb => and_congr_left fun _ => ?_
  have hpos : 0 < binTotal c s e := by
    unfold binTotal
    refine Finset.sum_pos (fun k hk => hc k ?_) ⟨s, ?_⟩
    · rw [Finset.mem_Icc] at hk; have := hb.2.1; omega
    · rw [Finset.mem_Icc]; exact ⟨le_rfl, hb.1⟩
  unfold Params.minCount
  cases p.divergence.keepsPure with
  | false => rfl
  | true =>
    cases m with
    | none => simp [AtLeast]; omega
    | some v => simp [AtLeast]; omega

section
variable {R : Type*} [CommRing R] [LinearOrder R] [IsStrictOrderedRing R]

theorem feasibleCore_flag (p : Params) (o : Opts) (m1 m2 : Option ℤ) (M : R) (dat : Data R) (a : Assign) (h1 : ∀ k < dat.n, 0 < dat.nonevent k)
    (h2 : ∀ k < dat.n, 0 < dat.event k) :
    feasibleCore { o with minEvent := p.minCount true m1, minNonevent := p.minCount true m2 } M dat a ↔
    feasibleCore { o with minEvent := p.minCount false m1, minNonevent := p.minCount false m2 } M dat a := by
  constructor
  · intro h
    have hc := h.core
    obtain ⟨a1, a2, a3, a4, a5, a6, a7, a8, a9, a10⟩ := h
    exact ⟨a1, a2, a3, a4, a5, (minMaxCount_flag p _ _ hc h1).1 a6, (minMaxCount_flag p _ _ hc h2).1 a7, a8, a9, a10⟩
  · intro h
    have hc := h.core
    obtain ⟨a1, a2, a3, a4, a5, a6, a7, a8, a9, a10⟩ := h
    exact ⟨a1, a2, a3, a4, a5, (minMaxCount_flag p _ _ hc h1).2 a6, (minMaxCount_flag p _ _ hc h2).2 a7, a8, a9, a10⟩

end

theorem opts_flag (p : Params) (hull : List ℚ → Option ℚ) (pv : ℕ → ℕ → ℕ → ℕ → ℝ) (n : ℕ) (nev ev : List ℕ) (hl : ev.length = nev.length) :
    ((p.cfg hull true pv n).opts nev ev = (p.cfg hull false pv n).opts nev ev) ∨
    ((∀ k < nev.length, 0 < nev.getD k 0 ∧ 0 < ev.getD k 0) ∧ ∃ o : Opts,
      (p.cfg hull true pv n).opts nev ev = { o with minEvent := p.minCount true p.minEvent, minNonevent := p.minCount true p.minNonevent } ∧
      (p.cfg hull false pv n).opts nev ev = { o with minEvent := p.minCount false p.minEvent, minNonevent := p.minCount false p.minNonevent }) := by
  simp only [Params.cfg, Params.options, bind, Except.bind, pure, Except.pure]
  cases resolveTrend hull nev ev p.trend with
  | error e => left; rfl
  | ok t =>
    simp only [Bool.true_or, Bool.false_or]
    cases hp : (pureMask nev ev).any id with
    | true =>
      left
      cases hk : p.divergence.keepsPure with
      | true => simp
      | false => simp [Params.minCount, hk]
    | false =>
      right
      rw [Bool.and_false]
      refine ⟨?_, ⟨⟨t, p.minBins, p.maxBins, p.minBinSize.map (ceilSize n), p.maxBinSize.map (ceilSize n), none, p.maxEvent, none, p.maxNonevent,
        decide (p.minRateDiff = .num 0), false, decide (p.gamma ≠ .num 0), none⟩, rfl, rfl⟩⟩
      intro k hk
      obtain ⟨g1, g2⟩ := pureMask_false hl.symm hp
      rw [List.getD_eq_getElem _ _ hk, List.getD_eq_getElem _ _ (by omega)]
      exact ⟨g1 _ (List.getElem_mem _), g2 _ (List.getElem_mem _)⟩

theorem valid_congr {R : Type*} [LE R] {ok ok' : Assign → Prop} {obj obj' : Assign → R} (h1 : ∀ a, ok a ↔ ok' a) (h2 : obj = obj') (ans : SolverAnswer) :
    ans.Valid ok obj ↔ ans.Valid ok' obj' := by
  subst h2
  cases ans <;> simp [SolverAnswer.Valid, h1]

/-- C113: `divergence` "hellinger"/"triangular": whether an earlier call of `solve` met a pre-bin of one class (`true`) or not (`false`) has no effect on
the answers the solver may give for the pre-bins of a later call, for `solver="cp"` and `solver="mip"`. -/
theorem C113_flag_irrelevant (p : Params) (hull : List ℚ → Option ℚ) (pv : ℕ → ℕ → ℕ → ℕ → ℝ) (n : ℕ) (nev ev : List ℕ) (hl : ev.length = nev.length)
    {c c' : SolverCfg} (hc : c = p.cfg hull true pv n) (hc' : c' = p.cfg hull false pv n) (ans : SolverAnswer) :
    (∀ reg, ans.Valid (acceptsCP (c.opts nev ev) (c.input nev ev)) (objectiveCP (c.opts nev ev) (c.input nev ev) reg) ↔
      ans.Valid (acceptsCP (c'.opts nev ev) (c'.input nev ev)) (objectiveCP (c'.opts nev ev) (c'.input nev ev) reg)) ∧
    (∀ reg, ans.Valid (acceptsMIP (c.opts nev ev) (c.input nev ev)) (objectiveMIP (c.opts nev ev) (c.input nev ev) reg) ↔
      ans.Valid (acceptsMIP (c'.opts nev ev) (c'.input nev ev)) (objectiveMIP (c'.opts nev ev) (c'.input nev ev) reg)) := by
  subst hc hc'
  have hin : (p.cfg hull true pv n).input nev ev = (p.cfg hull false pv n).input nev ev := rfl
  rcases opts_flag p hull pv n nev ev hl with h | ⟨hpos, o, h1, h2⟩
  · rw [h, hin]; exact ⟨fun _ => Iff.rfl, fun _ => Iff.rfl⟩
  · rw [h1, h2, hin]
    have p1 : ∀ k < nev.length, (0 : ℤ) < ((nev.getD k 0 : ℕ) : ℤ) := fun k hk => by exact_mod_cast (hpos k hk).1
    have p2 : ∀ k < nev.length, (0 : ℤ) < ((ev.getD k 0 : ℕ) : ℤ) := fun k hk => by exact_mod_cast (hpos k hk).2
    refine ⟨fun reg => valid_congr (fun a => ?_) rfl ans, fun reg => valid_congr (fun a => ?_) rfl ans⟩
    · exact and_congr_left fun _ => feasibleCore_flag p { o with minRateDiffZero := _, scenario := false } p.minEvent p.minNonevent (1000000 : ℤ) _ a p1 p2
    · exact and_congr_left fun _ => feasibleCore_flag p { o with minRateDiffZero := _, scenario := false } p.minEvent p.minNonevent (1 : ℝ) _ a p1 p2

end OptBinning
