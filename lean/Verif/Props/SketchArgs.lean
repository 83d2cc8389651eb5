import Verif.Lemmas.SketchArgs

/-!
# C113: the arguments of `OptimalBinningSketch`, and its object over all histories of `add` and `solve`

`a` are the constructor arguments, `hull` the convex hull area (scipy), `pv` the p-value of the proportion test, `ext` the external
solver.  `labelled (received ops)` is the number of records with a target given to `add`.
-/
set_option linter.unusedSectionVars false
namespace OptBinning
open Finset Spec

/-- C113: arguments in the documented ranges are accepted; accepted arguments are in the documented ranges, except that
`gamma` and `time_limit` may also be NaN or infinite; all others are refused with `ValueError`. -/
theorem C113_checks (a : SketchArgs) :
    (ValidSketch a → checkSketch a = .ok ()) ∧
    (checkSketch a = .ok () → (∀ g t, a.base.gamma = .num g → a.base.timeLimit = .num t → ValidSketch a) ∧
      ∀ g t, ValidSketch { a with base := { a.base with gamma := .num |g|, timeLimit := .num |t| } }) ∧
    (checkSketch a = .ok () ∨ checkSketch a = .error "ValueError") := by
  have hopt : ∀ (o : Option XQ) (b : ℚ), ¬ (o.any fun v => !(v.above 0 && v.atMost b)) = true ↔
      ∀ v, o = some v → NumIn v fun q => 0 < q ∧ q ≤ b := by
    intro o b
    cases o with
    | none => simp
    | some v =>
      rw [Option.any_some, Bool.not_eq_true', Bool.not_eq_false, open_closed]
      simp
  have hord : ¬ (a.base.minBinSize.any fun v => a.base.maxBinSize.any fun w => v.greater w) = true ↔
      ∀ x y, a.base.minBinSize = some (.num x) → a.base.maxBinSize = some (.num y) → x ≤ y := by
    cases a.base.minBinSize with
    | none => simp
    | some v =>
      cases a.base.maxBinSize with
      | none => simp
      | some w => cases v <;> cases w <;> simp [XQ.greater]
  have hd : ¬ (a.base.splitDigits.any fun d => !(decide (0 ≤ d) && decide (d ≤ 8))) = true ↔
      ∀ d, a.base.splitDigits = some d → 0 ≤ d ∧ d ≤ 8 := by
    cases a.base.splitDigits with
    | none => simp
    | some d => simp
  have ite_ok : ∀ (b : Prop) [Decidable b] (x : Except String Unit),
      (if b then Except.error "ValueError" else x) = .ok () ↔ ¬ b ∧ x = .ok () := by
    intro b _ x
    by_cases hb : b <;> simp [hb]
  have hn : ∀ b : Bool, ¬ (!b) = true ↔ b = true := by intro b; cases b <;> simp
  have key : checkSketch a = .ok () ↔ ((NumIn a.eps fun q => 0 ≤ q ∧ q ≤ 1) ∧ 0 < a.K ∧ 1 < a.base.maxPrebins ∧
      PositiveIfGiven a.base.minBins ∧ PositiveIfGiven a.base.maxBins ∧ OrderedIfGiven a.base.minBins a.base.maxBins ∧
      (∀ v, a.base.minBinSize = some v → NumIn v fun q => 0 < q ∧ q ≤ 1 / 2) ∧
      (∀ v, a.base.maxBinSize = some v → NumIn v fun q => 0 < q ∧ q ≤ 1) ∧
      (∀ x y, a.base.minBinSize = some (.num x) → a.base.maxBinSize = some (.num y) → x ≤ y) ∧
      PositiveIfGiven a.base.minNonevent ∧ PositiveIfGiven a.base.maxNonevent ∧ OrderedIfGiven a.base.minNonevent a.base.maxNonevent ∧
      PositiveIfGiven a.base.minEvent ∧ PositiveIfGiven a.base.maxEvent ∧ OrderedIfGiven a.base.minEvent a.base.maxEvent ∧
      (NumIn a.base.minRateDiff fun q => 0 ≤ q ∧ q ≤ 1) ∧
      (∀ v, a.base.maxPvalue = some v → NumIn v fun q => 0 < q ∧ q ≤ 1) ∧ a.base.gamma.below 0 = false ∧
      (∀ v, a.catCutoff = some v → NumIn v fun q => 0 < q ∧ q ≤ 1) ∧
      (∀ d, a.base.splitDigits = some d → 0 ≤ d ∧ d ≤ 8) ∧ a.base.timeLimit.below 0 = false) := by
    unfold checkSketch
    simp only [ite_ok, hopt, hord, hd, hn, closed_closed, Bool.not_eq_true, badCount_false, badOrder_false, not_le, and_true]
  refine ⟨fun h => key.2 ⟨h.1, h.2, h.3, h.4, h.5, h.6, h.7, h.8, h.9, h.10, h.11, h.12, h.13, h.14, h.15, h.16, h.17, ?_, h.19, h.20, ?_⟩, ?_, ?_⟩
  · obtain ⟨q, hq, h0⟩ := h.18; rw [hq]; simp [XQ.below, h0]
  · obtain ⟨q, hq, h0⟩ := h.21; rw [hq]; simp [XQ.below, h0]
  · intro h
    obtain ⟨h1, h2, h3, h4, h5, h6, h7, h8, h9, h10, h11, h12, h13, h14, h15, h16, h17, h18, h19, h20, h21⟩ := key.1 h
    refine ⟨fun g t hg ht => ⟨h1, h2, h3, h4, h5, h6, h7, h8, h9, h10, h11, h12, h13, h14, h15, h16, h17, ⟨g, hg, ?_⟩, h19, h20, ⟨t, ht, ?_⟩⟩,
      fun g t => ⟨h1, h2, h3, h4, h5, h6, h7, h8, h9, h10, h11, h12, h13, h14, h15, h16, h17, ⟨_, rfl, abs_nonneg g⟩, h19, h20,
        ⟨_, rfl, abs_nonneg t⟩⟩⟩
    · rw [hg] at h18; simpa [XQ.below] using h18
    · rw [ht] at h21; simpa [XQ.below] using h21
  · unfold checkSketch
    have ite_or : ∀ (b : Prop) [Decidable b] (x : Except String Unit), (x = .ok () ∨ x = .error "ValueError") →
        ((if b then Except.error "ValueError" else x) = .ok () ∨ (if b then Except.error "ValueError" else x) = .error "ValueError") := by
      intro b _ x hx
      by_cases hb : b <;> simp [hb, hx]
    repeat refine ite_or _ _ ?_
    exact Or.inl rfl

/-- The default arguments are accepted. -/
example : checkSketch {} = .ok () := by decide +kernel

section
variable {α : Type*} [LinearOrder α]
variable {a : SketchArgs} {sc : SpecialCodes α} {hull : List ℚ → Option ℚ} {pv : ℕ → ℕ → ℕ → ℕ → ℝ} {ops : List (SketchOp α)}
  {ext : ExtSolver} {f : StreamFit α}

/-- Finding: `eps=0` passes the check, but no data can be added: every call of `add` raises `ZeroDivisionError`, every call of
`solve` `NotFittedError`. -/
theorem C113_eps_zero (a : SketchArgs) (h0 : a.eps = .num 0) (sc : SpecialCodes α) (hull : List ℚ → Option ℚ) (pv : ℕ → ℕ → ℕ → ℕ → ℝ)
    (ops : List (SketchOp α)) (recs : List (Rec α)) (ext : ExtSolver) :
    ((SketchObj.run a sc hull pv ops).add a sc recs).1 = .error "ZeroDivisionError" ∧
    ((SketchObj.run a sc hull pv ops).solve a sc hull pv ext).1 = .error "NotFittedError" := by
  have hv : a.eps.value = 0 := by rw [h0]; rfl
  have hsolve : ∀ (o : SketchObj α) (ext : ExtSolver), o.data.nAdd = 0 →
      o.solve a sc hull pv ext = (.error "NotFittedError", o) := by
    intro o ext h
    have hs : o.data.solve (a.stream sc) (ext (o.cfg a hull pv)) = (.error "NotFittedError", o.data) := by
      unfold Stream.solve; rw [if_pos h]
    unfold SketchObj.solve
    simp only [hs, h, if_true]
  have key : (SketchObj.run a sc hull pv ops).data.nAdd = 0 := by
    induction ops using List.reverseRecOn with
    | nil => rfl
    | append_singleton ops o ih =>
      rw [sketchRun_snoc]
      cases o with
      | add recs => simp only [SketchObj.step, SketchObj.add]; rw [if_pos ⟨ih, hv⟩]; exact ih
      | solve ext => simp only [SketchObj.step]; rw [hsolve _ _ ih]; exact ih
  refine ⟨?_, by rw [hsolve _ _ key]⟩
  unfold SketchObj.add
  rw [if_pos ⟨key, hv⟩]

/-- `eps=0` is accepted by the constructor. -/
theorem C113_eps_zero_accepted : checkSketch { eps := .num 0 } = .ok () := by decide +kernel

theorem limits_core (heps : 0 < a.eps.value) (hsc : ¬ IsSpecialValue sc none)
    (hr : Respects ((SketchObj.run a sc hull pv ops).cfg a hull pv) (ext ((SketchObj.run a sc hull pv ops).cfg a hull pv)))
    (hok : ((SketchObj.run a sc hull pv ops).data.solve (a.stream sc) (ext ((SketchObj.run a sc hull pv ops).cfg a hull pv))).1 = .ok f) (hs : f.table.Solved) (h1 : 1 < f.nPrebins)
    {N : ℕ} (hN : labelled (received ops) = N) :
    (∀ b, a.base.minBins = some b → b ≤ f.table.splits.length + 1) ∧
    (∀ b, a.base.maxBins = some b → (f.table.splits.length : ℤ) + 1 ≤ b) ∧
    ∀ k ≤ f.table.splits.length, ∀ ne e : ℕ, f.table.nonevent.getD k 0 = ne → f.table.event.getD k 0 = e →
      (∀ q, a.base.minBinSize = some (.num q) → q * (N : ℚ) ≤ ((ne + e : ℕ) : ℚ)) ∧
      (∀ q, a.base.maxBinSize = some (.num q) → ((ne + e : ℕ) : ℚ) < q * (N : ℚ) + 1) ∧
      (∀ b, a.base.minNonevent = some b → b ≤ ne) ∧ (∀ b, a.base.maxNonevent = some b → (ne : ℤ) ≤ b) ∧
      (∀ b, a.base.minEvent = some b → b ≤ e) ∧ (∀ b, a.base.maxEvent = some b → (e : ℤ) ≤ b) ∧ 0 < ne ∧ 0 < e := by
  obtain ⟨sops, e1, e2, -⟩ := run_data (sc := sc) (hull := hull) (pv := pv) heps ops
  have htot := run_total (hull := hull) (pv := pv) heps hsc ops
  rw [hN] at htot
  rw [e2] at hok
  set o := SketchObj.run a sc hull pv ops with ho
  obtain ⟨nev, ev, g1, g2, gk, gp, s', gf, gcp, gmip⟩ := stream_const (cfg := a.stream sc) heps hsc hr hok hs h1
  obtain ⟨t, ht, op, hop, hoc, ht', hb1, hb2, hb3, hb4, ⟨flag, hflag, hb5, hb6⟩, hb7, hb8⟩ :=
    options_ok (pv := pv) a.base hull o.flag o.data.total nev ev g2 g1
  have hlim : AtLeast op.minBins (f.table.splits.length + 1 : ℕ) ∧ AtMost op.maxBins (f.table.splits.length + 1 : ℕ) ∧
    ∀ k ≤ f.table.splits.length,
      AtLeast op.minSize (f.table.nonevent.getD k 0 + f.table.event.getD k 0 : ℕ) ∧
      AtMost op.maxSize (f.table.nonevent.getD k 0 + f.table.event.getD k 0 : ℕ) ∧
      AtLeast op.minNonevent (f.table.nonevent.getD k 0 : ℕ) ∧ AtMost op.maxNonevent (f.table.nonevent.getD k 0 : ℕ) ∧
      AtLeast op.minEvent (f.table.event.getD k 0 : ℕ) ∧ AtMost op.maxEvent (f.table.event.getD k 0 : ℕ) := by
    rcases hr with ⟨reg, hr⟩ | ⟨reg, hr⟩
    · exact C71_limits_cp (cfg := a.stream sc) heps hsc (fun _ _ => hoc) (gcp reg hr) gf hs h1
    · exact C71_limits_mip (cfg := a.stream sc) heps hsc (fun _ _ => hoc) (gmip reg hr) gf hs h1
  obtain ⟨l1, l2, l3⟩ := hlim
  rw [hb1] at l1
  rw [hb2] at l2
  refine ⟨fun b hb => by have := l1 b hb; push_cast at this; exact this, fun b hb => by have := l2 b hb; push_cast at this; exact this, ?_⟩
  rintro k hk ne e rfl rfl
  obtain ⟨m1, m2, m3, m4, m5, m6⟩ := l3 k hk
  rw [hb3, htot] at m1
  rw [hb4, htot] at m2
  rw [hb6] at m3
  rw [hb8] at m4
  rw [hb5] at m5
  rw [hb7] at m6
  refine ⟨ceil_atLeast m1, ceil_atMost m2, minCount_ge a.base flag m3, m4, minCount_ge a.base flag m5, m6, ?_⟩
  cases hpm : (pureMask nev ev).any id with
  | false => exact gp hpm k hk
  | true =>
    cases hkp : a.base.divergence.keepsPure with
    | true =>
      rw [hflag hkp hpm] at m3 m5
      have := minCount_pos a.base hkp m3
      have := minCount_pos a.base hkp m5
      omega
    | false =>
      rw [gk hkp] at hpm
      cases hpm

/-- C113: what the limits given to the constructor mean for the table of a call of `solve` that reports OPTIMAL or FEASIBLE and had more
than one pre-bin, after any history: `N` records with a target were given to `add` (missing and special ones included); every regular row
has at least `min_bin_size * N` records, less than one more than `max_bin_size * N`, the numbers of rows, events and non-events are
within their limits, and every regular row has an event and a non-event. -/
theorem C113_limits (heps : 0 < a.eps.value) (hsc : ¬ IsSpecialValue sc none)
    (hr : Respects ((SketchObj.run a sc hull pv ops).cfg a hull pv) (ext ((SketchObj.run a sc hull pv ops).cfg a hull pv)))
    (h : ((SketchObj.run a sc hull pv ops).solve a sc hull pv ext).1 = .ok f) (hs : f.table.Solved) (h1 : 1 < f.nPrebins)
    {N : ℕ} (hN : labelled (received ops) = N) :
    (∀ b, a.base.minBins = some b → b ≤ f.table.splits.length + 1) ∧
    (∀ b, a.base.maxBins = some b → (f.table.splits.length : ℤ) + 1 ≤ b) ∧
    ∀ k ≤ f.table.splits.length, ∀ ne e : ℕ, f.table.nonevent.getD k 0 = ne → f.table.event.getD k 0 = e →
      (∀ q, a.base.minBinSize = some (.num q) → q * (N : ℚ) ≤ ((ne + e : ℕ) : ℚ)) ∧
      (∀ q, a.base.maxBinSize = some (.num q) → ((ne + e : ℕ) : ℚ) < q * (N : ℚ) + 1) ∧
      (∀ b, a.base.minNonevent = some b → b ≤ ne) ∧ (∀ b, a.base.maxNonevent = some b → (ne : ℤ) ≤ b) ∧
      (∀ b, a.base.minEvent = some b → b ≤ e) ∧ (∀ b, a.base.maxEvent = some b → (e : ℤ) ≤ b) ∧ 0 < ne ∧ 0 < e :=
  limits_core heps hsc hr (solve_ok h).2.1 hs h1 hN

/-- If there is a split, the solver was called and reported OPTIMAL or FEASIBLE. -/
theorem solved_of_sketch (heps : 0 < a.eps.value) (hsc : ¬ IsSpecialValue sc none)
    (hr : Respects ((SketchObj.run a sc hull pv ops).cfg a hull pv) (ext ((SketchObj.run a sc hull pv ops).cfg a hull pv)))
    (hok : ((SketchObj.run a sc hull pv ops).data.solve (a.stream sc) (ext ((SketchObj.run a sc hull pv ops).cfg a hull pv))).1 = .ok f) (hne : f.table.splits ≠ []) :
    f.table.Solved ∧ 1 < f.nPrebins := by
  obtain ⟨sops, e1, e2, -⟩ := run_data (sc := sc) (hull := hull) (pv := pv) heps ops
  rw [e2] at hok
  constructor
  · by_contra hns
    exact hne (C71_unsolved (cfg := a.stream sc) heps hsc hr hok hns)
  · obtain ⟨K, cand, pb, -, -, -, -, -, -, -, q8, -, q10⟩ := solve_history (cfg := a.stream sc) heps hsc hr hok
    rcases q10 with ⟨-, -, q, -⟩ | ⟨hp, -⟩
    · exact absurd q hne
    · have := List.length_pos_iff.2 hp
      omega

/-- C113: `monotonic_trend` "ascending", "descending" and "auto_asc_desc" on the Event rate column, `solver="mip"` (exactly). -/
theorem C113_trend_mip {reg : ℝ} (heps : 0 < a.eps.value) (hsc : ¬ IsSpecialValue sc none)
    (hr : RespectsMIP ((SketchObj.run a sc hull pv ops).cfg a hull pv) reg (ext ((SketchObj.run a sc hull pv ops).cfg a hull pv)))
    (h : ((SketchObj.run a sc hull pv ops).solve a sc hull pv ext).1 = .ok f) :
    (a.base.trend = .ascending → ∀ k k', k < k' → k' ≤ f.table.splits.length → rateOfRow f.table.nonevent f.table.event k ≤ rateOfRow f.table.nonevent f.table.event k') ∧
    (a.base.trend = .descending → ∀ k k', k < k' → k' ≤ f.table.splits.length → rateOfRow f.table.nonevent f.table.event k' ≤ rateOfRow f.table.nonevent f.table.event k) ∧
    (a.base.trend = .autoAscDesc → (∀ k k', k < k' → k' ≤ f.table.splits.length → rateOfRow f.table.nonevent f.table.event k ≤ rateOfRow f.table.nonevent f.table.event k') ∨
      (∀ k k', k < k' → k' ≤ f.table.splits.length → rateOfRow f.table.nonevent f.table.event k' ≤ rateOfRow f.table.nonevent f.table.event k)) := by
  by_cases hne : f.table.splits = []
  · rw [hne]
    refine ⟨fun _ k k' h1 h2 => ?_, fun _ k k' h1 h2 => ?_, fun _ => Or.inl fun k k' h1 h2 => ?_⟩ <;> simp at h2 <;> omega
  obtain ⟨hs, h1⟩ := solved_of_sketch heps hsc (Or.inr ⟨reg, hr⟩) (solve_ok h).2.1 hne
  obtain ⟨-, hok, -⟩ := solve_ok h
  obtain ⟨sops, e1, e2, -⟩ := run_data (sc := sc) (hull := hull) (pv := pv) heps ops
  rw [e2] at hok
  obtain ⟨nev, ev, g1, g2, -, -, s', gf, -, gmip⟩ := stream_const (cfg := a.stream sc) heps hsc (Or.inr ⟨reg, hr⟩) hok hs h1
  obtain ⟨t, ht, op, hop, hoc, ht', -⟩ := options_ok (pv := pv) a.base hull (SketchObj.run a sc hull pv ops).flag
    (SketchObj.run a sc hull pv ops).data.total nev ev g2 g1
  have key := fun k k' (x : k < k') (y : k' ≤ f.table.splits.length) =>
    C71_trend_mip (cfg := a.stream sc) heps hsc (fun _ _ => hoc) (gmip reg hr) gf hs h1 x y
  simp only [ht'] at key
  have asc : t = .ascending → ∀ k k', k < k' → k' ≤ f.table.splits.length → rateOfRow f.table.nonevent f.table.event k ≤ rateOfRow f.table.nonevent f.table.event k' := fun e k k' x y => (key k k' x y).1 e
  have desc : t = .descending → ∀ k k', k < k' → k' ≤ f.table.splits.length → rateOfRow f.table.nonevent f.table.event k' ≤ rateOfRow f.table.nonevent f.table.event k := fun e k k' x y => (key k k' x y).2 e
  refine ⟨fun e => ?_, fun e => ?_, fun e => ?_⟩
  · rw [e] at ht; exact asc (Except.ok.inj ht).symm
  · rw [e] at ht; exact desc (Except.ok.inj ht).symm
  · obtain ⟨t', hm, ht2⟩ := C30_auto_asc_desc hull nev ev g2
    rw [e, ht2] at ht
    simp only [List.mem_cons, List.not_mem_nil, or_false] at hm
    rcases hm with rfl | rfl
    · exact Or.inl (asc (Except.ok.inj ht).symm)
    · exact Or.inr (desc (Except.ok.inj ht).symm)

/-- C113: `monotonic_trend` "ascending", "descending" and "auto_asc_desc" on the Event rate column, `solver="cp"` (up to 1e-6). -/
theorem C113_trend_cp {reg : ℤ} (heps : 0 < a.eps.value) (hsc : ¬ IsSpecialValue sc none)
    (hr : RespectsCP ((SketchObj.run a sc hull pv ops).cfg a hull pv) reg (ext ((SketchObj.run a sc hull pv ops).cfg a hull pv)))
    (h : ((SketchObj.run a sc hull pv ops).solve a sc hull pv ext).1 = .ok f) :
    (a.base.trend = .ascending → ∀ k k', k < k' → k' ≤ f.table.splits.length → rateOfRow f.table.nonevent f.table.event k < rateOfRow f.table.nonevent f.table.event k' + 1 / 1000000) ∧
    (a.base.trend = .descending → ∀ k k', k < k' → k' ≤ f.table.splits.length → rateOfRow f.table.nonevent f.table.event k' < rateOfRow f.table.nonevent f.table.event k + 1 / 1000000) ∧
    (a.base.trend = .autoAscDesc → (∀ k k', k < k' → k' ≤ f.table.splits.length → rateOfRow f.table.nonevent f.table.event k < rateOfRow f.table.nonevent f.table.event k' + 1 / 1000000) ∨
      (∀ k k', k < k' → k' ≤ f.table.splits.length → rateOfRow f.table.nonevent f.table.event k' < rateOfRow f.table.nonevent f.table.event k + 1 / 1000000)) := by
  by_cases hne : f.table.splits = []
  · rw [hne]
    refine ⟨fun _ k k' h1 h2 => ?_, fun _ k k' h1 h2 => ?_, fun _ => Or.inl fun k k' h1 h2 => ?_⟩ <;> simp at h2 <;> omega
  obtain ⟨hs, h1⟩ := solved_of_sketch heps hsc (Or.inl ⟨reg, hr⟩) (solve_ok h).2.1 hne
  obtain ⟨-, hok, -⟩ := solve_ok h
  obtain ⟨sops, e1, e2, -⟩ := run_data (sc := sc) (hull := hull) (pv := pv) heps ops
  rw [e2] at hok
  obtain ⟨nev, ev, g1, g2, -, -, s', gf, gcp, -⟩ := stream_const (cfg := a.stream sc) heps hsc (Or.inl ⟨reg, hr⟩) hok hs h1
  obtain ⟨t, ht, op, hop, hoc, ht', -⟩ := options_ok (pv := pv) a.base hull (SketchObj.run a sc hull pv ops).flag
    (SketchObj.run a sc hull pv ops).data.total nev ev g2 g1
  have key := fun k k' (x : k < k') (y : k' ≤ f.table.splits.length) =>
    C71_trend_cp (cfg := a.stream sc) heps hsc (fun _ _ => hoc) (gcp reg hr) gf hs h1 x y
  simp only [ht'] at key
  have asc : t = .ascending → ∀ k k', k < k' → k' ≤ f.table.splits.length → rateOfRow f.table.nonevent f.table.event k < rateOfRow f.table.nonevent f.table.event k' + 1 / 1000000 := fun e k k' x y => (key k k' x y).1 e
  have desc : t = .descending → ∀ k k', k < k' → k' ≤ f.table.splits.length → rateOfRow f.table.nonevent f.table.event k' < rateOfRow f.table.nonevent f.table.event k + 1 / 1000000 := fun e k k' x y => (key k k' x y).2 e
  refine ⟨fun e => ?_, fun e => ?_, fun e => ?_⟩
  · rw [e] at ht; exact asc (Except.ok.inj ht).symm
  · rw [e] at ht; exact desc (Except.ok.inj ht).symm
  · obtain ⟨t', hm, ht2⟩ := C30_auto_asc_desc hull nev ev g2
    rw [e, ht2] at ht
    simp only [List.mem_cons, List.not_mem_nil, or_false] at hm
    rcases hm with rfl | rfl
    · exact Or.inl (asc (Except.ok.inj ht).symm)
    · exact Or.inr (desc (Except.ok.inj ht).symm)

/-- C113: consecutive regular rows differ by at least `min_event_rate_diff`, `solver="mip"`. -/
theorem C113_min_event_rate_diff_mip {reg : ℝ} (heps : 0 < a.eps.value) (hsc : ¬ IsSpecialValue sc none)
    (hr : RespectsMIP ((SketchObj.run a sc hull pv ops).cfg a hull pv) reg (ext ((SketchObj.run a sc hull pv ops).cfg a hull pv)))
    (h : ((SketchObj.run a sc hull pv ops).solve a sc hull pv ext).1 = .ok f) {d : ℚ} (hd : a.base.minRateDiff = .num d)
    {k : ℕ} (hk : k + 1 ≤ f.table.splits.length) :
    d ≤ |rateOfRow f.table.nonevent f.table.event k - rateOfRow f.table.nonevent f.table.event (k + 1)| := by
  have hne : f.table.splits ≠ [] := by intro e; rw [e] at hk; simp at hk
  obtain ⟨hs, h1⟩ := solved_of_sketch heps hsc (Or.inr ⟨reg, hr⟩) (solve_ok h).2.1 hne
  obtain ⟨-, hok, -⟩ := solve_ok h
  obtain ⟨sops, e1, e2, -⟩ := run_data (sc := sc) (hull := hull) (pv := pv) heps ops
  rw [e2] at hok
  obtain ⟨nev, ev, g1, g2, -, -, s', gf, -, gmip⟩ := stream_const (cfg := a.stream sc) heps hsc (Or.inr ⟨reg, hr⟩) hok hs h1
  have := C71_min_event_rate_diff_mip (cfg := a.stream sc) heps hsc (fun _ _ => rfl) (gmip reg hr) gf hs h1 hk
  have e : ((SketchObj.run a sc hull pv ops).cfg a hull pv).minDiff = d := by
    show a.base.minRateDiff.value = d
    rw [hd]; rfl
  simp only [e] at this
  exact this

/-- C113: `max_pvalue` on the table, `solver="cp"`: the p-value of the test of two consecutive regular rows (any two with policy
"all") is at most `max_pvalue`. -/
theorem C113_pvalue_cp {reg : ℤ} (heps : 0 < a.eps.value) (hsc : ¬ IsSpecialValue sc none)
    (hr : RespectsCP ((SketchObj.run a sc hull pv ops).cfg a hull pv) reg (ext ((SketchObj.run a sc hull pv ops).cfg a hull pv)))
    (h : ((SketchObj.run a sc hull pv ops).solve a sc hull pv ext).1 = .ok f) {v : ℚ} (hv : a.base.maxPvalue = some (.num v))
    {k k' : ℕ} (hk : k < k') (hk' : k' ≤ f.table.splits.length) (hp : a.base.policy = .consecutive → k' = k + 1) :
    pv (f.table.event.getD k 0) (f.table.nonevent.getD k 0) (f.table.event.getD k' 0) (f.table.nonevent.getD k' 0) ≤ v := by
  have hne : f.table.splits ≠ [] := by intro e; rw [e] at hk'; simp at hk'; omega
  obtain ⟨hs, h1⟩ := solved_of_sketch heps hsc (Or.inl ⟨reg, hr⟩) (solve_ok h).2.1 hne
  obtain ⟨-, hok, -⟩ := solve_ok h
  obtain ⟨sops, e1, e2, -⟩ := run_data (sc := sc) (hull := hull) (pv := pv) heps ops
  rw [e2] at hok
  obtain ⟨nev, ev, g1, g2, -, -, s', gf, gcp, -⟩ := stream_const (cfg := a.stream sc) heps hsc (Or.inl ⟨reg, hr⟩) hok hs h1
  have := C71_test_cp (cfg := a.stream sc) heps hsc (fun _ _ => rfl) (gcp reg hr) gf hs h1
    (t := fun e₁ ne₁ e₂ ne₂ => decide ((v : ℝ) < pv e₁ ne₁ e₂ ne₂))
    (by show a.base.maxPvalue.map _ = _; rw [hv]; rfl) hk hk' hp
  simpa using this

/-- C113: `max_pvalue` on the table, `solver="mip"`: the p-value of the test of two consecutive regular rows (any two with policy
"all") is at most `max_pvalue`. -/
theorem C113_pvalue_mip {reg : ℝ} (heps : 0 < a.eps.value) (hsc : ¬ IsSpecialValue sc none)
    (hr : RespectsMIP ((SketchObj.run a sc hull pv ops).cfg a hull pv) reg (ext ((SketchObj.run a sc hull pv ops).cfg a hull pv)))
    (h : ((SketchObj.run a sc hull pv ops).solve a sc hull pv ext).1 = .ok f) {v : ℚ} (hv : a.base.maxPvalue = some (.num v))
    {k k' : ℕ} (hk : k < k') (hk' : k' ≤ f.table.splits.length) (hp : a.base.policy = .consecutive → k' = k + 1) :
    pv (f.table.event.getD k 0) (f.table.nonevent.getD k 0) (f.table.event.getD k' 0) (f.table.nonevent.getD k' 0) ≤ v := by
  have hne : f.table.splits ≠ [] := by intro e; rw [e] at hk'; simp at hk'; omega
  obtain ⟨hs, h1⟩ := solved_of_sketch heps hsc (Or.inr ⟨reg, hr⟩) (solve_ok h).2.1 hne
  obtain ⟨-, hok, -⟩ := solve_ok h
  obtain ⟨sops, e1, e2, -⟩ := run_data (sc := sc) (hull := hull) (pv := pv) heps ops
  rw [e2] at hok
  obtain ⟨nev, ev, g1, g2, -, -, s', gf, -, gmip⟩ := stream_const (cfg := a.stream sc) heps hsc (Or.inr ⟨reg, hr⟩) hok hs h1
  have := C71_test_mip (cfg := a.stream sc) heps hsc (fun _ _ => rfl) (gmip reg hr) gf hs h1
    (t := fun e₁ ne₁ e₂ ne₂ => decide ((v : ℝ) < pv e₁ ne₁ e₂ ne₂))
    (by show a.base.maxPvalue.map _ = _; rw [hv]; rfl) hk hk' hp
  simpa using this

/-- The table has a row of both classes. -/
theorem mixed_row (heps : 0 < a.eps.value) (hsc : ¬ IsSpecialValue sc none)
    (hr : Respects ((SketchObj.run a sc hull pv ops).cfg a hull pv) (ext ((SketchObj.run a sc hull pv ops).cfg a hull pv)))
    (hok : ((SketchObj.run a sc hull pv ops).data.solve (a.stream sc) (ext ((SketchObj.run a sc hull pv ops).cfg a hull pv))).1 = .ok f)
    (hb : BothClasses sc (received ops)) :
    (rowsOf f.table.nonevent f.table.event).any Spec.Row.mixed = true := by
  have key : 0 < f.table.nonevent.getD 0 0 ∧ 0 < f.table.event.getD 0 0 := by
    by_cases hne : f.table.splits = []
    · have hok' := hok
      obtain ⟨sops, e1, e2, -⟩ := run_data (sc := sc) (hull := hull) (pv := pv) heps ops
      rw [e2] at hok'
      obtain ⟨K, cand, pb, q1, -, -, -, -, -, -, q8, -, q10⟩ := solve_history (cfg := a.stream sc) heps hsc hr hok'
      have hu : ∀ ev, 0 < (usedValues sc ev (streamed sops)).length := by
        intro ev; rw [e1]; exact List.length_pos_iff.2 (hb ev)
      have hcol : ∀ ev, 0 < (f.table.column ev).getD 0 0 := by
        intro ev
        rcases q10 with ⟨-, -, -, hc⟩ | ⟨-, sol, -, -, -, -, hc⟩
        · rw [hc ev]
          have h3 := class_parts sc hsc ev (streamed sops)
          have h4 := hu ev
          show 0 < classCount ev (streamed sops)
          omega
        · rw [hc ev, hne]
          have h3 := (q1 ev).counts_sum heps []
          have h4 := length_counts (K ev) ([] : List α)
          obtain ⟨x, hx⟩ := List.length_eq_one_iff.1 h4
          rw [hx] at h3 ⊢
          have h5 : 0 < (usedValues (a.stream sc).sc ev (streamed sops)).length := hu ev
          simp only [List.sum_cons, List.sum_nil, add_zero] at h3
          simp only [List.cons_append, List.getD_cons_zero]
          omega
      exact ⟨hcol false, hcol true⟩
    · obtain ⟨hs, h1⟩ := solved_of_sketch heps hsc hr hok hne
      have := (limits_core heps hsc hr hok hs h1 rfl).2.2 0 (Nat.zero_le _) _ _ rfl rfl
      exact ⟨this.2.2.2.2.2.2.1, this.2.2.2.2.2.2.2⟩
  unfold rowsOf
  cases hn : f.table.nonevent with
  | nil => rw [hn] at key; simp at key
  | cons x xs =>
    cases he : f.table.event with
    | nil => rw [he] at key; simp at key
    | cons y ys =>
      rw [hn, he] at key
      simp only [List.getD_cons_zero] at key
      simp [Spec.Row.mixed, key.1, key.2]

/-- C113: with a solver answering correctly, `solve` completes after any history exactly if both classes have received a value which is
neither missing nor special, for all four divergences. -/
theorem C113_solvable (heps : 0 < a.eps.value) (hm : 1 < a.base.maxPrebins) (hsc : ¬ IsSpecialValue sc none)
    (hr : Respects ((SketchObj.run a sc hull pv ops).cfg a hull pv) (ext ((SketchObj.run a sc hull pv ops).cfg a hull pv))) :
    (∃ f, ((SketchObj.run a sc hull pv ops).solve a sc hull pv ext).1 = .ok f) ↔ BothClasses sc (received ops) := by
  obtain ⟨sops, e1, e2, -⟩ := run_data (sc := sc) (hull := hull) (pv := pv) heps ops
  have hm' : 2 ≤ (a.stream sc).maxPrebins := by
    show 2 ≤ a.base.maxPrebins.toNat
    omega
  have hiff := C70_solvable (cfg := a.stream sc) (ops := sops) (solver := ext ((SketchObj.run a sc hull pv ops).cfg a hull pv)) heps hm'
  rw [← e2, e1] at hiff
  have hboth : BothClasses sc (received ops) ↔
      usedValues (a.stream sc).sc true (received ops) ≠ [] ∧ usedValues (a.stream sc).sc false (received ops) ≠ [] :=
    ⟨fun h => ⟨h true, h false⟩, fun h ev => by cases ev; exacts [h.2, h.1]⟩
  rw [hboth, ← hiff]
  constructor
  · rintro ⟨f, hf⟩
    exact ⟨f, (solve_ok hf).2.1⟩
  · rintro ⟨f, hf⟩
    have hmix := mixed_row heps hsc hr hf (hboth.2 (hiff.1 ⟨f, hf⟩))
    refine ⟨f, ?_⟩
    unfold SketchObj.solve
    simp only
    rw [hf]
    simp only
    rw [if_pos hmix]

theorem received_used (sc : SpecialCodes α) (ev : Bool) (xs ys : List (Rec α)) :
    usedValues sc ev (xs ++ ys) = usedValues sc ev xs ++ usedValues sc ev ys := by
  unfold usedValues; rw [List.filterMap_append]

/-- C113: once `solve` has completed, every later call of `solve` completes. -/
theorem C113_stays_solvable (heps : 0 < a.eps.value) (hm : 1 < a.base.maxPrebins) (hsc : ¬ IsSpecialValue sc none)
    (hr : Respects ((SketchObj.run a sc hull pv ops).cfg a hull pv) (ext ((SketchObj.run a sc hull pv ops).cfg a hull pv)))
    (h : ((SketchObj.run a sc hull pv ops).solve a sc hull pv ext).1 = .ok f) (more : List (SketchOp α)) (ext' : ExtSolver)
    (hr' : ∀ c, Respects c (ext' c)) :
    ∃ f', ((SketchObj.run a sc hull pv (ops ++ .solve ext :: more)).solve a sc hull pv ext').1 = .ok f' := by
  rw [C113_solvable heps hm hsc (hr' _)]
  have hb := (C113_solvable heps hm hsc hr).1 ⟨f, h⟩
  intro ev
  rw [received_append, received_used]
  exact fun hc => hb ev (List.append_eq_nil_iff.1 hc).1

end
end OptBinning
