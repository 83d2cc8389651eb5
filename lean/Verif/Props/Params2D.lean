import Verif.Spec.Params2D
import Verif.Props.Params
import Verif.Props.CartOpt2D
import Verif.Props.Examples2D
import Verif.Props.ExamplesCart2D
import Verif.Props.ContinuousOpt2D

/-!
# C110: the constructor arguments of the two-dimensional classes and the table
-/
namespace OptBinning
open Finset Spec

theorem check_ite (b : Prop) [Decidable b] (x : Except String Unit) :
    (if b then Except.error "ValueError" else x) = .ok () ↔ ¬ b ∧ x = .ok () := by
  by_cases hb : b <;> simp [hb]

theorem check_err (b : Prop) [Decidable b] {x : Except String Unit} (h : x = .ok () ∨ x = .error "ValueError") :
    (if b then Except.error "ValueError" else x) = .ok () ∨ (if b then Except.error "ValueError" else x) = .error "ValueError" := by
  by_cases hb : b <;> simp [hb, h]

theorem size_any (o : Option XQ) (b : ℚ) : (o.any fun v => !(v.above 0 && v.atMost b)) = false ↔
    ∀ v, o = some v → NumIn v fun q => 0 < q ∧ q ≤ b := by
  cases o with
  | none => simp
  | some v =>
    rw [Option.any_some, Bool.not_eq_false', open_closed]
    simp

theorem size_order (a b : Option XQ) : (a.any fun v => b.any fun w => v.greater w) = false ↔
    ∀ x y, a = some (.num x) → b = some (.num y) → x ≤ y := by
  cases a with
  | none => simp
  | some v =>
    cases b with
    | none => simp
    | some w => cases v <;> cases w <;> simp [XQ.greater]

theorem digits_any (o : Option ℤ) : (o.any fun d => !(decide (0 ≤ d) && decide (d ≤ 8))) = false ↔ ∀ d, o = some d → 0 ≤ d ∧ d ≤ 8 := by
  cases o with
  | none => simp
  | some d => simp

theorem trend_any (t : Option String) : badTrend2D t = false ↔ t = none ∨ t = some "ascending" ∨ t = some "descending" := by
  unfold badTrend2D
  cases t <;> simp [or_iff_not_imp_left]

theorem check2D_iff (p : Params2D) : check2D p = .ok () ↔
    (∀ g t, ValidParams2D { p with gamma := .num |g|, timeLimit := .num |t| }) ∧ p.gamma.below 0 = false ∧ p.timeLimit.below 0 = false := by
  have hn : ∀ b : Bool, ¬ (!b) = true ↔ b = true := by intro b; cases b <;> simp
  unfold check2D
  simp only [check_ite, size_any, size_order, digits_any, hn, open_closed, Bool.not_eq_true, badCount_false, badOrder_false, not_le,
    trend_any, List.contains_eq_mem, List.mem_cons, List.not_mem_nil, or_false, decide_eq_true_eq, and_true]
  constructor
  · rintro ⟨h1, h2, h3, h4, h5, h6, h7, h8, h9, h10, h11, h12, h13, h14, h15, h16, h17, h18⟩
    exact ⟨fun g t => ⟨h1, h2, h3, h4, h5, h6, h7, h8, h9, h10, h11, h12, h13, h14, h15, ⟨_, rfl, abs_nonneg g⟩, h17, ⟨_, rfl, abs_nonneg t⟩⟩,
      h16, h18⟩
  · rintro ⟨h, h16, h18⟩
    obtain ⟨h1, h2, h3, h4, h5, h6, h7, h8, h9, h10, h11, h12, h13, h14, h15, -, h17, -⟩ := h 0 0
    exact ⟨h1, h2, h3, h4, h5, h6, h7, h8, h9, h10, h11, h12, h13, h14, h15, h16, h17, h18⟩

theorem below_of_num {v : XQ} (h : NumIn v fun q => 0 ≤ q) : v.below 0 = false := by
  obtain ⟨q, rfl, h0⟩ := h
  simpa [XQ.below] using h0

/-- C110: both classes accept arguments in the documented ranges; accepted arguments are in the documented ranges, except that
`gamma` and `time_limit` may also be NaN or infinite (`min_mean_diff_x`, `min_mean_diff_y` may be any number); all others are
refused with `ValueError`. -/
theorem C110_checks (p : Params2D) :
    (ValidParams2D p → check2D p = .ok ()) ∧
    (check2D p = .ok () → (∀ g t, p.gamma = .num g → p.timeLimit = .num t → ValidParams2D p) ∧
      ∀ g t, ValidParams2D { p with gamma := .num |g|, timeLimit := .num |t| }) ∧
    (check2D p = .ok () ∨ check2D p = .error "ValueError") := by
  refine ⟨fun h => (check2D_iff p).2 ⟨fun g t => ?_, below_of_num h.gamma, below_of_num h.timeLimit⟩, fun h => ?_, ?_⟩
  · exact ⟨h.1, h.2, h.3, h.4, h.5, h.6, h.7, h.8, h.9, h.10, h.11, h.12, h.13, h.14, h.15, ⟨_, rfl, abs_nonneg g⟩, h.17, ⟨_, rfl, abs_nonneg t⟩⟩
  · obtain ⟨h1, h2, h3⟩ := (check2D_iff p).1 h
    refine ⟨fun g t hg ht => ?_, h1⟩
    have h := h1 0 0
    refine ⟨h.1, h.2, h.3, h.4, h.5, h.6, h.7, h.8, h.9, h.10, h.11, h.12, h.13, h.14, h.15, ⟨g, hg, ?_⟩, h.17, ⟨t, ht, ?_⟩⟩
    · rw [hg] at h2; simpa [XQ.below] using h2
    · rw [ht] at h3; simpa [XQ.below] using h3
  · unfold check2D
    iterate 18 apply check_err
    exact Or.inl rfl

theorem check2DB_iff (p : Params2DB) : check2DB p = .ok () ↔
    (∀ g t, ValidParams2DB { p with gamma := .num |g|, timeLimit := .num |t| }) ∧ p.gamma.below 0 = false ∧ p.timeLimit.below 0 = false := by
  have hn : ∀ b : Bool, ¬ (!b) = true ↔ b = true := by intro b; cases b <;> simp
  unfold check2DB
  simp only [check_ite, hn, closed_closed, Bool.not_eq_true, badCount_false, badOrder_false,
    List.contains_eq_mem, List.mem_cons, List.not_mem_nil, or_false, decide_eq_true_eq, check2D_iff]
  constructor
  · rintro ⟨h1, h2, h3, h4, h5, h6, h7, h8, h9, h10, h11, h12⟩
    exact ⟨fun g t => ⟨h10 g t, h1, h2, h3, h4, h5, h6, h7, h8, h9⟩, h11, h12⟩
  · rintro ⟨h, h11, h12⟩
    obtain ⟨h10, h1, h2, h3, h4, h5, h6, h7, h8, h9⟩ := h 0 0
    exact ⟨h1, h2, h3, h4, h5, h6, h7, h8, h9, fun g t => (h g t).common, h11, h12⟩

/-- C110: the same for the arguments of `OptimalBinning2D`. -/
theorem C110_checks_binary (p : Params2DB) :
    (ValidParams2DB p → check2DB p = .ok ()) ∧
    (check2DB p = .ok () → (∀ g t, p.gamma = .num g → p.timeLimit = .num t → ValidParams2DB p) ∧
      ∀ g t, ValidParams2DB { p with gamma := .num |g|, timeLimit := .num |t| }) ∧
    (check2DB p = .ok () ∨ check2DB p = .error "ValueError") := by
  refine ⟨fun h => ?_, fun h => ?_, ?_⟩
  · have hc := (check2D_iff p.toParams2D).1 ((C110_checks p.toParams2D).1 h.common)
    exact (check2DB_iff p).2 ⟨fun g t => ⟨hc.1 g t, h.2, h.3, h.4, h.5, h.6, h.7, h.8, h.9, h.10⟩, hc.2⟩
  · obtain ⟨h1, h2, h3⟩ := (check2DB_iff p).1 h
    refine ⟨fun g t hg ht => ?_, h1⟩
    have h := h1 0 0
    have hc := ((C110_checks p.toParams2D).2.1 ((check2D_iff _).2 ⟨fun g t => (h1 g t).common, h2, h3⟩)).1 g t hg ht
    exact ⟨hc, h.2, h.3, h.4, h.5, h.6, h.7, h.8, h.9, h.10⟩
  · unfold check2DB
    iterate 9 apply check_err
    exact (C110_checks _).2.2

section
variable {α β : Type} [DecidableEq α] [DecidableEq β]

/-- C110: arguments outside the ranges are refused whatever the data. -/
theorem C110_refused (p : Params2DB) (e : Ext2D α β Bool) (h : ∀ g t, ¬ ValidParams2DB { p with gamma := .num |g|, timeLimit := .num |t| }) :
    fitArgs2D p e = .error "ValueError" := by
  have : check2DB p = .error "ValueError" := by
    rcases (C110_checks_binary p).2.2 with h' | h'
    · exact absurd ((check2DB_iff p).1 h' |>.1 0 0) (h 0 0)
    · exact h'
  simp [fitArgs2D, this]

theorem C110_refused_continuous (p : Params2DC) (e : Ext2D α β ℚ)
    (h : ∀ g t, ¬ ValidParams2D { p.toParams2D with gamma := .num |g|, timeLimit := .num |t| }) :
    fitArgs2DC p e = .error "ValueError" := by
  have : check2D p.toParams2D = .error "ValueError" := by
    rcases (C110_checks p.toParams2D).2.2 with h' | h'
    · exact absurd ((check2D_iff _).1 h' |>.1 0 0) (h 0 0)
    · exact h'
  simp [fitArgs2DC, this]

/-- What the table of a fit with the options of `j` meets. -/
def Limits2D (o : Opts2D) (minSize maxSize : Option ℚ) (N : ℕ) (f : Fitted2D α β) : Prop :=
  (∀ i < f.boxes.length,
    0 < f.event.getD i 0 ∧ 0 < f.nonevent.getD i 0 ∧
    (∀ q, minSize = some q → q * N ≤ f.count i) ∧ (∀ q, maxSize = some q → (f.count i : ℚ) < q * N + 1) ∧
    Within o.minEvent o.maxEvent (f.event.getD i 0 : ℕ) ∧ Within o.minNonevent o.maxNonevent (f.nonevent.getD i 0 : ℕ)) ∧
  Within o.minBins o.maxBins (f.boxes.length : ℕ)

theorem runJob2D_ok {R : Type} [CommRing R] [LinearOrder R] [IsStrictOrderedRing R] {strategy : String} {j : CartJob2D α β R} {f : Fitted2D α β} (h : runJob2D strategy j = .ok f) :
    (strategy = "cart" ∧ f = j.fitCart) ∨ (strategy ≠ "cart" ∧ f = j.toJob2D.fit) := by
  unfold runJob2D at h
  split_ifs at h with h1 h2
  · exact Or.inl ⟨h1, (Except.ok.inj h).symm⟩
  · exact Or.inr ⟨h1, (Except.ok.inj h).symm⟩

theorem runJob2D_limits {R : Type} [CommRing R] [LinearOrder R] [IsStrictOrderedRing R] {strategy : String} {j : CartJob2D α β R}
    {f : Fitted2D α β} (hw : j.prepared.WellFormed) (ht : j.theTree.WellFormed) (hv : ∀ o p, (j.solver o p).Valid o p)
    (h : runJob2D strategy j = .ok f) (hs : f.status = "OPTIMAL" ∨ f.status = "FEASIBLE") :
    Limits2D j.o j.minBinSize j.maxBinSize j.recs.length f ∧
    ∀ (i k : ℕ) (hi : i < f.boxes.length) (hk : k < f.boxes.length),
      (strategy ≠ "cart" → BoxNextX f.boxes[i] f.boxes[k] → StepOK j.o.trendX j.o.minDiffX (f.rate i) (f.rate k)) ∧
      (BoxNextY f.boxes[i] f.boxes[k] → StepOK j.o.trendY j.o.minDiffY (f.rate i) (f.rate k)) := by
  rcases runJob2D_ok h with ⟨h1, rfl⟩ | ⟨h1, rfl⟩
  · have hj : j.Succeeds := ⟨hw, ht, fun p => hv _ p, hs⟩
    exact ⟨C93_limits j hj, fun i k hi hk => ⟨fun h' => absurd h1 h', C93_neighbours_y j hj hi hk⟩⟩
  · have hj : j.toJob2D.Succeeds := ⟨hw, fun p => hv _ p, hs⟩
    exact ⟨C45_limits j.toJob2D hj, fun i k hi hk => ⟨fun _ => (C46_neighbours j.toJob2D hj hi hk).1, (C46_neighbours j.toJob2D hj hi hk).2⟩⟩

theorem moves_of_step {t : Option String} {d : ℚ} {a b : ℚ} (h : StepOK (trendOf2D t) d a b) : Moves t d a b := by
  constructor
  · rintro rfl; exact h
  · rintro rfl; exact h

theorem fitArgs2D_ok {p : Params2DB} {e : Ext2D α β Bool} {f : Fitted2D α β} (h : fitArgs2D p e = .ok f) :
    check2DB p = .ok () ∧ ((p.solver = "cp" ∧ runJob2D p.strategy (p.jobCP e) = .ok f) ∨ (p.solver = "mip" ∧ runJob2D p.strategy (p.jobMIP e) = .ok f)) := by
  unfold fitArgs2D at h
  cases hc : check2DB p with
  | error m => simp [hc] at h
  | ok u =>
    refine ⟨rfl, ?_⟩
    rw [hc] at h
    cases hg : p.gamma with
    | num g =>
      rw [hg] at h
      simp only at h
      split_ifs at h with hs
      · exact Or.inl ⟨hs, h⟩
      · have := (((C110_checks_binary p).2.1 hc).2 0 0).common.solver
        exact Or.inr ⟨this.resolve_left hs, h⟩
    | _ => rw [hg] at h; cases h

/-- C110: whatever the accepted arguments and the data, the table of a fit with status OPTIMAL or FEASIBLE meets the arguments:
every bin contains events and non-events; its records, events and non-events and the number of bins respect their limits
(`max_bin_size` rounded up to a number of records). -/
theorem C110_limits (p : Params2DB) (e : Ext2D α β Bool) (he : Good2D e) {f : Fitted2D α β} (h : fitArgs2D p e = .ok f)
    (hs : f.status = "OPTIMAL" ∨ f.status = "FEASIBLE") :
    (∀ i < f.boxes.length,
      0 < f.event.getD i 0 ∧ 0 < f.nonevent.getD i 0 ∧
      (∀ q, p.minBinSize = some (.num q) → q * e.recs.length ≤ f.count i) ∧
      (∀ q, p.maxBinSize = some (.num q) → (f.count i : ℚ) < q * e.recs.length + 1) ∧
      Within p.minEvent p.maxEvent (f.event.getD i 0 : ℕ) ∧ Within p.minNonevent p.maxNonevent (f.nonevent.getD i 0 : ℕ)) ∧
    Within p.minBins p.maxBins (f.boxes.length : ℕ) := by
  have key : Limits2D p.opts (p.minBinSize.map XQ.value) (p.maxBinSize.map XQ.value) e.recs.length f := by
    rcases (fitArgs2D_ok h).2 with ⟨-, h'⟩ | ⟨-, h'⟩
    · exact (runJob2D_limits (j := p.jobCP e) he.prepared (he.tree _) he.cp h' hs).1
    · exact (runJob2D_limits (j := p.jobMIP e) he.prepared (he.tree _) he.mip h' hs).1
  refine ⟨fun i hi => ?_, key.2⟩
  obtain ⟨h1, h2, h3, h4, h5, h6⟩ := key.1 i hi
  exact ⟨h1, h2, fun q hq => h3 q (by rw [hq]; rfl), fun q hq => h4 q (by rw [hq]; rfl), h5, h6⟩

/-- C110: neighbouring bins follow `monotonic_trend_y` with `min_event_rate_diff_y`, and with `strategy="grid"` also
`monotonic_trend_x` with `min_event_rate_diff_x` (not with "cart": `C93_trend_x_not_enforced`). -/
theorem C110_trends (p : Params2DB) (e : Ext2D α β Bool) (he : Good2D e) {f : Fitted2D α β} (h : fitArgs2D p e = .ok f)
    (hs : f.status = "OPTIMAL" ∨ f.status = "FEASIBLE") {i k : ℕ} (hi : i < f.boxes.length) (hk : k < f.boxes.length) :
    (p.strategy = "grid" → BoxNextX f.boxes[i] f.boxes[k] →
      ∃ q, p.minRateDiffX = .num q ∧ 0 ≤ q ∧ Moves p.trendX q (f.rate i) (f.rate k)) ∧
    (BoxNextY f.boxes[i] f.boxes[k] → ∃ q, p.minRateDiffY = .num q ∧ 0 ≤ q ∧ Moves p.trendY q (f.rate i) (f.rate k)) := by
  obtain ⟨hc, hr⟩ := fitArgs2D_ok h
  have hv := ((C110_checks_binary p).2.1 hc).2 0 0
  obtain ⟨qx, hx, hx0, -⟩ := hv.minRateDiffX
  obtain ⟨qy, hy, hy0, -⟩ := hv.minRateDiffY
  have ex : p.opts.minDiffX = qx := by change p.minRateDiffX.value = qx; rw [show p.minRateDiffX = .num qx from hx]; rfl
  have ey : p.opts.minDiffY = qy := by change p.minRateDiffY.value = qy; rw [show p.minRateDiffY = .num qy from hy]; rfl
  have key : (p.strategy ≠ "cart" → BoxNextX f.boxes[i] f.boxes[k] → StepOK p.opts.trendX p.opts.minDiffX (f.rate i) (f.rate k)) ∧
      (BoxNextY f.boxes[i] f.boxes[k] → StepOK p.opts.trendY p.opts.minDiffY (f.rate i) (f.rate k)) := by
    rcases hr with ⟨-, h'⟩ | ⟨-, h'⟩
    · exact (runJob2D_limits (j := p.jobCP e) he.prepared (he.tree _) he.cp h' hs).2 i k hi hk
    · exact (runJob2D_limits (j := p.jobMIP e) he.prepared (he.tree _) he.mip h' hs).2 i k hi hk
  refine ⟨fun hg hn => ⟨qx, hx, hx0, ?_⟩, fun hn => ⟨qy, hy, hy0, ?_⟩⟩
  · have := key.1 (by rw [hg]; decide) hn
    rw [ex] at this
    exact moves_of_step this
  · have := key.2 hn
    rw [ey] at this
    exact moves_of_step this

/-- The binnings of the pre-binning grid which respect the arguments. -/
def AllowedArgs2D (p : Params2DB) (e : Ext2D α β Bool) (T : Finset Block) : Prop :=
  let g := prepare2D e.dx e.dy e.scx e.scy e.prebinX e.prebinY e.recs
  Admissible2D (absoluteSizes p.opts (p.minBinSize.map XQ.value) (p.maxBinSize.map XQ.value) e.recs.length) g.m g.n g.nonevents g.events T

theorem candidates_of_allowed {R : Type} [CommRing R] [LinearOrder R] [IsStrictOrderedRing R] (j : Job2D α β R) {T : Finset Block} (hT : j.Allowed T) :
    (binaryProgram j.opts j.prepared.m j.prepared.n j.prepared.nonevents j.prepared.events j.coef j.gamma j.reg).1 ≠ [] := by
  intro h0
  have hne := tiling_nonempty (Nat.succ_pos _) (Nat.succ_pos _) hT.tiling
  obtain ⟨s, hsp⟩ := exists_spread (fun b => b.total j.prepared.events + b.total j.prepared.nonevents) hne
  obtain ⟨a', ha', hch, _⟩ := binary_complete (R := R) (coef := j.coef) (gamma := j.gamma) (reg := j.reg) hT hsp
  obtain ⟨b, hb⟩ := hne
  rw [← hch, mem_chosen] at hb
  obtain ⟨i, hi, -⟩ := hb
  rw [h0] at hi
  exact absurd hi (by simp)

/-- C110: without `gamma` every call with accepted arguments returns; with a positive `gamma` and `strategy="grid"` it returns or
raises `ZeroDivisionError`, the latter only if no binning of the grid respects the arguments. -/
theorem C110_returns (p : Params2DB) (e : Ext2D α β Bool) (hp : ValidParams2DB p) :
    (p.gamma = .num 0 → ∃ f, fitArgs2D p e = .ok f) ∧
    (p.strategy = "grid" → (∃ f, fitArgs2D p e = .ok f) ∨
      fitArgs2D p e = .error "ZeroDivisionError" ∧ p.gamma ≠ .num 0 ∧ ∀ T, ¬ AllowedArgs2D p e T) := by
  have hc := (C110_checks_binary p).1 hp
  obtain ⟨g, hg, -⟩ := hp.common.gamma
  have e0 : fitArgs2D p e = if p.solver = "cp" then runJob2D p.strategy (p.jobCP e) else runJob2D p.strategy (p.jobMIP e) := by
    unfold fitArgs2D; rw [hc]; simp only [hg]
  rw [e0]
  have run : ∀ {R : Type} [CommRing R] [LinearOrder R] [IsStrictOrderedRing R] (j : CartJob2D α β R), (∃ f, runJob2D p.strategy j = .ok f) ∨
      runJob2D p.strategy j = .error "ZeroDivisionError" ∧ j.gamma = true ∧ (p.strategy = "grid" → ∀ T, ¬ j.toJob2D.Allowed T) := by
    intro R _ _ _ j
    unfold runJob2D
    split_ifs with h1 h2 h2
    · exact Or.inr ⟨rfl, h2.1, fun h => by rw [h] at h1; exact absurd h1 (by decide)⟩
    · exact Or.inl ⟨_, rfl⟩
    · exact Or.inr ⟨rfl, h2.1, fun _ T hT => candidates_of_allowed j.toJob2D hT h2.2⟩
    · exact Or.inl ⟨_, rfl⟩
  constructor
  · intro h0
    split_ifs
    · rcases run (p.jobCP e) with h | ⟨-, h, -⟩
      · exact h
      · simp [Params2DB.jobCP, h0] at h
    · rcases run (p.jobMIP e) with h | ⟨-, h, -⟩
      · exact h
      · simp [Params2DB.jobMIP, h0] at h
  · intro hs
    split_ifs
    · rcases run (p.jobCP e) with h | ⟨h, h', h''⟩
      · exact Or.inl h
      · exact Or.inr ⟨h, by simpa [Params2DB.jobCP] using h', h'' hs⟩
    · rcases run (p.jobMIP e) with h | ⟨h, h', h''⟩
      · exact Or.inl h
      · exact Or.inr ⟨h, by simpa [Params2DB.jobMIP] using h', h'' hs⟩

/-- Divergence chosen by the argument, of a binning of the pre-binning grid. -/
noncomputable def gridDivergence (p : Params2DB) (e : Ext2D α β Bool) (T : Finset Block) : ℝ :=
  let g := prepare2D e.dx e.dy e.scx e.scy e.prebinX e.prebinY e.recs
  ∑ b ∈ T, (divergenceOf p.divergence).fn (share g.m g.n g.events b : ℚ) (share g.m g.n g.nonevents b : ℚ)

/-- The same from the rows of the table (bins only). -/
noncomputable def tableDivergence2D (p : Params2DB) (f : Fitted2D α β) : ℝ :=
  ∑ i ∈ Finset.range f.boxes.length, (divergenceOf p.divergence).fn
    ((((f.event.getD i 0 : ℕ) : ℚ) / (((f.event.take f.boxes.length).sum : ℕ) : ℚ) : ℚ) : ℝ)
    ((((f.nonevent.getD i 0 : ℕ) : ℚ) / (((f.nonevent.take f.boxes.length).sum : ℕ) : ℚ) : ℚ) : ℝ)

/-- C110: with `solver="mip"`, `strategy="grid"` and no `gamma`, status OPTIMAL means that no binning of the pre-binning grid which
respects the arguments has a larger divergence (the one chosen by `divergence`) than the table. -/
theorem C110_optimal (p : Params2DB) (e : Ext2D α β Bool) (he : Good2D e) {f : Fitted2D α β} (h : fitArgs2D p e = .ok f)
    (hs : f.status = "OPTIMAL") (hm : p.solver = "mip") (hst : p.strategy = "grid") (hg : p.gamma = .num 0) {T : Finset Block}
    (hT : AllowedArgs2D p e T) : gridDivergence p e T ≤ tableDivergence2D p f := by
  rcases (fitArgs2D_ok h).2 with ⟨hc, -⟩ | ⟨-, h'⟩
  · rw [hm] at hc; exact absurd hc (by decide)
  · rcases runJob2D_ok h' with ⟨h1, -⟩ | ⟨-, rfl⟩
    · rw [hst] at h1; exact absurd h1 (by decide)
    · exact C47_optimal (p.jobMIP e).toJob2D ⟨he.prepared, fun q => he.mip _ q, Or.inl hs⟩ hs (by simp [Params2DB.jobMIP, hg]) hT

/-- C110: `split_digits` has no effect: every accepted value gives the same fit as `None`. -/
theorem C110_split_digits_ignored (p : Params2DB) (e : Ext2D α β Bool) (d : ℤ) (h0 : 0 ≤ d) (h8 : d ≤ 8) (hp : p.splitDigits = none) :
    fitArgs2D { p with splitDigits := some d } e = fitArgs2D p e := by
  have : check2DB { p with splitDigits := some d } = check2DB p := by
    unfold check2DB check2D
    simp [hp, h0, h8]
  unfold fitArgs2D
  rw [this]
  rfl

/-! ### continuous target -/

theorem runJobC2D_limits {Q : Type} [CommRing Q] [LinearOrder Q] [IsStrictOrderedRing Q] {strategy : String} {j : CartJobC2D α β Q}
    {f : FittedC2D α β} (hw : j.prepared.WellFormed) (ht : j.theTree.WellFormed) (hv : ∀ o p, (j.solver o p).Valid o p)
    (h : runJobC2D strategy j = .ok f) (hs : f.status = "OPTIMAL" ∨ f.status = "FEASIBLE") :
    Within j.o.minBins j.o.maxBins (f.boxes.length : ℕ) ∧
    ∃ row : ℕ → Row2C, ∃ mean : ℕ → ℚ, (∀ i < f.boxes.length, f.rows[i]? = some (row i) ∧ (row i).mean = some (mean i) ∧ 0 < (row i).cnt ∧
      (∀ q, j.minBinSize = some q → q * j.recs.length ≤ (row i).cnt) ∧
      (∀ q, j.maxBinSize = some q → ((row i).cnt : ℚ) < q * j.recs.length + 1)) ∧
    ∀ (i k : ℕ) (hi : i < f.boxes.length) (hk : k < f.boxes.length),
      (strategy ≠ "cart" → BoxNextX f.boxes[i] f.boxes[k] → StepOK j.o.trendX j.o.minDiffX (mean i) (mean k)) ∧
      (BoxNextY f.boxes[i] f.boxes[k] → StepOK j.o.trendY j.o.minDiffY (mean i) (mean k)) := by
  have hcase : (strategy = "cart" ∧ f = j.fitCart) ∨ (strategy ≠ "cart" ∧ f = j.toJobC2D.fit) := by
    unfold runJobC2D at h
    split_ifs at h with h1 h2
    · exact Or.inl ⟨h1, (Except.ok.inj h).symm⟩
    · exact Or.inr ⟨h1, (Except.ok.inj h).symm⟩
  rcases hcase with ⟨h1, rfl⟩ | ⟨h1, rfl⟩
  · have hj : j.Succeeds := ⟨hw, ht, fun p => hv _ p, hs⟩
    obtain ⟨hl, hb⟩ := C93_limits_continuous j hj
    refine ⟨hb, fun i => (j.fitCart.rows[i]?).getD ⟨0, none, none⟩, fun i => if hi : i < j.fitCart.boxes.length then Spec.mean (j.binTargets i hi) else 0,
      fun i hi => ?_, fun i k hi hk => ⟨fun h' => absurd h1 h', fun hn => ?_⟩⟩
    · obtain ⟨r, hr, hne, hd, hm⟩ := C93_rows_continuous j hj hi
      obtain ⟨l1, l2, l3⟩ := hl i hi
      simp only [hr, Option.getD_some, hi, dif_pos, hm, hd.1]
      exact ⟨trivial, trivial, l1, l2, l3⟩
    · simp only [hi, hk, dif_pos]
      exact C93_neighbours_y_continuous j hj hi hk hn
  · have hj : j.toJobC2D.Succeeds := ⟨hw, fun p => hv _ p, hs⟩
    obtain ⟨hl, hb⟩ := C89_limits j.toJobC2D hj
    refine ⟨hb, fun i => (j.toJobC2D.fit.rows[i]?).getD ⟨0, none, none⟩, fun i => j.toJobC2D.binMean i,
      fun i hi => ?_, fun i k hi hk => ⟨fun _ => (C89_neighbours j.toJobC2D hj hi hk).1, (C89_neighbours j.toJobC2D hj hi hk).2⟩⟩
    obtain ⟨r, hr, hne, hd, hm⟩ := C88_rows j.toJobC2D hj hi
    obtain ⟨l1, l2, l3⟩ := hl i hi
    simp only [hr, Option.getD_some, hm, hd.1, JobC2D.binMean, hi, dif_pos]
    exact ⟨trivial, trivial, l1, l2, l3⟩

/-- C110: the table of a fit of `ContinuousOptimalBinning2D` with status OPTIMAL or FEASIBLE meets the arguments: the number of
bins, the records per bin (at least one), and the means of neighbouring bins follow `monotonic_trend_y` with `min_mean_diff_y`, with
`strategy="grid"` also `monotonic_trend_x` with `min_mean_diff_x`. -/
theorem C110_limits_continuous (p : Params2DC) (e : Ext2D α β ℚ) (he : Good2D e) {f : FittedC2D α β} (h : fitArgs2DC p e = .ok f)
    (hs : f.status = "OPTIMAL" ∨ f.status = "FEASIBLE") :
    Within p.minBins p.maxBins (f.boxes.length : ℕ) ∧
    ∃ row : ℕ → Row2C, ∃ mean : ℕ → ℚ, (∀ i < f.boxes.length, f.rows[i]? = some (row i) ∧ (row i).mean = some (mean i) ∧ 0 < (row i).cnt ∧
      (∀ q, p.minBinSize = some (.num q) → q * e.recs.length ≤ (row i).cnt) ∧
      (∀ q, p.maxBinSize = some (.num q) → ((row i).cnt : ℚ) < q * e.recs.length + 1)) ∧
    ∀ (i k : ℕ) (hi : i < f.boxes.length) (hk : k < f.boxes.length),
      (p.strategy = "grid" → BoxNextX f.boxes[i] f.boxes[k] → Moves p.trendX p.minMeanDiffX (mean i) (mean k)) ∧
      (BoxNextY f.boxes[i] f.boxes[k] → Moves p.trendY p.minMeanDiffY (mean i) (mean k)) := by
  have key : (runJobC2D p.strategy (p.jobCP e) = .ok f) ∨ (runJobC2D p.strategy (p.jobMIP e) = .ok f) := by
    unfold fitArgs2DC at h
    cases hc : check2D p.toParams2D with
    | error m => simp [hc] at h
    | ok u =>
      rw [hc] at h
      cases hg : p.gamma with
      | num g =>
        rw [hg] at h
        simp only at h
        split_ifs at h with hs'
        · exact Or.inl h
        · exact Or.inr h
      | _ => rw [hg] at h; cases h
  have fin : ∀ {row : ℕ → Row2C} {mean : ℕ → ℚ}, (∀ i < f.boxes.length, f.rows[i]? = some (row i) ∧ (row i).mean = some (mean i) ∧ 0 < (row i).cnt ∧
      (∀ q, p.minBinSize.map XQ.value = some q → q * e.recs.length ≤ (row i).cnt) ∧
      (∀ q, p.maxBinSize.map XQ.value = some q → ((row i).cnt : ℚ) < q * e.recs.length + 1)) →
      (∀ (i k : ℕ) (hi : i < f.boxes.length) (hk : k < f.boxes.length),
        (p.strategy ≠ "cart" → BoxNextX f.boxes[i] f.boxes[k] → StepOK p.opts.trendX p.opts.minDiffX (mean i) (mean k)) ∧
        (BoxNextY f.boxes[i] f.boxes[k] → StepOK p.opts.trendY p.opts.minDiffY (mean i) (mean k))) →
      ∃ row : ℕ → Row2C, ∃ mean : ℕ → ℚ, (∀ i < f.boxes.length, f.rows[i]? = some (row i) ∧ (row i).mean = some (mean i) ∧ 0 < (row i).cnt ∧
      (∀ q, p.minBinSize = some (.num q) → q * e.recs.length ≤ (row i).cnt) ∧
      (∀ q, p.maxBinSize = some (.num q) → ((row i).cnt : ℚ) < q * e.recs.length + 1)) ∧
      ∀ (i k : ℕ) (hi : i < f.boxes.length) (hk : k < f.boxes.length),
      (p.strategy = "grid" → BoxNextX f.boxes[i] f.boxes[k] → Moves p.trendX p.minMeanDiffX (mean i) (mean k)) ∧
      (BoxNextY f.boxes[i] f.boxes[k] → Moves p.trendY p.minMeanDiffY (mean i) (mean k)) := by
    intro row mean h1 h2
    refine ⟨row, mean, fun i hi => ?_, fun i k hi hk => ⟨fun hg hn => ?_, fun hn => ?_⟩⟩
    · obtain ⟨a1, a2, a3, a4, a5⟩ := h1 i hi
      exact ⟨a1, a2, a3, fun q hq => a4 q (by rw [hq]; rfl), fun q hq => a5 q (by rw [hq]; rfl)⟩
    · exact moves_of_step ((h2 i k hi hk).1 (by rw [hg]; decide) hn)
    · exact moves_of_step ((h2 i k hi hk).2 hn)
  rcases key with h' | h'
  · obtain ⟨hb, row, mean, h1, h2⟩ := runJobC2D_limits (j := p.jobCP e) he.prepared (he.tree _) he.cp h' hs
    exact ⟨hb, fin h1 h2⟩
  · obtain ⟨hb, row, mean, h1, h2⟩ := runJobC2D_limits (j := p.jobMIP e) he.prepared (he.tree _) he.mip h' hs
    exact ⟨hb, fin h1 h2⟩

end

/-! ### Concrete cases -/

/-- Without `gamma` a feasible program has an optimal solution over the reals too. -/
theorem exists_optimal_real {o : Opts2D} {p : Prog2D ℝ} (hg : p.gamma = false) (h : ∃ a, Feasible2D o p a) :
    ∃ a, (Answer2D.optimal a).Valid o p := by
  let V : Set ℝ := {v | ∃ a, Feasible2D o p a ∧ objective2D p a = v}
  have hfin : V.Finite := by
    let F : (Fin p.nRect → Fin 2) → ℝ := fun q =>
      ((List.range p.nRect).map fun i => p.c i * (if hi : i < p.nRect then ((q ⟨i, hi⟩ : ℕ) : ℝ) else 0)).sum
    refine (Set.finite_range F).subset ?_
    rintro v ⟨a, ha, rfl⟩
    refine ⟨fun i => if a.x i = 0 then 0 else 1, ?_⟩
    simp only [F, objective2D, hg, Bool.false_eq_true, if_false, sub_zero]
    congr 1
    refine List.map_congr_left fun i hi => ?_
    have hi' := List.mem_range.1 hi
    rw [dif_pos hi']
    rcases ha.dom.1 i hi' with h | h <;> simp [h]
  obtain ⟨a, ha⟩ := h
  obtain ⟨v, ⟨b, hb, rfl⟩, hmax⟩ := Set.exists_max_image V id hfin ⟨_, a, ha, rfl⟩
  exact ⟨b, hb, fun c hc => hmax _ ⟨c, hc, rfl⟩⟩

open Classical in
/-- A MIP solver which answers OPTIMAL whenever there is an optimal solution, and gives up otherwise. -/
noncomputable def idealMIP (o : Opts2D) (p : Prog2D ℝ) : Answer2D ℝ :=
  if h : ∃ a, (Answer2D.optimal a).Valid o p then .optimal h.choose else .failed "NOT_SOLVED"

theorem idealMIP_valid (o : Opts2D) (p : Prog2D ℝ) : (idealMIP o p).Valid o p := by
  unfold idealMIP
  split_ifs with h
  · exact h.choose_spec
  · exact ⟨by decide, by decide, fun h => absurd h (by decide)⟩

theorem idealMIP_optimal {o : Opts2D} {p : Prog2D ℝ} (hg : p.gamma = false) (h : ∃ a, Feasible2D o p a) :
    (idealMIP o p).status = "OPTIMAL" := by
  unfold idealMIP
  rw [dif_pos (exists_optimal_real hg h)]
  rfl

noncomputable def exExt2D : Ext2D ℕ ℕ Bool where
  dx := .numerical fun k => fin k
  dy := .categorical fun _ => [0, 1]
  scx := some [some 7]
  prebinX := fun _ => [fin 1]
  prebinY := fun _ => [fin 1]
  tree := fun _ => exCartTree
  solverCP := idealSolver
  solverMIP := idealMIP
  init := fun _ => 0
  initA := fun _ _ => 0
  recs := exRecs2D

theorem exExt2D_good : Good2D exExt2D where
  prepared := exSucceeds2D.1.1
  tree := fun _ => exCartTree_wellFormed
  cp := idealSolver_valid
  mip := idealMIP_valid

/-- `OptimalBinning2D(solver="mip", min_n_bins=2, min_bin_size=0.25, monotonic_trend_x="ascending", divergence="hellinger")`. -/
def exParams2D : Params2DB where
  solver := "mip"
  minBins := some 2
  minBinSize := some (.num (1 / 4))
  trendX := some "ascending"
  divergence := "hellinger"

theorem exParams2D_valid : ValidParams2DB exParams2D :=
  ((C110_checks_binary exParams2D).2.1 (by decide +kernel)).1 _ _ rfl rfl

theorem exParams2D_allowed : AllowedArgs2D exParams2D exExt2D exTiling2D := exAllowed2D

theorem exParams2D_fit : ∃ f, fitArgs2D exParams2D exExt2D = .ok f ∧ f.status = "OPTIMAL" := by
  obtain ⟨f, hf⟩ := (C110_returns exParams2D exExt2D exParams2D_valid).1 rfl
  refine ⟨f, hf, ?_⟩
  rcases (fitArgs2D_ok hf).2 with ⟨hc, -⟩ | ⟨-, h'⟩
  · exact absurd hc (by decide)
  · rcases runJob2D_ok h' with ⟨h1, -⟩ | ⟨-, rfl⟩
    · exact absurd h1 (by decide)
    · set j := (exParams2D.jobMIP exExt2D).toJob2D with hj
      have hA : j.Allowed exTiling2D := exParams2D_allowed
      obtain ⟨s, hs⟩ := exists_spread (fun b => b.total j.prepared.events + b.total j.prepared.nonevents)
        (tiling_nonempty (Nat.succ_pos _) (Nat.succ_pos _) hA.tiling)
      obtain ⟨a, ha, _⟩ := binary_complete (R := ℝ) (coef := j.coef) (gamma := j.gamma) (reg := j.reg) hA hs
      exact idealMIP_optimal (by rfl) ⟨a, ha⟩

/-- The hypotheses of `C110_limits`, `C110_trends` and `C110_optimal` hold together. -/
example : ∃ f, fitArgs2D exParams2D exExt2D = .ok f ∧ 2 ≤ f.boxes.length ∧ (∀ i < f.boxes.length, 3 ≤ f.count i) ∧
    gridDivergence exParams2D exExt2D exTiling2D ≤ tableDivergence2D exParams2D f := by
  obtain ⟨f, hf, hs⟩ := exParams2D_fit
  obtain ⟨h1, h2⟩ := C110_limits exParams2D exExt2D exExt2D_good hf (Or.inl hs)
  refine ⟨f, hf, ?_, fun i hi => ?_, C110_optimal exParams2D exExt2D exExt2D_good hf hs rfl rfl rfl exParams2D_allowed⟩
  · exact_mod_cast h2.1 2 rfl
  · have := (h1 i hi).2.2.1 (1 / 4) rfl
    have e : (exExt2D.recs.length : ℚ) = 12 := by rw [show exExt2D.recs.length = 12 from rfl]; norm_num
    rw [e] at this
    have h3 : ((3 : ℕ) : ℚ) ≤ ((f.count i : ℕ) : ℚ) := by push_cast; linarith
    exact_mod_cast h3

/-- The same arguments with `gamma=1` and `min_bin_n_event=100`: no rectangle has so many events, and `fit` raises
`ZeroDivisionError`; with `gamma=0` it returns. -/
def exParamsEmpty : Params2DB := { exParams2D with minEvent := some 100 }

theorem C110_gamma_raises : fitArgs2D { exParamsEmpty with gamma := .num 1 } exExt2D = .error "ZeroDivisionError" ∧
    ∃ f, fitArgs2D exParamsEmpty exExt2D = .ok f := by
  constructor
  · have hc : check2DB { exParamsEmpty with gamma := .num 1 } = .ok () := by decide +kernel
    unfold fitArgs2D
    rw [hc]
    have hz : (({ exParamsEmpty with gamma := .num 1 } : Params2DB).jobMIP exExt2D).gamma = true ∧
        (binaryProgram (({ exParamsEmpty with gamma := .num 1 } : Params2DB).jobMIP exExt2D).opts
          (({ exParamsEmpty with gamma := .num 1 } : Params2DB).jobMIP exExt2D).prepared.m
          (({ exParamsEmpty with gamma := .num 1 } : Params2DB).jobMIP exExt2D).prepared.n
          (({ exParamsEmpty with gamma := .num 1 } : Params2DB).jobMIP exExt2D).prepared.nonevents
          (({ exParamsEmpty with gamma := .num 1 } : Params2DB).jobMIP exExt2D).prepared.events
          (({ exParamsEmpty with gamma := .num 1 } : Params2DB).jobMIP exExt2D).coef
          (({ exParamsEmpty with gamma := .num 1 } : Params2DB).jobMIP exExt2D).gamma
          (({ exParamsEmpty with gamma := .num 1 } : Params2DB).jobMIP exExt2D).reg).1 = [] := by
      decide +kernel
    have run : runJob2D "grid" (({ exParamsEmpty with gamma := .num 1 } : Params2DB).jobMIP exExt2D) = .error "ZeroDivisionError" := by
      unfold runJob2D
      rw [if_neg (by decide), if_pos hz]
    exact run
  · have hc : check2DB exParamsEmpty = .ok () := by decide +kernel
    exact (C110_returns _ exExt2D (((C110_checks_binary _).2.1 hc).1 _ _ rfl rfl)).1 rfl

/-- A rejected call. -/
example : fitArgs2D { exParams2D with minBinSize := some (.num (3 / 5)) } exExt2D = .error "ValueError" := by
  unfold fitArgs2D
  rw [show check2DB { exParams2D with minBinSize := some (.num (3 / 5)) } = .error "ValueError" by decide +kernel]

end OptBinning
