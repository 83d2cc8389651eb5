import Verif.Lemmas.MulticlassSolver

/-!
# Properties C54, C55: the multiclass solver (`MulticlassOptimalBinning`, `solver="cp"` and `solver="mip"`)

`inp.cls c` are the counts of class `c` against all other classes, `o.trend c` is the trend requested for class `c`,
`solve inp.n ans` the pair (status, solution mask) returned by the solver class for the answer `ans` of the external solver.
-/
namespace OptBinning
open Finset Spec

/-- The binning returned for the answer `ans`. -/
abbrev MultiInput.sol (inp : MultiInput) (ans : SolverAnswer) : ℕ → Bool := solOf (solve inp.n ans).2

theorem multi_cp_master {o : MultiOpts} {inp : MultiInput} {ans : SolverAnswer} (hw : inp.Wf o)
    (hv : ans.Valid (acceptsMultiCP o inp) (objectiveMultiCP o inp)) (hs : Solved (solve inp.n ans))
    {c : ℕ} (hc : c < inp.classes) :
    Admissible (o.cls c) inp.n (inp.sol ans) (inp.cls c).ne (inp.cls c).ev (rate6 (inp.cls c)) ∧
    Separated inp.policy inp.n (inp.sol ans) (failsTest (inp.cls c)) ∧
    Separated .consecutive inp.n (inp.sol ans) (tooClose6 (inp.cls c)) := by
  obtain ⟨a, ha, hd⟩ := solved_diag hv hs
  obtain ⟨a', hx, -, ha'⟩ := (acceptsMultiCP_iff hw).1 ha c hc
  obtain ⟨hcw, hcn⟩ := hw.column hc
  have h1 := ha'.admissible hcw
  have h2 := ha'.separated hcw
  rw [hcn, hx] at h1 h2
  exact ⟨admissible_congr hd h1, separated_congr hd h2.1, separated_congr hd h2.2⟩

theorem multi_mip_master {o : MultiOpts} {inp : MultiInput} {ans : SolverAnswer} (hw : inp.Wf o)
    (hv : ans.Valid (acceptsMultiMIP o inp) (objectiveMultiMIP o inp)) (hs : Solved (solve inp.n ans))
    {c : ℕ} (hc : c < inp.classes) :
    Admissible (o.cls c) inp.n (inp.sol ans) (inp.cls c).ne (inp.cls c).ev
      (fun s e => (eventRate (inp.cls c).ne (inp.cls c).ev s e : ℝ)) ∧
    Separated inp.policy inp.n (inp.sol ans) (failsTest (inp.cls c)) ∧
    Separated .consecutive inp.n (inp.sol ans) (tooClose (inp.cls c)) := by
  obtain ⟨a, ha, hd⟩ := solved_diag hv hs
  obtain ⟨a', hx, -, ha'⟩ := (acceptsMultiMIP_iff hw).1 ha c hc
  obtain ⟨hcw, hcn⟩ := hw.column hc
  have h1 := ha'.admissible hcw
  have h2 := ha'.separated hcw
  rw [hcn, hx] at h1 h2
  exact ⟨admissible_congr hd h1, separated_congr hd h2.1, separated_congr hd h2.2⟩

/-! ## C54 -/

/-- C54, CP: a solved multiclass problem returns a partition into consecutive groups which respects `min_n_bins`,
`max_n_bins` and the fixed user splits. -/
theorem C54_limits_cp {o : MultiOpts} {inp : MultiInput} {ans : SolverAnswer} (hw : inp.Wf o)
    (hv : ans.Valid (acceptsMultiCP o inp) (objectiveMultiCP o inp)) (hs : Solved (solve inp.n ans)) :
    IsBinning inp.n (inp.sol ans) ∧
    (∀ lo, o.minBins = some lo → lo ≤ numBins inp.n (inp.sol ans)) ∧
    (∀ hi, o.maxBins = some hi → (numBins inp.n (inp.sol ans) : ℤ) ≤ hi) ∧
    (∀ f, o.fixed = some f → ∀ i, i + 1 < inp.n → f i = true → inp.sol ans i = true) := by
  have h := (multi_cp_master hw hv hs hw.some_class).1
  exact ⟨h.binning, h.minBins, h.maxBins, h.fixed⟩

/-- C54, MIP. -/
theorem C54_limits_mip {o : MultiOpts} {inp : MultiInput} {ans : SolverAnswer} (hw : inp.Wf o)
    (hv : ans.Valid (acceptsMultiMIP o inp) (objectiveMultiMIP o inp)) (hs : Solved (solve inp.n ans)) :
    IsBinning inp.n (inp.sol ans) ∧
    (∀ lo, o.minBins = some lo → lo ≤ numBins inp.n (inp.sol ans)) ∧
    (∀ hi, o.maxBins = some hi → (numBins inp.n (inp.sol ans) : ℤ) ≤ hi) ∧
    (∀ f, o.fixed = some f → ∀ i, i + 1 < inp.n → f i = true → inp.sol ans i = true) := by
  have h := (multi_mip_master hw hv hs hw.some_class).1
  exact ⟨h.binning, h.minBins, h.maxBins, h.fixed⟩

/-- C54, CP: the trend requested for a class ("ascending", "descending", "peak" or "valley") holds for the rates of that
class at precision 1e-6, simultaneously for all classes. -/
theorem C54_trend_cp_partial {o : MultiOpts} {inp : MultiInput} {ans : SolverAnswer} (hw : inp.Wf o)
    (hv : ans.Valid (acceptsMultiCP o inp) (objectiveMultiCP o inp)) (hs : Solved (solve inp.n ans))
    {c : ℕ} (hc : c < inp.classes)
    (ht : o.trend c = .ascending ∨ o.trend c = .descending ∨ o.trend c = .peak ∨ o.trend c = .valley) :
    TrendHolds inp.n (inp.sol ans) (fun s e => ⌊eventRate (inp.cls c).ne (inp.cls c).ev s e * 1000000⌋) (o.trend c) := by
  have h : TrendHolds inp.n (inp.sol ans) (fun s e => ⌊eventRate (inp.cls c).ne (inp.cls c).ev s e * 1000000⌋)
      (o.trend c).enforced := (multi_cp_master hw hv hs hc).1.trend
  rcases ht with ht | ht | ht | ht <;> rw [ht] at h ⊢ <;> exact h

/-- C54, MIP: the trend requested for a class ("ascending", "descending", "peak" or "valley") holds exactly. -/
theorem C54_trend_mip_partial {o : MultiOpts} {inp : MultiInput} {ans : SolverAnswer} (hw : inp.Wf o)
    (hv : ans.Valid (acceptsMultiMIP o inp) (objectiveMultiMIP o inp)) (hs : Solved (solve inp.n ans))
    {c : ℕ} (hc : c < inp.classes)
    (ht : o.trend c = .ascending ∨ o.trend c = .descending ∨ o.trend c = .peak ∨ o.trend c = .valley) :
    TrendHolds inp.n (inp.sol ans) (fun s e => (eventRate (inp.cls c).ne (inp.cls c).ev s e : ℝ)) (o.trend c) := by
  have h := (multi_mip_master hw hv hs hc).1.trend
  rcases ht with ht | ht | ht | ht <;> simpa only [MultiOpts.cls, ht, Trend.enforced] using h

/-- C54: with a proportion test `t`, no two consecutive bins (policy "consecutive") / no two bins (policy "all") fail the
test for any class against the rest. -/
theorem C54_max_pvalue {o : MultiOpts} {inp : MultiInput} {ans : SolverAnswer} (hw : inp.Wf o)
    (hv : ans.Valid (acceptsMultiCP o inp) (objectiveMultiCP o inp) ∨
      ans.Valid (acceptsMultiMIP o inp) (objectiveMultiMIP o inp)) (hs : Solved (solve inp.n ans))
    {c : ℕ} (hc : c < inp.classes) {t : ℕ → ℕ → ℕ → ℕ → Bool} (ht : inp.test = some t)
    {s e s' e' : ℕ} (hb : IsBin inp.n (inp.sol ans) s e) (hb' : IsBin inp.n (inp.sol ans) s' e') (hlt : e < s')
    (hpol : inp.policy = .consecutive → s' = e + 1) :
    t (binTotal (inp.cls c).ev s e).toNat (binTotal (inp.cls c).ne s e).toNat (binTotal (inp.cls c).ev s' e').toNat
      (binTotal (inp.cls c).ne s' e').toNat = false := by
  have : ¬ failsTest (inp.cls c) s e s' e' := by
    rcases hv with hv | hv
    · exact (multi_cp_master hw hv hs hc).2.1 s e s' e' hb hb' hlt hpol
    · exact (multi_mip_master hw hv hs hc).2.1 s e s' e' hb hb' hlt hpol
  by_contra hcon
  exact this ⟨t, ht, by simpa using hcon⟩

/-- C54, MIP: for every class, consecutive bins differ by at least `min_event_rate_diff`. -/
theorem C54_min_event_rate_diff_mip {o : MultiOpts} {inp : MultiInput} {ans : SolverAnswer} (hw : inp.Wf o)
    (hv : ans.Valid (acceptsMultiMIP o inp) (objectiveMultiMIP o inp)) (hs : Solved (solve inp.n ans))
    {c : ℕ} (hc : c < inp.classes) {s e e' : ℕ} (hb : IsBin inp.n (inp.sol ans) s e)
    (hb' : IsBin inp.n (inp.sol ans) (e + 1) e') :
    inp.minDiff ≤ |eventRate (inp.cls c).ne (inp.cls c).ev s e - eventRate (inp.cls c).ne (inp.cls c).ev (e + 1) e'| := by
  rcases le_or_gt inp.minDiff 0 with h0 | h0
  · exact le_trans h0 (abs_nonneg _)
  · have := (multi_mip_master hw hv hs hc).2.2 s e (e + 1) e' hb hb' (by omega) (fun _ => rfl)
    unfold tooClose at this
    push Not at this
    exact this h0

/-- C54, CP: for every class, consecutive bins differ by more than `min_event_rate_diff - 2e-6`. -/
theorem C54_min_event_rate_diff_cp {o : MultiOpts} {inp : MultiInput} {ans : SolverAnswer} (hw : inp.Wf o)
    (hv : ans.Valid (acceptsMultiCP o inp) (objectiveMultiCP o inp)) (hs : Solved (solve inp.n ans))
    (hpos : 0 < inp.minDiff) {c : ℕ} (hc : c < inp.classes) {s e e' : ℕ} (hb : IsBin inp.n (inp.sol ans) s e)
    (hb' : IsBin inp.n (inp.sol ans) (e + 1) e') :
    inp.minDiff - 2 / 1000000 <
      |eventRate (inp.cls c).ne (inp.cls c).ev s e - eventRate (inp.cls c).ne (inp.cls c).ev (e + 1) e'| := by
  have := (multi_cp_master hw hv hs hc).2.2 s e (e + 1) e' hb hb' (by omega) (fun _ => rfl)
  unfold tooClose6 at this
  push Not at this
  exact floor_abs (this hpos)

theorem MultiInput.Wf.map {inp : MultiInput} {o : MultiOpts} (h : inp.Wf o) (f : Trend → Trend) :
    inp.Wf { o with trends := o.trends.map f } :=
  { h with cls := by simpa using h.cls }

/-- C54, finding: the trends "peak_heuristic", "valley_heuristic", "concave" and "convex" have no effect: the accepted
assignments are those of the problem in which these trends are replaced by `None`. -/
theorem C54_other_trends_ignored (o : MultiOpts) (inp : MultiInput) (a : Assign) :
    (acceptsMultiCP { o with trends := o.trends.map Trend.enforced } inp a ↔ acceptsMultiCP o inp a) ∧
    (acceptsMultiMIP { o with trends := o.trends.map Trend.enforced } inp a ↔ acceptsMultiMIP o inp a) := by
  have ht : ∀ c, MultiOpts.trend { o with trends := o.trends.map Trend.enforced } c = (o.trend c).enforced := by
    intro c
    unfold MultiOpts.trend
    by_cases hc : c < o.trends.length
    · simp [List.getD, hc]
    · simp [List.getD, hc, Trend.enforced]
  have he : ∀ {R : Type} [CommRing R] [LinearOrder R] (z : Bool) (K M : R) (n : ℕ) (D : ℕ → ℕ → R) (x : ℕ → ℕ → ℤ)
      (t : Trend), multiTrend z K M n D x t.enforced = multiTrend z K M n D x t := by
    intro R _ _ z K M n D x t
    cases t <;> rfl
  constructor
  · unfold acceptsMultiCP
    simp only [ht, he, List.length_map]
    rfl
  · unfold acceptsMultiMIP
    simp only [ht, he, List.length_map]
    rfl

/-! ## C55 -/

/-- The constraints lose no binning: no class has preprocessing cuts. -/
def MultiNoCuts (o : MultiOpts) (inp : MultiInput) : Prop :=
  (∀ c < inp.classes, (o.trend c).enforced = .unconstrained ∨ o.trend c = .peak ∨ o.trend c = .valley) ∨ inp.minDiff ≠ 0

theorem MultiNoCuts.cls {o : MultiOpts} {inp : MultiInput} (h : MultiNoCuts o inp) {c : ℕ} (hc : c < inp.classes) :
    NoShortcuts (o.cls c) (inp.cls c) := by
  refine ⟨?_, ?_, ?_⟩
  · rcases h with h | h
    · refine Or.inl ?_
      rcases h c hc with h | h | h
      · exact Or.inl h
      · exact Or.inr (Or.inl (by simp [MultiOpts.cls, h, Trend.enforced]))
      · exact Or.inr (Or.inr (by simp [MultiOpts.cls, h, Trend.enforced]))
    · exact Or.inr h
  · cases ht : o.trend c <;> simp [MultiOpts.cls, ht, Trend.enforced]
  · intro tc h
    cases ht : o.trend c <;> simp [MultiOpts.cls, ht, Trend.enforced] at h

theorem feasibleCore.with_d {R : Type*} [CommRing R] [LinearOrder R] {o : Opts} {M : R} {dat : Data R} {a a0 : Assign}
    (h : feasibleCore o M dat a) (hx : a0.x = a.x)
    (h1 : ∀ mn mx, o.minBins = some mn → o.maxBins = some mx → 0 ≤ a0.d ∧ a0.d ≤ mx - mn)
    (h2 : minMaxBins o dat.n a0.x a0.d) : feasibleCore o M dat { a with d := a0.d } := by
  obtain ⟨⟨d1, d2, d3, d4⟩, b2, b3, b4, b5, b6, b7, b8, b9, b10⟩ := h
  rw [hx] at h2
  refine ⟨⟨d1, d2, h1, d4⟩, b2, b3, h2, b5, b6, b7, ?_, b9, b10⟩
  unfold monotonicity at b8 ⊢
  cases ht : o.trend <;> simp only [ht] at b8 ⊢ <;> exact b8

/-- C55, CP: without cuts, the binnings the solver can return are exactly those which are admissible for every class. -/
theorem C55_exact_cp {o : MultiOpts} {inp : MultiInput} (hw : inp.Wf o) (hcut : MultiNoCuts o inp) (sol : ℕ → Bool) :
    (∃ a, acceptsMultiCP o inp a ∧ ∀ k < inp.n, (a.x k k != 0) = sol k) ↔
      ∀ c < inp.classes,
        Admissible (o.cls c) inp.n sol (inp.cls c).ne (inp.cls c).ev
          (fun s e => ⌊eventRate (inp.cls c).ne (inp.cls c).ev s e * 1000000⌋) ∧
        Separated inp.policy inp.n sol (failsTest (inp.cls c)) ∧
        Separated .consecutive inp.n sol (tooClose6 (inp.cls c)) := by
  constructor
  · rintro ⟨a, ha, hd⟩ c hc
    obtain ⟨a', hx, -, ha'⟩ := (acceptsMultiCP_iff hw).1 ha c hc
    obtain ⟨hcw, hcn⟩ := hw.column hc
    have h1 := ha'.admissible hcw
    have h2 := ha'.separated hcw
    rw [hcn, hx] at h1 h2
    exact ⟨admissible_congr hd h1, separated_congr hd h2.1, separated_congr hd h2.2⟩
  · intro h
    have get : ∀ c < inp.classes, ∃ a, acceptsCP (o.cls c) (inp.cls c) a ∧ a.x = encode sol := by
      intro c hc
      obtain ⟨hcw, hcn⟩ := hw.column hc
      obtain ⟨h1, h2, h3⟩ := h c hc
      rw [← hcn] at h1 h2 h3
      exact acceptsCP.complete_encode hcw (hcut.cls hc) h1 h2 h3
    obtain ⟨a0, ha0, hx0⟩ := get 0 hw.some_class
    refine ⟨a0, (acceptsMultiCP_iff hw).2 fun c hc => ?_, fun k _ => ?_⟩
    · obtain ⟨a, ha, hx⟩ := get c hc
      have hn0 : (inp.cls 0).n = (inp.cls c).n := by rw [(hw.column hw.some_class).2, (hw.column hc).2]
      refine ⟨{ a with d := a0.d }, by rw [hx0]; exact hx, rfl, ?_, ha.2.1, ha.2.2⟩
      refine feasibleCore.with_d ha.1 (by rw [hx0, hx]) ha0.1.1.2.2.1 ?_
      have := ha0.1.2.2.2.1
      change minMaxBins _ (inp.cls 0).n _ _ at this
      rw [hn0] at this
      exact this
    · have := congrFun (encode_diag sol) k
      rw [hx0]; exact this

/-- C55, MIP. -/
theorem C55_exact_mip {o : MultiOpts} {inp : MultiInput} (hw : inp.Wf o) (hcut : MultiNoCuts o inp) (sol : ℕ → Bool) :
    (∃ a, acceptsMultiMIP o inp a ∧ ∀ k < inp.n, (a.x k k != 0) = sol k) ↔
      ∀ c < inp.classes,
        Admissible (o.cls c) inp.n sol (inp.cls c).ne (inp.cls c).ev
          (fun s e => (eventRate (inp.cls c).ne (inp.cls c).ev s e : ℝ)) ∧
        Separated inp.policy inp.n sol (failsTest (inp.cls c)) ∧
        Separated .consecutive inp.n sol (tooClose (inp.cls c)) := by
  constructor
  · rintro ⟨a, ha, hd⟩ c hc
    obtain ⟨a', hx, -, ha'⟩ := (acceptsMultiMIP_iff hw).1 ha c hc
    obtain ⟨hcw, hcn⟩ := hw.column hc
    have h1 := ha'.admissible hcw
    have h2 := ha'.separated hcw
    rw [hcn, hx] at h1 h2
    exact ⟨admissible_congr hd h1, separated_congr hd h2.1, separated_congr hd h2.2⟩
  · intro h
    have get : ∀ c < inp.classes, ∃ a, acceptsMIP (o.cls c) (inp.cls c) a ∧ a.x = encode sol := by
      intro c hc
      obtain ⟨hcw, hcn⟩ := hw.column hc
      obtain ⟨h1, h2, h3⟩ := h c hc
      rw [← hcn] at h1 h2 h3
      exact acceptsMIP.complete_encode hcw (hcut.cls hc) h1 h2 h3
    obtain ⟨a0, ha0, hx0⟩ := get 0 hw.some_class
    refine ⟨a0, (acceptsMultiMIP_iff hw).2 fun c hc => ?_, fun k _ => ?_⟩
    · obtain ⟨a, ha, hx⟩ := get c hc
      have hn0 : (inp.cls 0).n = (inp.cls c).n := by rw [(hw.column hw.some_class).2, (hw.column hc).2]
      refine ⟨{ a with d := a0.d }, by rw [hx0]; exact hx, rfl, ?_, ha.2.1, ha.2.2⟩
      refine feasibleCore.with_d ha.1 (by rw [hx0, hx]) ha0.1.1.2.2.1 ?_
      have := ha0.1.2.2.2.1
      change minMaxBins _ (inp.cls 0).n _ _ at this
      rw [hn0] at this
      exact this
    · have := congrFun (encode_diag sol) k
      rw [hx0]; exact this

/-- Sum over the classes of the information value of class `c` against the rest, for the bins of `sol`. -/
noncomputable def multiIV (inp : MultiInput) (sol : ℕ → Bool) : ℝ :=
  ∑ c ∈ range inp.classes, totalOverBins inp.n sol (binDivergence jeffrey inp.n (inp.cls c).ne (inp.cls c).ev)

/-- C55, MIP: the objective of every accepted assignment is the sum over the classes of the information value of its
bins. -/
theorem C55_objective_mip {o : MultiOpts} {inp : MultiInput} {a : Assign} (hw : inp.Wf o) (h : acceptsMultiMIP o inp a) :
    objectiveMultiMIP o inp a = multiIV inp (fun k => a.x k k != 0) := by
  unfold objectiveMultiMIP multiIV
  rw [hw.cls]
  refine sum_congr rfl fun c hc => ?_
  have hc' : c < inp.classes := mem_range.1 hc
  obtain ⟨hcw, hcn⟩ := hw.column hc'
  obtain ⟨a', hx, -, ha'⟩ := (acceptsMultiMIP_iff hw).1 h c hc'
  have := C17_objective_mip hcw ha' rfl 0
  unfold objectiveMIP at this
  rw [hx] at this
  simp only [MultiOpts.cls, Bool.false_eq_true, if_false, sub_zero] at this
  rw [this, hcn]
  rfl

/-- C55, CP: the same with every contribution scaled by 10^6 and truncated. -/
theorem C55_objective_cp {o : MultiOpts} {inp : MultiInput} {a : Assign} (hw : inp.Wf o) (h : acceptsMultiCP o inp a) :
    objectiveMultiCP o inp a = ∑ c ∈ range inp.classes, totalOverBins inp.n (fun k => a.x k k != 0)
      (fun s e => truncReal (binDivergence jeffrey inp.n (inp.cls c).ne (inp.cls c).ev s e * 1000000)) := by
  unfold objectiveMultiCP
  rw [hw.cls]
  refine sum_congr rfl fun c hc => ?_
  have hc' : c < inp.classes := mem_range.1 hc
  obtain ⟨hcw, hcn⟩ := hw.column hc'
  obtain ⟨a', hx, -, ha'⟩ := (acceptsMultiCP_iff hw).1 h c hc'
  have := C17_objective_cp hcw ha' rfl 0
  unfold objectiveCP at this
  rw [hx] at this
  simp only [MultiOpts.cls, Bool.false_eq_true, if_false, sub_zero] at this
  rw [this, hcn]
  rfl

theorem totalOverBins_sol {R : Type*} [AddCommMonoid R] {n : ℕ} {sol sol' : ℕ → Bool} (h : ∀ k < n, sol k = sol' k)
    (v : ℕ → ℕ → R) : totalOverBins n sol v = totalOverBins n sol' v := by
  unfold totalOverBins
  rw [binsOf_congr h]

/-- C55, MIP: without cuts, status OPTIMAL means that no binning admissible for all classes has a larger total information
value. -/
theorem C55_optimal_mip {o : MultiOpts} {inp : MultiInput} {ans : SolverAnswer} (hw : inp.Wf o) (hcut : MultiNoCuts o inp)
    (hv : ans.Valid (acceptsMultiMIP o inp) (objectiveMultiMIP o inp)) (hs : (solve inp.n ans).1 = "OPTIMAL")
    (sol : ℕ → Bool)
    (h : ∀ c < inp.classes, Admissible (o.cls c) inp.n sol (inp.cls c).ne (inp.cls c).ev
          (fun s e => (eventRate (inp.cls c).ne (inp.cls c).ev s e : ℝ)) ∧
        Separated inp.policy inp.n sol (failsTest (inp.cls c)) ∧
        Separated .consecutive inp.n sol (tooClose (inp.cls c))) :
    multiIV inp sol ≤ multiIV inp (inp.sol ans) := by
  obtain ⟨a', ha', hd'⟩ := (C55_exact_mip hw hcut sol).2 h
  cases ans with
  | optimal a =>
    have := hv.2 a' ha'
    rw [C55_objective_mip hw hv.1, C55_objective_mip hw ha'] at this
    unfold multiIV at this ⊢
    have e1 : ∀ c, totalOverBins inp.n (fun k => a'.x k k != 0) (binDivergence jeffrey inp.n (inp.cls c).ne (inp.cls c).ev)
        = totalOverBins inp.n sol (binDivergence jeffrey inp.n (inp.cls c).ne (inp.cls c).ev) :=
      fun c => totalOverBins_sol hd' _
    have e2 : ∀ c, totalOverBins inp.n (inp.sol (.optimal a)) (binDivergence jeffrey inp.n (inp.cls c).ne (inp.cls c).ev)
        = totalOverBins inp.n (fun k => a.x k k != 0) (binDivergence jeffrey inp.n (inp.cls c).ne (inp.cls c).ev) :=
      fun c => totalOverBins_sol (fun k hk => solOf_map a.x hk) _
    simp only [e1] at this
    simp only [e2]
    exact this
  | feasible a => simp [solve] at hs
  | other s => exact absurd hs hv.1

/-- C55, CP: the same at the precision of the CP model. -/
theorem C55_optimal_cp {o : MultiOpts} {inp : MultiInput} {ans : SolverAnswer} (hw : inp.Wf o) (hcut : MultiNoCuts o inp)
    (hv : ans.Valid (acceptsMultiCP o inp) (objectiveMultiCP o inp)) (hs : (solve inp.n ans).1 = "OPTIMAL")
    (sol : ℕ → Bool)
    (h : ∀ c < inp.classes, Admissible (o.cls c) inp.n sol (inp.cls c).ne (inp.cls c).ev
          (fun s e => ⌊eventRate (inp.cls c).ne (inp.cls c).ev s e * 1000000⌋) ∧
        Separated inp.policy inp.n sol (failsTest (inp.cls c)) ∧
        Separated .consecutive inp.n sol (tooClose6 (inp.cls c))) :
    ∑ c ∈ range inp.classes, totalOverBins inp.n sol
        (fun s e => truncReal (binDivergence jeffrey inp.n (inp.cls c).ne (inp.cls c).ev s e * 1000000)) ≤
      ∑ c ∈ range inp.classes, totalOverBins inp.n (inp.sol ans)
        (fun s e => truncReal (binDivergence jeffrey inp.n (inp.cls c).ne (inp.cls c).ev s e * 1000000)) := by
  obtain ⟨a', ha', hd'⟩ := (C55_exact_cp hw hcut sol).2 h
  cases ans with
  | optimal a =>
    have := hv.2 a' ha'
    rw [C55_objective_cp hw hv.1, C55_objective_cp hw ha'] at this
    have e1 : ∀ (v : ℕ → ℕ → ℤ), totalOverBins inp.n (fun k => a'.x k k != 0) v = totalOverBins inp.n sol v :=
      fun v => totalOverBins_sol hd' v
    have e2 : ∀ (v : ℕ → ℕ → ℤ), totalOverBins inp.n (inp.sol (.optimal a)) v =
        totalOverBins inp.n (fun k => a.x k k != 0) v := fun v => totalOverBins_sol (fun k hk => solOf_map a.x hk) v
    simp only [e1] at this
    simp only [e2]
    exact this
  | feasible a => simp [solve] at hs
  | other s => exact absurd hs hv.1

/-! ## Non-vacuity and a counterexample -/

/-- Three pre-bins of 10 records, classes 0, 1, 2 with counts (2,3,5), (5,2,3), (3,5,2). -/
def exMulti : MultiInput where
  n := 3
  event := [[2, 5, 3], [3, 2, 5], [5, 3, 2]]
  nonevent := [[8, 5, 7], [7, 8, 5], [5, 7, 8]]

/-- Class 0 peak, class 1 valley, class 2 descending, two to three bins. -/
def exMultiOpts (ts : List Trend) : MultiOpts where
  trends := ts
  minBins := some 2
  maxBins := some 3

theorem exMulti_wf (ts : List Trend) (h : ts.length = 3) : exMulti.Wf (exMultiOpts ts) :=
  ⟨by decide, h, by decide, rfl, by decide, by decide⟩

/-- Every pre-bin its own bin. -/
theorem exAll_bins {s e : ℕ} : IsBin 3 (fun _ => true) s e ↔ s = e ∧ e < 3 := by
  constructor
  · rintro ⟨h1, h2, h3, h4, h5⟩
    refine ⟨?_, h2⟩
    by_contra hne
    have := h5 s le_rfl (by omega)
    simp at this
  · rintro ⟨rfl, h⟩
    exact ⟨le_rfl, h, rfl, Or.inr rfl, fun k h1 h2 => by omega⟩

/-- The binning with three bins is admissible for every class with the trends peak, valley, none. -/
theorem exMulti_adm : ∀ c < exMulti.classes,
    Admissible ((exMultiOpts [.peak, .valley, .concave]).cls c) exMulti.n (fun _ => true) (exMulti.cls c).ne (exMulti.cls c).ev
      (fun s e => ⌊eventRate (exMulti.cls c).ne (exMulti.cls c).ev s e * 1000000⌋) ∧
    Separated exMulti.policy exMulti.n (fun _ => true) (failsTest (exMulti.cls c)) ∧
    Separated .consecutive exMulti.n (fun _ => true) (tooClose6 (exMulti.cls c)) := by
  have hnb : numBins 3 (fun _ => true) = 3 := by decide
  intro c hc
  refine ⟨⟨⟨by decide, rfl⟩, ?_, ?_, ?_, ?_, ?_, ?_, ?_, ?_, ?_, ?_⟩, ?_, ?_⟩
  · intro b hb
    change some 2 = some b at hb
    change b ≤ ((numBins 3 (fun _ => true) : ℕ) : ℤ)
    rw [hnb]; cases hb; norm_num
  · intro b hb
    change some 3 = some b at hb
    change ((numBins 3 (fun _ => true) : ℕ) : ℤ) ≤ b
    rw [hnb]; cases hb; norm_num
  · intro s e _ b hb; cases hb
  · intro s e _ b hb; cases hb
  · intro s e _ b hb; cases hb
  · intro s e _ b hb; cases hb
  · intro s e _ b hb; cases hb
  · intro s e _ b hb; cases hb
  · have hc3 : c < 3 := hc
    have rr : ∀ k < 3, eventRate (exMulti.cls c).ne (exMulti.cls c).ev k k =
        (((exMulti.event.getD c []).getD k 0 : ℕ) : ℚ) / 10 := by
      intro k hk
      unfold eventRate binTotal
      rw [Finset.Icc_self, Finset.sum_singleton, Finset.sum_singleton]
      change ((((exMulti.event.getD c []).getD k 0 : ℕ) : ℤ) : ℚ) /
        (((((exMulti.nonevent.getD c []).getD k 0 : ℕ) : ℤ) : ℚ) + ((((exMulti.event.getD c []).getD k 0 : ℕ) : ℤ) : ℚ)) = _
      have h1 : c = 0 ∨ c = 1 ∨ c = 2 := by omega
      have h2 : k = 0 ∨ k = 1 ∨ k = 2 := by omega
      rcases h1 with rfl | rfl | rfl <;> rcases h2 with rfl | rfl | rfl <;> norm_num [exMulti]
    have h1 : c = 0 ∨ c = 1 ∨ c = 2 := by omega
    rcases h1 with rfl | rfl | rfl
    · refine ⟨2, ?_, ?_⟩
      · intro s e s' e' hb hb' hlt he he'
        obtain ⟨rfl, h3⟩ := exAll_bins.1 hb
        obtain ⟨rfl, h4⟩ := exAll_bins.1 hb'
        beta_reduce
        rw [rr _ h3, rr _ h4]
        have : s = 0 ∧ s' = 1 := by omega
        obtain ⟨rfl, rfl⟩ := this
        exact Int.floor_le_floor (by norm_num [exMulti])
      · intro s e s' e' hb hb' hlt he he'
        obtain ⟨rfl, h3⟩ := exAll_bins.1 hb
        obtain ⟨rfl, h4⟩ := exAll_bins.1 hb'
        omega
    · refine ⟨1, ?_, ?_⟩
      · intro s e s' e' hb hb' hlt he he'
        omega
      · intro s e s' e' hb hb' hlt he he'
        obtain ⟨rfl, h3⟩ := exAll_bins.1 hb
        obtain ⟨rfl, h4⟩ := exAll_bins.1 hb'
        beta_reduce
        rw [rr _ h3, rr _ h4]
        have : s = 1 ∧ s' = 2 := by omega
        obtain ⟨rfl, rfl⟩ := this
        exact Int.floor_le_floor (by norm_num [exMulti])
    · trivial
  · intro f hf; cases hf
  · rintro s e s' e' - - - - ⟨t, ht, -⟩
    cases ht
  · rintro s e s' e' - - - - ⟨h0, -⟩
    exact absurd h0 (by change ¬ ((0 : ℚ) < 0); norm_num)

/-- Non-vacuity of C54, C55: a valid solver answer with three bins for the trends peak, valley, none. -/
theorem exMulti_answer : ∃ ans : SolverAnswer,
    ans.Valid (acceptsMultiCP (exMultiOpts [.peak, .valley, .concave]) exMulti)
      (objectiveMultiCP (exMultiOpts [.peak, .valley, .concave]) exMulti) ∧
    Solved (solve exMulti.n ans) ∧ ∀ k < 3, exMulti.sol ans k = true := by
  obtain ⟨a, ha, hd⟩ := (C55_exact_cp (exMulti_wf _ rfl) (Or.inl (by
    intro c hc
    have hc3 : c < 3 := hc
    have h1 : c = 0 ∨ c = 1 ∨ c = 2 := by omega
    rcases h1 with rfl | rfl | rfl <;> simp [exMultiOpts, MultiOpts.trend, Trend.enforced]))
    (fun _ => true)).2 exMulti_adm
  refine ⟨.feasible a, ha, Or.inr rfl, fun k hk => ?_⟩
  exact (solOf_map a.x hk).trans (hd k hk)

/-- C54, finding: a valid answer in which the requested trend "concave" of a class is violated: class 2 has the rates 0.5,
0.3, 0.2. -/
theorem C54_concave_violated : ∃ ans : SolverAnswer,
    ans.Valid (acceptsMultiCP (exMultiOpts [.peak, .valley, .concave]) exMulti)
      (objectiveMultiCP (exMultiOpts [.peak, .valley, .concave]) exMulti) ∧ Solved (solve exMulti.n ans) ∧
    ¬ TrendHolds exMulti.n (exMulti.sol ans) (eventRate (exMulti.cls 2).ne (exMulti.cls 2).ev) .concave := by
  obtain ⟨ans, h1, h2, h3⟩ := exMulti_answer
  refine ⟨ans, h1, h2, fun h => ?_⟩
  have hb : ∀ k < 3, IsBin exMulti.n (exMulti.sol ans) k k := fun k hk =>
    (isBin_congr (n := 3) (sol := exMulti.sol ans) (sol' := fun _ => true) h3 k k).2 (exAll_bins.2 ⟨rfl, hk⟩)
  have := h 0 0 1 1 2 2 (hb 0 (by omega)) (hb 1 (by omega)) (hb 2 (by omega)) (by omega) (by omega)
  unfold eventRate binTotal at this
  simp only [Finset.Icc_self, Finset.sum_singleton] at this
  norm_num [exMulti, MultiInput.cls, BinaryInput.ev, BinaryInput.ne] at this

end OptBinning
