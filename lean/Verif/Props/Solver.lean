import Verif.Lemmas.Refine

/-!
# Properties C08–C19: the constraint solver formulation (binary target, `solver="cp"` and `solver="mip"`)

Vocabulary: `inp : BinaryInput` are the pre-bin counts and statistical options handed to the solver, `o : Opts` the limits
and the trend, `ans` what the external solver answered, `solve n ans` the pair (status, solution mask) returned by the
optbinning solver class.  `Valid` says that the external solver respects the constraints it was given.
-/
namespace OptBinning
open Finset Spec

/-- The returned status claims a solution. -/
def Solved (r : String × List Bool) : Prop := r.1 = "OPTIMAL" ∨ r.1 = "FEASIBLE"

theorem solved_diag {R : Type*} [LE R] {ok : Assign → Prop} {obj : Assign → R} {ans : SolverAnswer} {n : ℕ}
    (hv : ans.Valid ok obj) (hs : Solved (solve n ans)) :
    ∃ a, ok a ∧ ∀ k < n, diag a.x k = solOf (solve n ans).2 k := by
  cases ans with
  | optimal a => exact ⟨a, hv.1, fun k hk => (solOf_map a.x hk).symm⟩
  | feasible a => exact ⟨a, hv, fun k hk => (solOf_map a.x hk).symm⟩
  | other s => rcases hs with h | h <;> simp only [solve] at h
               · exact absurd h hv.1
               · exact absurd h hv.2

/-- Everything the solver guarantees, CP. -/
theorem cp_master {o : Opts} {inp : BinaryInput} {reg : ℤ} {ans : SolverAnswer} (hw : inp.Wf)
    (hv : ans.Valid (acceptsCP o inp) (objectiveCP o inp reg)) (hs : Solved (solve inp.n ans)) :
    Admissible o inp.n (solOf (solve inp.n ans).2) inp.ne inp.ev (rate6 inp) ∧
    Separated inp.policy inp.n (solOf (solve inp.n ans).2) (failsTest inp) ∧
    Separated .consecutive inp.n (solOf (solve inp.n ans).2) (tooClose6 inp) := by
  obtain ⟨a, ha, hd⟩ := solved_diag hv hs
  exact ⟨admissible_congr hd (ha.admissible hw), separated_congr hd (ha.separated hw).1,
    separated_congr hd (ha.separated hw).2⟩

/-- Everything the solver guarantees, MIP. -/
theorem mip_master {o : Opts} {inp : BinaryInput} {reg : ℝ} {ans : SolverAnswer} (hw : inp.Wf)
    (hv : ans.Valid (acceptsMIP o inp) (objectiveMIP o inp reg)) (hs : Solved (solve inp.n ans)) :
    Admissible o inp.n (solOf (solve inp.n ans).2) inp.ne inp.ev (fun s e => (eventRate inp.ne inp.ev s e : ℝ)) ∧
    Separated inp.policy inp.n (solOf (solve inp.n ans).2) (failsTest inp) ∧
    Separated .consecutive inp.n (solOf (solve inp.n ans).2) (tooClose inp) := by
  obtain ⟨a, ha, hd⟩ := solved_diag hv hs
  exact ⟨admissible_congr hd (ha.admissible hw), separated_congr hd (ha.separated hw).1,
    separated_congr hd (ha.separated hw).2⟩

/-! ## A running example: four pre-bins, used for the non-vacuity checks -/

/-- Four pre-bins of 50 records each with event rates 0.02, 0.50, 0.40, 0.90. -/
noncomputable def exInp : BinaryInput where
  nonevent := [49, 25, 30, 5]
  event := [1, 25, 20, 45]
  div := fun p q => (p - q) * Real.log (p / q)

theorem exInp_wf : exInp.Wf := ⟨rfl, by decide⟩

/-- The binning {0}, {1,2}, {3}. -/
def exSol : ℕ → Bool := fun k => k == 0 || k == 2 || k == 3

theorem exSol_bins {s e : ℕ} : IsBin 4 exSol s e ↔ (s = 0 ∧ e = 0) ∨ (s = 1 ∧ e = 2) ∨ (s = 3 ∧ e = 3) := by
  constructor
  · rintro ⟨h1, h2, h3, h4, h5⟩
    have hs : s < 4 := by omega
    have c1 : e = 0 ∨ e = 1 ∨ e = 2 ∨ e = 3 := by omega
    have c2 : s = 0 ∨ s = 1 ∨ s = 2 ∨ s = 3 := by omega
    rcases c1 with rfl | rfl | rfl | rfl <;> rcases c2 with rfl | rfl | rfl | rfl <;>
      first
        | omega
        | (simp [exSol] at h3; done)
        | (simp [exSol] at h4; done)
        | (have := h5 0 (by omega) (by omega); simp [exSol] at this)
        | (have := h5 2 (by omega) (by omega); simp [exSol] at this)
  · rintro (⟨rfl, rfl⟩ | ⟨rfl, rfl⟩ | ⟨rfl, rfl⟩)
    · exact ⟨by omega, by omega, rfl, Or.inl rfl, fun k h1 h2 => by omega⟩
    · refine ⟨by omega, by omega, rfl, Or.inr rfl, fun k h1 h2 => ?_⟩
      have : k = 1 := by omega
      subst this; rfl
    · exact ⟨by omega, by omega, rfl, Or.inr rfl, fun k h1 h2 => by omega⟩

/-- The running example with a test and a minimum rate difference. -/
noncomputable def exInp2 : BinaryInput :=
  { exInp with minDiff := 1 / 10, test := some (fun e1 ne1 e2 ne2 => e1 * ne2 == e2 * ne1), policy := .all }

/-- All options set. -/
def exOpts (tr : Trend) : Opts where
  trend := tr
  minBins := some 2
  maxBins := some 3
  minSize := some 50
  maxSize := some 100
  minEvent := some 1
  maxEvent := some 45
  minNonevent := some 5
  maxNonevent := some 55
  fixed := some (fun k => k == 2)

theorem exInp2_wf : exInp2.Wf := ⟨rfl, by decide⟩

theorem ex_totals : binTotal exInp2.ev 0 0 = 1 ∧ binTotal exInp2.ev 1 2 = 45 ∧ binTotal exInp2.ev 3 3 = 45 ∧
    binTotal exInp2.ne 0 0 = 49 ∧ binTotal exInp2.ne 1 2 = 55 ∧ binTotal exInp2.ne 3 3 = 5 := by
  refine ⟨?_, ?_, ?_, ?_, ?_, ?_⟩ <;> rfl

theorem ex_rates : eventRate exInp2.ne exInp2.ev 0 0 = 1 / 50 ∧ eventRate exInp2.ne exInp2.ev 1 2 = 9 / 20 ∧
    eventRate exInp2.ne exInp2.ev 3 3 = 9 / 10 := by
  obtain ⟨h1, h2, h3, h4, h5, h6⟩ := ex_totals
  unfold eventRate
  rw [h1, h2, h3, h4, h5, h6]
  norm_num

theorem exSol_sep (pol : Policy) : Separated pol 4 exSol (failsTest exInp2) ∧
    Separated .consecutive 4 exSol (tooClose6 exInp2) := by
  obtain ⟨h1, h2, h3, h4, h5, h6⟩ := ex_totals
  obtain ⟨r1, r2, r3⟩ := ex_rates
  have hmd : exInp2.minDiff = 1 / 10 := rfl
  refine ⟨?_, ?_⟩
  · rintro s e s' e' hb hb' hlt - ⟨t, ht, hbad⟩
    have htt : t = fun e1 ne1 e2 ne2 => e1 * ne2 == e2 * ne1 := (Option.some.inj ht).symm
    subst htt
    rw [exSol_bins] at hb hb'
    rcases hb with ⟨rfl, rfl⟩ | ⟨rfl, rfl⟩ | ⟨rfl, rfl⟩ <;> rcases hb' with ⟨rfl, rfl⟩ | ⟨rfl, rfl⟩ | ⟨rfl, rfl⟩ <;>
      first
        | omega
        | (simp only [h1, h2, h3, h4, h5, h6] at hbad; exact absurd hbad (by decide))
  · rintro s e s' e' hb hb' hlt - ⟨-, hbad⟩
    unfold rate6 at hbad
    rw [exSol_bins] at hb hb'
    rcases hb with ⟨rfl, rfl⟩ | ⟨rfl, rfl⟩ | ⟨rfl, rfl⟩ <;> rcases hb' with ⟨rfl, rfl⟩ | ⟨rfl, rfl⟩ | ⟨rfl, rfl⟩ <;>
      first
        | omega
        | (simp only [r1, r2, r3, hmd] at hbad
           norm_num at hbad)

/-- Non-vacuity of C09–C16, C18: with every option set and an ascending, peak or unconstrained trend the three-bin binning
is admissible, accepted, and returned by a valid solver answer. -/
theorem exRich (tr : Trend) (htr : tr = .ascending ∨ tr = .peak ∨ tr = .unconstrained ∨ tr = .peakHeuristic 4) :
    NoShortcuts (exOpts tr) exInp2 ∧
    Admissible (exOpts tr) exInp2.n exSol exInp2.ne exInp2.ev (rate6 exInp2) ∧
    ∃ ans : SolverAnswer, ans.Valid (acceptsCP (exOpts tr) exInp2) (objectiveCP (exOpts tr) exInp2 0) ∧
      Solved (solve exInp2.n ans) ∧ ∀ k < 4, solOf (solve exInp2.n ans).2 k = exSol k := by
  obtain ⟨h1, h2, h3, h4, h5, h6⟩ := ex_totals
  obtain ⟨r1, r2, r3⟩ := ex_rates
  have hns : NoShortcuts (exOpts tr) exInp2 := by
    refine ⟨Or.inr ?_, ?_, ?_⟩
    · change (1 / 10 : ℚ) ≠ 0; norm_num
    · rcases htr with rfl | rfl | rfl | rfl <;> simp [exOpts]
    · rintro tc (h | h) <;> rcases htr with rfl | rfl | rfl | rfl <;> simp [exOpts] at h
      subst h; exact le_of_eq rfl
  have hasc : ∀ P, AscendingOn 4 exSol (rate6 exInp2) P := by
    intro P s e s' e' hb hb' hlt _ _
    unfold rate6
    rw [exSol_bins] at hb hb'
    rcases hb with ⟨rfl, rfl⟩ | ⟨rfl, rfl⟩ | ⟨rfl, rfl⟩ <;> rcases hb' with ⟨rfl, rfl⟩ | ⟨rfl, rfl⟩ | ⟨rfl, rfl⟩ <;>
      first
        | omega
        | (simp only [r1, r2, r3]; norm_num)
  have hnb : numBins 4 exSol = 3 := by decide
  have hadm : Admissible (exOpts tr) exInp2.n exSol exInp2.ne exInp2.ev (rate6 exInp2) := by
    have hlim : ∀ s e, IsBin exInp2.n exSol s e → (1 ≤ binTotal exInp2.ev s e ∧ binTotal exInp2.ev s e ≤ 45) ∧
        (5 ≤ binTotal exInp2.ne s e ∧ binTotal exInp2.ne s e ≤ 55) ∧
        (50 ≤ binTotal exInp2.ne s e + binTotal exInp2.ev s e ∧
          binTotal exInp2.ne s e + binTotal exInp2.ev s e ≤ 100) := by
      intro s e hb
      rcases exSol_bins.1 hb with ⟨rfl, rfl⟩ | ⟨rfl, rfl⟩ | ⟨rfl, rfl⟩ <;> simp only [h1, h2, h3, h4, h5, h6] <;>
        norm_num
    refine ⟨⟨by decide, rfl⟩, ?_, ?_, ?_, ?_, ?_, ?_, ?_, ?_, ?_, ?_⟩
    · intro b hb
      change some 2 = some b at hb
      change b ≤ ((numBins 4 exSol : ℕ) : ℤ)
      rw [hnb]; cases hb; norm_num
    · intro b hb
      change some 3 = some b at hb
      change ((numBins 4 exSol : ℕ) : ℤ) ≤ b
      rw [hnb]; cases hb; norm_num
    · intro s e hb b hbb; cases hbb; exact (hlim s e hb).2.2.1
    · intro s e hb b hbb; cases hbb; exact (hlim s e hb).2.2.2
    · intro s e hb b hbb; cases hbb; exact (hlim s e hb).2.1.1
    · intro s e hb b hbb; cases hbb; exact (hlim s e hb).2.1.2
    · intro s e hb b hbb; cases hbb; exact (hlim s e hb).1.1
    · intro s e hb b hbb; cases hbb; exact (hlim s e hb).1.2
    · rcases htr with rfl | rfl | rfl | rfl
      · exact hasc _
      · refine ⟨4, hasc _, ?_⟩
        intro s e s' e' hb hb' hlt he
        have := hb.2.1
        have : exInp2.n = 4 := rfl
        omega
      · trivial
      · refine ⟨hasc _, ?_⟩
        intro s e s' e' hb hb' hlt he
        have := hb.2.1
        have : exInp2.n = 4 := rfl
        omega
    · intro f hf i hi hfi
      cases hf
      have : i = 2 := by simpa using hfi
      subst this; rfl
  refine ⟨hns, hadm, ?_⟩
  obtain ⟨a, ha, hd⟩ := acceptsCP.complete exInp2_wf hns hadm (exSol_sep _).1 (exSol_sep .all).2
  refine ⟨.feasible a, ha, Or.inr rfl, fun k hk => ?_⟩
  change solOf ((List.range 4).map fun i => a.x i i != 0) k = _
  rw [solOf_map a.x hk, ← hd]

/-! ## C08 -/

/-- C08: a solver answer is a partition of the pre-bins into consecutive, non-empty groups. -/
theorem C08_partition_cp {o : Opts} {inp : BinaryInput} {reg : ℤ} {ans : SolverAnswer} (hw : inp.Wf)
    (hv : ans.Valid (acceptsCP o inp) (objectiveCP o inp reg)) (hs : Solved (solve inp.n ans)) :
    IsBinning inp.n (solOf (solve inp.n ans).2) ∧
      ∀ k < inp.n, ∃! p : ℕ × ℕ, IsBin inp.n (solOf (solve inp.n ans).2) p.1 p.2 ∧ p.1 ≤ k ∧ k ≤ p.2 := by
  have h := (cp_master hw hv hs).1.binning
  refine ⟨h, fun k hk => ?_⟩
  obtain ⟨s, e, hb, h1, h2⟩ := isBin_cover h hk
  refine ⟨(s, e), ⟨hb, h1, h2⟩, ?_⟩
  rintro ⟨s', e'⟩ ⟨hb', h1', h2'⟩
  obtain ⟨rfl, rfl⟩ := isBin_cover_unique hb hb' h1 h2 h1' h2'
  rfl

/-- C08 for the MIP formulation. -/
theorem C08_partition_mip {o : Opts} {inp : BinaryInput} {reg : ℝ} {ans : SolverAnswer} (hw : inp.Wf)
    (hv : ans.Valid (acceptsMIP o inp) (objectiveMIP o inp reg)) (hs : Solved (solve inp.n ans)) :
    IsBinning inp.n (solOf (solve inp.n ans).2) ∧
      ∀ k < inp.n, ∃! p : ℕ × ℕ, IsBin inp.n (solOf (solve inp.n ans).2) p.1 p.2 ∧ p.1 ≤ k ∧ k ≤ p.2 := by
  have h := (mip_master hw hv hs).1.binning
  refine ⟨h, fun k hk => ?_⟩
  obtain ⟨s, e, hb, h1, h2⟩ := isBin_cover h hk
  refine ⟨(s, e), ⟨hb, h1, h2⟩, ?_⟩
  rintro ⟨s', e'⟩ ⟨hb', h1', h2'⟩
  obtain ⟨rfl, rfl⟩ := isBin_cover_unique hb hb' h1 h2 h1' h2'
  rfl

/-- C08: an accepted assignment is determined by its diagonal: `x[i, j] = 1` iff a selected bin ends in `i` and contains
`j`. -/
theorem C08_assignment_determined {o : Opts} {inp : BinaryInput} {a : Assign} (h : acceptsCP o inp a)
    {i j : ℕ} (hi : i < inp.n) (hj : j ≤ i) :
    a.x i j = 1 ↔ ∃ s, s ≤ j ∧ IsBin inp.n (fun k => a.x k k != 0) s i := by
  have hc := h.core
  constructor
  · intro hx
    have hii := hc.row_mono hi hx hj le_rfl
    obtain ⟨s, hb⟩ := exists_start inp.n (diag a.x) hi ((diag_eq_true hc hi).2 hii)
    refine ⟨s, ?_, hb⟩
    have e1 := hc.row_bin hb hj
    by_contra hcon
    rw [if_neg hcon] at e1
    omega
  · rintro ⟨s, hsj, hb⟩
    rw [hc.row_bin hb hj, if_pos hsj]

/-- C08, converse: without options every partition into consecutive groups is accepted. -/
theorem C08_every_partition_accepted (inp : BinaryInput) (hw : inp.Wf) (hp : inp.test = none) (hd : inp.minDiff = 0)
    (sol : ℕ → Bool) (h : IsBinning inp.n sol) :
    ∃ a, acceptsCP {} inp a ∧ (fun k => a.x k k != 0) = sol := by
  refine acceptsCP.complete hw ⟨Or.inl (Or.inl rfl), by simp, by simp⟩ ?_ ?_ ?_
  · exact ⟨h, by simp [AtLeast], by simp [AtMost], by simp [AtLeast], by simp [AtMost], by simp [AtLeast],
      by simp [AtMost], by simp [AtLeast], by simp [AtMost], trivial, by simp⟩
  · rintro s e s' e' - - - - ⟨t, ht, -⟩
    rw [hp] at ht; exact absurd ht (by simp)
  · rintro s e s' e' - - - - ⟨h0, -⟩
    rw [hd] at h0; exact absurd h0 (by simp)

example : ∃ a, acceptsCP {} exInp a ∧ (fun k => a.x k k != 0) = exSol :=
  C08_every_partition_accepted exInp exInp_wf rfl rfl exSol ⟨by decide, rfl⟩

/-- A valid FEASIBLE answer exists for the running example. -/
theorem exFeasible : ∃ ans : SolverAnswer, ans.Valid (acceptsCP {} exInp) (objectiveCP {} exInp 0) ∧
    Solved (solve exInp.n ans) ∧ ∀ k < 4, solOf (solve exInp.n ans).2 k = exSol k := by
  obtain ⟨a, ha, hd⟩ := C08_every_partition_accepted exInp exInp_wf rfl rfl exSol ⟨by decide, rfl⟩
  refine ⟨.feasible a, ha, Or.inr rfl, fun k hk => ?_⟩
  change solOf ((List.range 4).map fun i => a.x i i != 0) k = _
  rw [solOf_map a.x hk, ← hd]; rfl

/-! ## C09–C11 -/

/-- C09: the number of bins respects `min_n_bins` and `max_n_bins`. -/
theorem C09_number_of_bins_cp {o : Opts} {inp : BinaryInput} {reg : ℤ} {ans : SolverAnswer} (hw : inp.Wf)
    (hv : ans.Valid (acceptsCP o inp) (objectiveCP o inp reg)) (hs : Solved (solve inp.n ans)) :
    (∀ lo, o.minBins = some lo → lo ≤ numBins inp.n (solOf (solve inp.n ans).2)) ∧
    (∀ hi, o.maxBins = some hi → (numBins inp.n (solOf (solve inp.n ans).2) : ℤ) ≤ hi) :=
  ⟨(cp_master hw hv hs).1.minBins, (cp_master hw hv hs).1.maxBins⟩

/-- C09 for the MIP formulation. -/
theorem C09_number_of_bins_mip {o : Opts} {inp : BinaryInput} {reg : ℝ} {ans : SolverAnswer} (hw : inp.Wf)
    (hv : ans.Valid (acceptsMIP o inp) (objectiveMIP o inp reg)) (hs : Solved (solve inp.n ans)) :
    (∀ lo, o.minBins = some lo → lo ≤ numBins inp.n (solOf (solve inp.n ans).2)) ∧
    (∀ hi, o.maxBins = some hi → (numBins inp.n (solOf (solve inp.n ans).2) : ℤ) ≤ hi) :=
  ⟨(mip_master hw hv hs).1.minBins, (mip_master hw hv hs).1.maxBins⟩

/-- C10: every bin holds between `min_bin_size` and `max_bin_size` records. -/
theorem C10_bin_size_cp {o : Opts} {inp : BinaryInput} {reg : ℤ} {ans : SolverAnswer} (hw : inp.Wf)
    (hv : ans.Valid (acceptsCP o inp) (objectiveCP o inp reg)) (hs : Solved (solve inp.n ans))
    {s e : ℕ} (hb : IsBin inp.n (solOf (solve inp.n ans).2) s e) :
    (∀ lo, o.minSize = some lo → lo ≤ binTotal inp.ne s e + binTotal inp.ev s e) ∧
    (∀ hi, o.maxSize = some hi → binTotal inp.ne s e + binTotal inp.ev s e ≤ hi) :=
  ⟨(cp_master hw hv hs).1.minSize s e hb, (cp_master hw hv hs).1.maxSize s e hb⟩

/-- C10 for the MIP formulation. -/
theorem C10_bin_size_mip {o : Opts} {inp : BinaryInput} {reg : ℝ} {ans : SolverAnswer} (hw : inp.Wf)
    (hv : ans.Valid (acceptsMIP o inp) (objectiveMIP o inp reg)) (hs : Solved (solve inp.n ans))
    {s e : ℕ} (hb : IsBin inp.n (solOf (solve inp.n ans).2) s e) :
    (∀ lo, o.minSize = some lo → lo ≤ binTotal inp.ne s e + binTotal inp.ev s e) ∧
    (∀ hi, o.maxSize = some hi → binTotal inp.ne s e + binTotal inp.ev s e ≤ hi) :=
  ⟨(mip_master hw hv hs).1.minSize s e hb, (mip_master hw hv hs).1.maxSize s e hb⟩

/-- C11: every bin respects the bounds on its numbers of events and non-events. -/
theorem C11_event_bounds_cp {o : Opts} {inp : BinaryInput} {reg : ℤ} {ans : SolverAnswer} (hw : inp.Wf)
    (hv : ans.Valid (acceptsCP o inp) (objectiveCP o inp reg)) (hs : Solved (solve inp.n ans))
    {s e : ℕ} (hb : IsBin inp.n (solOf (solve inp.n ans).2) s e) :
    (∀ lo, o.minEvent = some lo → lo ≤ binTotal inp.ev s e) ∧
    (∀ hi, o.maxEvent = some hi → binTotal inp.ev s e ≤ hi) ∧
    (∀ lo, o.minNonevent = some lo → lo ≤ binTotal inp.ne s e) ∧
    (∀ hi, o.maxNonevent = some hi → binTotal inp.ne s e ≤ hi) :=
  ⟨(cp_master hw hv hs).1.minEvent s e hb, (cp_master hw hv hs).1.maxEvent s e hb,
    (cp_master hw hv hs).1.minNonevent s e hb, (cp_master hw hv hs).1.maxNonevent s e hb⟩

/-- C11 for the MIP formulation. -/
theorem C11_event_bounds_mip {o : Opts} {inp : BinaryInput} {reg : ℝ} {ans : SolverAnswer} (hw : inp.Wf)
    (hv : ans.Valid (acceptsMIP o inp) (objectiveMIP o inp reg)) (hs : Solved (solve inp.n ans))
    {s e : ℕ} (hb : IsBin inp.n (solOf (solve inp.n ans).2) s e) :
    (∀ lo, o.minEvent = some lo → lo ≤ binTotal inp.ev s e) ∧
    (∀ hi, o.maxEvent = some hi → binTotal inp.ev s e ≤ hi) ∧
    (∀ lo, o.minNonevent = some lo → lo ≤ binTotal inp.ne s e) ∧
    (∀ hi, o.maxNonevent = some hi → binTotal inp.ne s e ≤ hi) :=
  ⟨(mip_master hw hv hs).1.minEvent s e hb, (mip_master hw hv hs).1.maxEvent s e hb,
    (mip_master hw hv hs).1.minNonevent s e hb, (mip_master hw hv hs).1.maxNonevent s e hb⟩

/-! ## C12, C13: trends -/

/-- C12, `solver="mip"`: with an ascending (descending) trend the event rates of the bins are exactly non-decreasing
(non-increasing). -/
theorem C12_monotone_mip {o : Opts} {inp : BinaryInput} {reg : ℝ} {ans : SolverAnswer} (hw : inp.Wf)
    (hv : ans.Valid (acceptsMIP o inp) (objectiveMIP o inp reg)) (hs : Solved (solve inp.n ans))
    {s e s' e' : ℕ} (hb : IsBin inp.n (solOf (solve inp.n ans).2) s e)
    (hb' : IsBin inp.n (solOf (solve inp.n ans).2) s' e') (hlt : e < e') :
    (o.trend = .ascending → eventRate inp.ne inp.ev s e ≤ eventRate inp.ne inp.ev s' e') ∧
    (o.trend = .descending → eventRate inp.ne inp.ev s' e' ≤ eventRate inp.ne inp.ev s e) := by
  have h := (mip_master hw hv hs).1.trend
  constructor
  · intro ht
    rw [ht] at h
    exact Rat.cast_le.1 (h s e s' e' hb hb' hlt trivial trivial)
  · intro ht
    rw [ht] at h
    exact Rat.cast_le.1 (h s e s' e' hb hb' hlt trivial trivial)

theorem floor_le_imp {p q : ℚ} (h : ⌊p * 1000000⌋ ≤ ⌊q * 1000000⌋) : p < q + 1 / 1000000 := by
  have h1 := Int.lt_floor_add_one (p * 1000000)
  have h2 := Int.floor_le (q * 1000000)
  have h3 : ((⌊p * 1000000⌋ : ℤ) : ℚ) ≤ ((⌊q * 1000000⌋ : ℤ) : ℚ) := by exact_mod_cast h
  have h4 : p * 1000000 < q * 1000000 + 1 := by linarith
  linarith

/-- C12, `solver="cp"`: the event rates are monotone up to 1e-6. -/
theorem C12_monotone_cp {o : Opts} {inp : BinaryInput} {reg : ℤ} {ans : SolverAnswer} (hw : inp.Wf)
    (hv : ans.Valid (acceptsCP o inp) (objectiveCP o inp reg)) (hs : Solved (solve inp.n ans))
    {s e s' e' : ℕ} (hb : IsBin inp.n (solOf (solve inp.n ans).2) s e)
    (hb' : IsBin inp.n (solOf (solve inp.n ans).2) s' e') (hlt : e < e') :
    (o.trend = .ascending → eventRate inp.ne inp.ev s e < eventRate inp.ne inp.ev s' e' + 1 / 1000000) ∧
    (o.trend = .descending → eventRate inp.ne inp.ev s' e' < eventRate inp.ne inp.ev s e + 1 / 1000000) := by
  have h := (cp_master hw hv hs).1.trend
  constructor
  · intro ht
    rw [ht] at h
    exact floor_le_imp (h s e s' e' hb hb' hlt trivial trivial)
  · intro ht
    rw [ht] at h
    exact floor_le_imp (h s e s' e' hb hb' hlt trivial trivial)

/-- C13 (and C12) at the precision of the CP solver: the requested trend holds for `⌊10^6·rate⌋`. -/
theorem C13_trend_cp {o : Opts} {inp : BinaryInput} {reg : ℤ} {ans : SolverAnswer} (hw : inp.Wf)
    (hv : ans.Valid (acceptsCP o inp) (objectiveCP o inp reg)) (hs : Solved (solve inp.n ans)) :
    TrendHolds inp.n (solOf (solve inp.n ans).2) (fun s e => ⌊eventRate inp.ne inp.ev s e * 1000000⌋) o.trend :=
  (cp_master hw hv hs).1.trend

/-- C13 (and C12) for the MIP solver: the requested trend holds exactly. -/
theorem C13_trend_mip {o : Opts} {inp : BinaryInput} {reg : ℝ} {ans : SolverAnswer} (hw : inp.Wf)
    (hv : ans.Valid (acceptsMIP o inp) (objectiveMIP o inp reg)) (hs : Solved (solve inp.n ans)) :
    TrendHolds inp.n (solOf (solve inp.n ans).2) (fun s e => (eventRate inp.ne inp.ev s e : ℝ)) o.trend :=
  (mip_master hw hv hs).1.trend

/-! ## C14, C15 -/

/-- C14, `solver="mip"`: consecutive bins differ by at least `min_event_rate_diff`. -/
theorem C14_min_event_rate_diff_mip {o : Opts} {inp : BinaryInput} {reg : ℝ} {ans : SolverAnswer} (hw : inp.Wf)
    (hv : ans.Valid (acceptsMIP o inp) (objectiveMIP o inp reg)) (hs : Solved (solve inp.n ans))
    {s e e' : ℕ} (hb : IsBin inp.n (solOf (solve inp.n ans).2) s e)
    (hb' : IsBin inp.n (solOf (solve inp.n ans).2) (e + 1) e') :
    inp.minDiff ≤ |eventRate inp.ne inp.ev s e - eventRate inp.ne inp.ev (e + 1) e'| := by
  rcases le_or_gt inp.minDiff 0 with h0 | h0
  · exact le_trans h0 (abs_nonneg _)
  · have := (mip_master hw hv hs).2.2 s e (e + 1) e' hb hb' (by omega) (fun _ => rfl)
    unfold tooClose at this
    push Not at this
    exact this h0

theorem floor_abs {p q d : ℚ} (h : ⌊d * 1000000⌋ ≤ |⌊p * 1000000⌋ - ⌊q * 1000000⌋|) : d - 2 / 1000000 < |p - q| := by
  have p1 := Int.lt_floor_add_one (p * 1000000)
  have p2 := Int.floor_le (p * 1000000)
  have q1 := Int.lt_floor_add_one (q * 1000000)
  have q2 := Int.floor_le (q * 1000000)
  have d1 := Int.lt_floor_add_one (d * 1000000)
  have hq : ((⌊d * 1000000⌋ : ℤ) : ℚ) ≤ |((⌊p * 1000000⌋ : ℤ) : ℚ) - ((⌊q * 1000000⌋ : ℤ) : ℚ)| := by
    exact_mod_cast h
  rcases abs_cases (((⌊p * 1000000⌋ : ℤ) : ℚ) - ((⌊q * 1000000⌋ : ℤ) : ℚ)) with ⟨h1, _⟩ | ⟨h1, _⟩ <;>
    rcases abs_cases (p - q) with ⟨h2, _⟩ | ⟨h2, _⟩ <;> rw [h1] at hq <;> rw [h2] <;> linarith

/-- C14, `solver="cp"`: truncated rates of consecutive bins differ by at least the truncated `min_event_rate_diff`, hence
the rates themselves differ by more than `min_event_rate_diff - 2e-6`. -/
theorem C14_min_event_rate_diff_cp {o : Opts} {inp : BinaryInput} {reg : ℤ} {ans : SolverAnswer} (hw : inp.Wf)
    (hv : ans.Valid (acceptsCP o inp) (objectiveCP o inp reg)) (hs : Solved (solve inp.n ans)) (hpos : 0 < inp.minDiff)
    {s e e' : ℕ} (hb : IsBin inp.n (solOf (solve inp.n ans).2) s e)
    (hb' : IsBin inp.n (solOf (solve inp.n ans).2) (e + 1) e') :
    ⌊inp.minDiff * 1000000⌋ ≤ |⌊eventRate inp.ne inp.ev s e * 1000000⌋ - ⌊eventRate inp.ne inp.ev (e + 1) e' * 1000000⌋| ∧
    inp.minDiff - 2 / 1000000 < |eventRate inp.ne inp.ev s e - eventRate inp.ne inp.ev (e + 1) e'| := by
  have := (cp_master hw hv hs).2.2 s e (e + 1) e' hb hb' (by omega) (fun _ => rfl)
  unfold tooClose6 at this
  push Not at this
  exact ⟨this hpos, floor_abs (this hpos)⟩

/-- C15: with a proportion test `t` and policy "consecutive" / "all", no two consecutive bins / no two bins fail the test. -/
theorem C15_max_pvalue_cp {o : Opts} {inp : BinaryInput} {reg : ℤ} {ans : SolverAnswer} (hw : inp.Wf)
    (hv : ans.Valid (acceptsCP o inp) (objectiveCP o inp reg)) (hs : Solved (solve inp.n ans))
    {t : ℕ → ℕ → ℕ → ℕ → Bool} (ht : inp.test = some t)
    {s e s' e' : ℕ} (hb : IsBin inp.n (solOf (solve inp.n ans).2) s e)
    (hb' : IsBin inp.n (solOf (solve inp.n ans).2) s' e') (hlt : e < s') (hpol : inp.policy = .consecutive → s' = e + 1) :
    t (binTotal inp.ev s e).toNat (binTotal inp.ne s e).toNat (binTotal inp.ev s' e').toNat
      (binTotal inp.ne s' e').toNat = false := by
  have := (cp_master hw hv hs).2.1 s e s' e' hb hb' hlt hpol
  by_contra hcon
  exact this ⟨t, ht, by simpa using hcon⟩

/-- C15 for the MIP formulation. -/
theorem C15_max_pvalue_mip {o : Opts} {inp : BinaryInput} {reg : ℝ} {ans : SolverAnswer} (hw : inp.Wf)
    (hv : ans.Valid (acceptsMIP o inp) (objectiveMIP o inp reg)) (hs : Solved (solve inp.n ans))
    {t : ℕ → ℕ → ℕ → ℕ → Bool} (ht : inp.test = some t)
    {s e s' e' : ℕ} (hb : IsBin inp.n (solOf (solve inp.n ans).2) s e)
    (hb' : IsBin inp.n (solOf (solve inp.n ans).2) s' e') (hlt : e < s') (hpol : inp.policy = .consecutive → s' = e + 1) :
    t (binTotal inp.ev s e).toNat (binTotal inp.ne s e).toNat (binTotal inp.ev s' e').toNat
      (binTotal inp.ne s' e').toNat = false := by
  have := (mip_master hw hv hs).2.1 s e s' e' hb hb' hlt hpol
  by_contra hcon
  exact this ⟨t, ht, by simpa using hcon⟩

/-! ## C16 -/

/-- C16 (solver part): a split flagged in `user_splits_fixed` ends a bin of the result. -/
theorem C16_fixed_splits_cp {o : Opts} {inp : BinaryInput} {reg : ℤ} {ans : SolverAnswer} (hw : inp.Wf)
    (hv : ans.Valid (acceptsCP o inp) (objectiveCP o inp reg)) (hs : Solved (solve inp.n ans))
    {f : ℕ → Bool} (hf : o.fixed = some f) {i : ℕ} (hi : i + 1 < inp.n) (hfi : f i = true) :
    solOf (solve inp.n ans).2 i = true :=
  (cp_master hw hv hs).1.fixed f hf i hi hfi

/-- C16 (solver part) for the MIP formulation. -/
theorem C16_fixed_splits_mip {o : Opts} {inp : BinaryInput} {reg : ℝ} {ans : SolverAnswer} (hw : inp.Wf)
    (hv : ans.Valid (acceptsMIP o inp) (objectiveMIP o inp reg)) (hs : Solved (solve inp.n ans))
    {f : ℕ → Bool} (hf : o.fixed = some f) {i : ℕ} (hi : i + 1 < inp.n) (hfi : f i = true) :
    solOf (solve inp.n ans).2 i = true :=
  (mip_master hw hv hs).1.fixed f hf i hi hfi

/-! ## C17 -/

theorem total_eq (l : List ℕ) (h : 0 < l.length) :
    ((l.sum : ℕ) : ℤ) = binTotal (fun k => ((l.getD k 0 : ℕ) : ℤ)) 0 (l.length - 1) := by
  rw [list_sum_eq_range]
  unfold binTotal
  push_cast
  apply Finset.sum_congr _ (fun _ _ => rfl)
  ext k
  simp only [mem_range, mem_Icc]
  omega

theorem iv_eq (inp : BinaryInput) (hw : inp.Wf) {i j : ℕ} (hi : i < inp.n) (hj : j ≤ i) :
    inp.iv i j = binDivergence inp.div inp.n inp.ne inp.ev j i := by
  unfold BinaryInput.iv binDivergence
  have h1 := cumAt_event inp hw hi hj
  have h2 := cumAt_nonevent inp hi hj
  have h3 := total_eq inp.event (by rw [hw.len]; exact hw.pos)
  have h4 := total_eq inp.nonevent hw.pos
  rw [hw.len] at h3
  have e1 : binTotal inp.ev 0 (inp.n - 1) = ((inp.event.sum : ℕ) : ℤ) := h3.symm
  have e2 : binTotal inp.ne 0 (inp.n - 1) = ((inp.nonevent.sum : ℕ) : ℤ) := h4.symm
  rw [← h1, ← h2, e1, e2]
  simp only [Int.cast_natCast]

theorem totalOverBins_congr {R : Type*} [AddCommMonoid R] {n : ℕ} {sol : ℕ → Bool} {v v' : ℕ → ℕ → R}
    (h : ∀ s e, IsBin n sol s e → v s e = v' s e) : totalOverBins n sol v = totalOverBins n sol v' := by
  classical
  unfold totalOverBins binsOf
  apply Finset.sum_congr rfl
  intro p hp
  simp only [mem_filter] at hp
  exact h p.1 p.2 hp.2

/-- C17, MIP: the objective of every accepted assignment is the divergence of its bins. -/
theorem C17_objective_mip {o : Opts} {inp : BinaryInput} {a : Assign} (hw : inp.Wf) (h : acceptsMIP o inp a)
    (hg : o.gamma = false) (reg : ℝ) :
    objectiveMIP o inp reg a =
      totalOverBins inp.n (fun k => a.x k k != 0) (binDivergence inp.div inp.n inp.ne inp.ev) := by
  unfold objectiveMIP
  rw [objective_eq h.core, hg]
  simp only [Bool.false_eq_true, if_false, sub_zero]
  exact totalOverBins_congr fun s e hb => iv_eq inp hw hb.2.1 hb.1

/-- C17, CP: the objective is the sum over the bins of the divergence contributions, scaled by 10^6 and truncated. -/
theorem C17_objective_cp {o : Opts} {inp : BinaryInput} {a : Assign} (hw : inp.Wf) (h : acceptsCP o inp a)
    (hg : o.gamma = false) (reg : ℤ) :
    objectiveCP o inp reg a =
      totalOverBins inp.n (fun k => a.x k k != 0)
        (fun s e => truncReal (binDivergence inp.div inp.n inp.ne inp.ev s e * 1000000)) := by
  unfold objectiveCP
  rw [objective_eq h.core, hg]
  simp only [Bool.false_eq_true, if_false, sub_zero]
  refine totalOverBins_congr fun s e hb => ?_
  change truncReal (inp.iv e s * ((scale : ℤ) : ℝ)) = _
  rw [iv_eq inp hw hb.2.1 hb.1]
  simp [scale]

example : ∃ a, acceptsCP {} exInp a ∧ objectiveCP {} exInp 0 a = totalOverBins exInp.n (fun k => a.x k k != 0)
        (fun s e => truncReal (binDivergence exInp.div exInp.n exInp.ne exInp.ev s e * 1000000)) := by
  obtain ⟨a, ha, -⟩ := C08_every_partition_accepted exInp exInp_wf rfl rfl exSol ⟨by decide, rfl⟩
  exact ⟨a, ha, C17_objective_cp exInp_wf ha rfl 0⟩

/-! ## C18 -/

/-- C18, CP: outside the shortcuts (`NoShortcuts`), the binnings the solver can return are exactly the admissible ones. -/
theorem C18_exact_cp_partial {o : Opts} {inp : BinaryInput} (hw : inp.Wf) (hns : NoShortcuts o inp) (sol : ℕ → Bool) :
    (∃ a, acceptsCP o inp a ∧ ∀ k < inp.n, (a.x k k != 0) = sol k) ↔
      Admissible o inp.n sol inp.ne inp.ev (fun s e => ⌊eventRate inp.ne inp.ev s e * 1000000⌋) ∧
      Separated inp.policy inp.n sol (failsTest inp) ∧ Separated .consecutive inp.n sol (tooClose6 inp) := by
  constructor
  · rintro ⟨a, ha, hd⟩
    exact ⟨admissible_congr hd (ha.admissible hw), separated_congr hd (ha.separated hw).1,
      separated_congr hd (ha.separated hw).2⟩
  · rintro ⟨h1, h2, h3⟩
    obtain ⟨a, ha, hd⟩ := acceptsCP.complete hw hns h1 h2 h3
    exact ⟨a, ha, fun k _ => congrFun hd k⟩

/-- C18, MIP: outside the shortcuts, the binnings the solver can return are exactly the admissible ones. -/
theorem C18_exact_mip_partial {o : Opts} {inp : BinaryInput} (hw : inp.Wf) (hns : NoShortcuts o inp) (sol : ℕ → Bool) :
    (∃ a, acceptsMIP o inp a ∧ ∀ k < inp.n, (a.x k k != 0) = sol k) ↔
      Admissible o inp.n sol inp.ne inp.ev (fun s e => (eventRate inp.ne inp.ev s e : ℝ)) ∧
      Separated inp.policy inp.n sol (failsTest inp) ∧ Separated .consecutive inp.n sol (tooClose inp) := by
  constructor
  · rintro ⟨a, ha, hd⟩
    exact ⟨admissible_congr hd (ha.admissible hw), separated_congr hd (ha.separated hw).1,
      separated_congr hd (ha.separated hw).2⟩
  · rintro ⟨h1, h2, h3⟩
    obtain ⟨a, ha, hd⟩ := acceptsMIP.complete hw hns h1 h2 h3
    exact ⟨a, ha, fun k _ => congrFun hd k⟩

/-- C18, MIP: a status OPTIMAL (no regularisation) means that no admissible binning has a larger divergence. -/
theorem C18_optimal_mip_partial {o : Opts} {inp : BinaryInput} {reg : ℝ} {ans : SolverAnswer} (hw : inp.Wf)
    (hns : NoShortcuts o inp) (hg : o.gamma = false)
    (hv : ans.Valid (acceptsMIP o inp) (objectiveMIP o inp reg)) (hs : (solve inp.n ans).1 = "OPTIMAL")
    (sol : ℕ → Bool) (h1 : Admissible o inp.n sol inp.ne inp.ev (fun s e => (eventRate inp.ne inp.ev s e : ℝ)))
    (h2 : Separated inp.policy inp.n sol (failsTest inp)) (h3 : Separated .consecutive inp.n sol (tooClose inp)) :
    totalOverBins inp.n sol (binDivergence inp.div inp.n inp.ne inp.ev) ≤
      totalOverBins inp.n (solOf (solve inp.n ans).2) (binDivergence inp.div inp.n inp.ne inp.ev) := by
  obtain ⟨a', ha', hd'⟩ := acceptsMIP.complete hw hns h1 h2 h3
  cases ans with
  | optimal a =>
    have h := hv.2 a' ha'
    rw [C17_objective_mip hw hv.1 hg, C17_objective_mip hw ha' hg] at h
    have e1 : (fun k => a'.x k k != 0) = sol := hd'
    rw [e1] at h
    have e2 : binsOf inp.n (solOf (solve inp.n (.optimal a)).2) = binsOf inp.n (fun k => a.x k k != 0) :=
      binsOf_congr fun k hk => solOf_map a.x hk
    unfold totalOverBins at h ⊢
    rw [e2]; exact h
  | feasible a => simp [solve] at hs
  | other s => exact absurd hs hv.1

/-- C18, CP: a status OPTIMAL (no regularisation) means that no binning admissible at precision 1e-6 has a larger sum of
truncated divergences. -/
theorem C18_optimal_cp_partial {o : Opts} {inp : BinaryInput} {reg : ℤ} {ans : SolverAnswer} (hw : inp.Wf)
    (hns : NoShortcuts o inp) (hg : o.gamma = false)
    (hv : ans.Valid (acceptsCP o inp) (objectiveCP o inp reg)) (hs : (solve inp.n ans).1 = "OPTIMAL")
    (sol : ℕ → Bool)
    (h1 : Admissible o inp.n sol inp.ne inp.ev (fun s e => ⌊eventRate inp.ne inp.ev s e * 1000000⌋))
    (h2 : Separated inp.policy inp.n sol (failsTest inp)) (h3 : Separated .consecutive inp.n sol (tooClose6 inp)) :
    totalOverBins inp.n sol (fun s e => truncReal (binDivergence inp.div inp.n inp.ne inp.ev s e * 1000000)) ≤
      totalOverBins inp.n (solOf (solve inp.n ans).2)
        (fun s e => truncReal (binDivergence inp.div inp.n inp.ne inp.ev s e * 1000000)) := by
  obtain ⟨a', ha', hd'⟩ := acceptsCP.complete hw hns h1 h2 h3
  cases ans with
  | optimal a =>
    have h := hv.2 a' ha'
    rw [C17_objective_cp hw hv.1 hg, C17_objective_cp hw ha' hg] at h
    have e1 : (fun k => a'.x k k != 0) = sol := hd'
    rw [e1] at h
    have e2 : binsOf inp.n (solOf (solve inp.n (.optimal a)).2) = binsOf inp.n (fun k => a.x k k != 0) :=
      binsOf_congr fun k hk => solOf_map a.x hk
    unfold totalOverBins at h ⊢
    rw [e2]; exact h
  | feasible a => simp [solve] at hs
  | other s => exact absurd hs hv.1

/-! ## C19 -/

/-- C19: with any other status the result is one bin holding all pre-bins. -/
theorem C19_fallback_single_bin {n : ℕ} (hn : 0 < n)
    {ans : SolverAnswer} (hns : ¬ Solved (solve n ans)) (s e : ℕ) :
    IsBin n (solOf (solve n ans).2) s e ↔ s = 0 ∧ e = n - 1 := by
  cases ans with
  | optimal a => exact absurd (Or.inl rfl) hns
  | feasible a => exact absurd (Or.inr rfl) hns
  | other st =>
    have key : ∀ k < n, solOf (solve n (.other st)).2 k = (k == n - 1) := by
      intro k hk
      unfold solOf solve
      rw [List.getD_eq_getElem?_getD]
      simp [hk]
    constructor
    · rintro ⟨h1, h2, h3, h4, h5⟩
      rw [key e h2] at h3
      have he : e = n - 1 := by simpa using h3
      refine ⟨?_, he⟩
      rcases h4 with h4 | h4
      · exact h4
      · rw [key (s - 1) (by omega)] at h4
        have : s - 1 = n - 1 := by simpa using h4
        omega
    · rintro ⟨rfl, rfl⟩
      refine ⟨by omega, by omega, by rw [key _ (by omega)]; simp, Or.inl rfl, fun k _ hk => ?_⟩
      rw [key k (by omega)]
      simp; omega

example : ¬ Solved (solve 4 (.other "INFEASIBLE")) := by
  unfold Solved solve; decide

end OptBinning
