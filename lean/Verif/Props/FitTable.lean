import Verif.Props.Fit

/-!
# Table-level forms of C09–C12, C16, C19: what the options guarantee about the binning table of `fit`

The solver-level statements are in `Props/Solver.lean`; here they are carried through `bin_info` to the rows of the table
and the reported splits.  If the result has a split, the solver was called; a result without splits can also come from a
refinement that removed all splits, in which case the reported status is OPTIMAL although no option was looked at
(`C09_optimal_without_solver`).
-/
set_option linter.unusedSectionVars false
set_option linter.unusedSimpArgs false
namespace OptBinning
open Spec Finset

variable {α : Type*} [LinearOrder α]

/-- Event rate shown in row `k` of the table (binning_statistics.py:535 for a row with events and non-events). -/
def Fitted.rate (f : Fitted α) (k : ℕ) : ℚ :=
  ((f.event.getD k 0 : ℕ) : ℚ) / (((f.nonevent.getD k 0 : ℕ) : ℚ) + ((f.event.getD k 0 : ℕ) : ℚ))

/-- Status OPTIMAL or FEASIBLE. -/
def Fitted.Solved (f : Fitted α) : Prop := f.status = "OPTIMAL" ∨ f.status = "FEASIBLE"

theorem fitNumerical_from {cfg : PrebinCfg} {sc : SpecialCodes α} {so : SplitOpts α} {prebin : List (Rec α) → List α}
    {solver : Solver} {recs : List (Rec α)} {f : Fitted α} (h : fitNumerical cfg sc so prebin solver recs = .ok f) :
    ∃ st', fitFrom { cfg with catUser := false } sc solver (splitData sc so recs) {}
      (prebin (splitData sc so recs).clean) = .ok (st', f) := by
  unfold fitNumerical at h
  cases hf : fitFrom { cfg with catUser := false } sc solver (splitData sc so recs) {}
      (prebin (splitData sc so recs).clean) with
  | error e => simp [hf, bind, Except.bind] at h
  | ok r =>
    simp only [hf, bind, Except.bind, pure, Except.pure, Except.ok.injEq] at h
    exact ⟨r.1, by rw [← h]⟩

theorem binTotal_eq (l : List ℕ) (s e : ℕ) :
    binTotal (fun k => ((l.getD k 0 : ℕ) : ℤ)) s e = ((∑ i ∈ Icc s e, l.getD i 0 : ℕ) : ℤ) := by
  unfold binTotal
  push_cast
  rfl

/-- All row-level guarantees at once, for the CP solver. -/
theorem table_cp {cfg : PrebinCfg} {sc : SpecialCodes α} {so : SplitOpts α} {prebin : List (Rec α) → List α}
    {solver : Solver} {c : SolverCfg} {o : Opts} {reg : ℤ} {recs : List (Rec α)} {f : Fitted α}
    (ho : ∀ nev ev, c.opts nev ev = o) (hsolver : RespectsCP c reg solver)
    (h : fitNumerical cfg sc so prebin solver recs = .ok f) (hs : f.Solved) (hne : f.splits ≠ []) :
    ∃ inp : BinaryInput, ∃ sol : List Bool, inp.Wf ∧ inp.test = c.test ∧ inp.policy = c.policy ∧ inp.minDiff = c.minDiff ∧
      Admissible o inp.n (solOf sol) inp.ne inp.ev (rate6 inp) ∧
      Separated inp.policy inp.n (solOf sol) (failsTest inp) ∧
      Separated .consecutive inp.n (solOf sol) (tooClose6 inp) ∧
      numBins inp.n (solOf sol) = f.splits.length + 1 ∧
      ∀ k ≤ f.splits.length, ∃ s e, IsBin inp.n (solOf sol) s e ∧ binOf sol e = k ∧
        binTotal inp.ne s e = ((f.nonevent.getD k 0 : ℕ) : ℤ) ∧ binTotal inp.ev s e = ((f.event.getD k 0 : ℕ) : ℤ) := by
  obtain ⟨st', hf⟩ := fitNumerical_from h
  have hr : Respects c solver := Or.inl ⟨reg, hsolver⟩
  obtain ⟨nev, ev, h1, h2, h3, h4, h5⟩ := fitFrom_rows rfl (fun nev ev hn => hr.last nev ev hn) hf hne
  have hw : (c.input nev ev).Wf := ⟨h1, by show 0 < nev.length; omega⟩
  have hv := hsolver nev ev
  rw [ho] at hv
  have hs' : OptBinning.Solved (solve (c.input nev ev).n (solver nev ev)) := by
    unfold OptBinning.Solved
    show (solve nev.length (solver nev ev)).1 = _ ∨ (solve nev.length (solver nev ev)).1 = _
    rw [← h3]; exact hs
  obtain ⟨m1, m2, m3⟩ := cp_master hw hv hs'
  refine ⟨c.input nev ev, (solve nev.length (solver nev ev)).2, hw, rfl, rfl, rfl, m1, m2, m3, ?_, ?_⟩
  · rw [numBins_eq]
    show binOf _ nev.length = _
    have := binOf_length (solve nev.length (solver nev ev)).2
    rw [solve_length] at this
    rw [this, h4]
  · intro k hk
    obtain ⟨s, e, hb, hbk, e1, e2⟩ := h5 k hk
    refine ⟨s, e, hb, hbk, ?_, ?_⟩
    · rw [e1]; exact binTotal_eq nev s e
    · rw [e2]; exact binTotal_eq ev s e

/-- All row-level guarantees at once, for the MIP solver. -/
theorem table_mip {cfg : PrebinCfg} {sc : SpecialCodes α} {so : SplitOpts α} {prebin : List (Rec α) → List α}
    {solver : Solver} {c : SolverCfg} {o : Opts} {reg : ℝ} {recs : List (Rec α)} {f : Fitted α}
    (ho : ∀ nev ev, c.opts nev ev = o) (hsolver : RespectsMIP c reg solver)
    (h : fitNumerical cfg sc so prebin solver recs = .ok f) (hs : f.Solved) (hne : f.splits ≠ []) :
    ∃ inp : BinaryInput, ∃ sol : List Bool, inp.Wf ∧ inp.test = c.test ∧ inp.policy = c.policy ∧ inp.minDiff = c.minDiff ∧
      Admissible o inp.n (solOf sol) inp.ne inp.ev (fun s e => (eventRate inp.ne inp.ev s e : ℝ)) ∧
      Separated inp.policy inp.n (solOf sol) (failsTest inp) ∧
      Separated .consecutive inp.n (solOf sol) (tooClose inp) ∧
      numBins inp.n (solOf sol) = f.splits.length + 1 ∧
      ∀ k ≤ f.splits.length, ∃ s e, IsBin inp.n (solOf sol) s e ∧ binOf sol e = k ∧
        binTotal inp.ne s e = ((f.nonevent.getD k 0 : ℕ) : ℤ) ∧ binTotal inp.ev s e = ((f.event.getD k 0 : ℕ) : ℤ) := by
  obtain ⟨st', hf⟩ := fitNumerical_from h
  have hr : Respects c solver := Or.inr ⟨reg, hsolver⟩
  obtain ⟨nev, ev, h1, h2, h3, h4, h5⟩ := fitFrom_rows rfl (fun nev ev hn => hr.last nev ev hn) hf hne
  have hw : (c.input nev ev).Wf := ⟨h1, by show 0 < nev.length; omega⟩
  have hv := hsolver nev ev
  rw [ho] at hv
  have hs' : OptBinning.Solved (solve (c.input nev ev).n (solver nev ev)) := by
    unfold OptBinning.Solved
    show (solve nev.length (solver nev ev)).1 = _ ∨ (solve nev.length (solver nev ev)).1 = _
    rw [← h3]; exact hs
  obtain ⟨m1, m2, m3⟩ := mip_master hw hv hs'
  refine ⟨c.input nev ev, (solve nev.length (solver nev ev)).2, hw, rfl, rfl, rfl, m1, m2, m3, ?_, ?_⟩
  · rw [numBins_eq]
    show binOf _ nev.length = _
    have := binOf_length (solve nev.length (solver nev ev)).2
    rw [solve_length] at this
    rw [this, h4]
  · intro k hk
    obtain ⟨s, e, hb, hbk, e1, e2⟩ := h5 k hk
    refine ⟨s, e, hb, hbk, ?_, ?_⟩
    · rw [e1]; exact binTotal_eq nev s e
    · rw [e2]; exact binTotal_eq ev s e

section
variable {cfg : PrebinCfg} {sc : SpecialCodes α} {so : SplitOpts α} {prebin : List (Rec α) → List α}
    {solver : Solver} {c : SolverCfg} {o : Opts} {recs : List (Rec α)} {f : Fitted α}

/-- C09–C11 on the table, `solver="cp"`: number of regular rows, records, non-events and events per regular row. -/
theorem C09_table_limits_cp {reg : ℤ} (ho : ∀ nev ev, c.opts nev ev = o) (hsolver : RespectsCP c reg solver)
    (h : fitNumerical cfg sc so prebin solver recs = .ok f) (hs : f.Solved) (hne : f.splits ≠ []) :
    AtLeast o.minBins (f.splits.length + 1 : ℕ) ∧ AtMost o.maxBins (f.splits.length + 1 : ℕ) ∧
    ∀ k ≤ f.splits.length,
      AtLeast o.minSize (f.nonevent.getD k 0 + f.event.getD k 0 : ℕ) ∧
      AtMost o.maxSize (f.nonevent.getD k 0 + f.event.getD k 0 : ℕ) ∧
      AtLeast o.minNonevent (f.nonevent.getD k 0 : ℕ) ∧ AtMost o.maxNonevent (f.nonevent.getD k 0 : ℕ) ∧
      AtLeast o.minEvent (f.event.getD k 0 : ℕ) ∧ AtMost o.maxEvent (f.event.getD k 0 : ℕ) := by
  obtain ⟨inp, sol, -, -, -, -, ha, -, -, hn, hrow⟩ := table_cp ho hsolver h hs hne
  refine ⟨hn ▸ ha.minBins, hn ▸ ha.maxBins, fun k hk => ?_⟩
  obtain ⟨s, e, hb, -, e1, e2⟩ := hrow k hk
  rw [Nat.cast_add, ← e1, ← e2]
  exact ⟨ha.minSize s e hb, ha.maxSize s e hb, ha.minNonevent s e hb, ha.maxNonevent s e hb, ha.minEvent s e hb,
    ha.maxEvent s e hb⟩

/-- C09–C11 on the table, `solver="mip"`. -/
theorem C09_table_limits_mip {reg : ℝ} (ho : ∀ nev ev, c.opts nev ev = o) (hsolver : RespectsMIP c reg solver)
    (h : fitNumerical cfg sc so prebin solver recs = .ok f) (hs : f.Solved) (hne : f.splits ≠ []) :
    AtLeast o.minBins (f.splits.length + 1 : ℕ) ∧ AtMost o.maxBins (f.splits.length + 1 : ℕ) ∧
    ∀ k ≤ f.splits.length,
      AtLeast o.minSize (f.nonevent.getD k 0 + f.event.getD k 0 : ℕ) ∧
      AtMost o.maxSize (f.nonevent.getD k 0 + f.event.getD k 0 : ℕ) ∧
      AtLeast o.minNonevent (f.nonevent.getD k 0 : ℕ) ∧ AtMost o.maxNonevent (f.nonevent.getD k 0 : ℕ) ∧
      AtLeast o.minEvent (f.event.getD k 0 : ℕ) ∧ AtMost o.maxEvent (f.event.getD k 0 : ℕ) := by
  obtain ⟨inp, sol, -, -, -, -, ha, -, -, hn, hrow⟩ := table_mip ho hsolver h hs hne
  refine ⟨hn ▸ ha.minBins, hn ▸ ha.maxBins, fun k hk => ?_⟩
  obtain ⟨s, e, hb, -, e1, e2⟩ := hrow k hk
  rw [Nat.cast_add, ← e1, ← e2]
  exact ⟨ha.minSize s e hb, ha.maxSize s e hb, ha.minNonevent s e hb, ha.maxNonevent s e hb, ha.minEvent s e hb,
    ha.maxEvent s e hb⟩

theorem rate_row {inp : BinaryInput} {s e k : ℕ} (e1 : binTotal inp.ne s e = ((f.nonevent.getD k 0 : ℕ) : ℤ))
    (e2 : binTotal inp.ev s e = ((f.event.getD k 0 : ℕ) : ℤ)) : eventRate inp.ne inp.ev s e = f.rate k := by
  unfold eventRate Fitted.rate
  rw [e1, e2]
  push_cast
  rfl

/-- C12 on the table, `solver="mip"`: the Event rate column is exactly monotone on the regular rows. -/
theorem C12_table_mip {reg : ℝ} (ho : ∀ nev ev, c.opts nev ev = o) (hsolver : RespectsMIP c reg solver)
    (h : fitNumerical cfg sc so prebin solver recs = .ok f) (hs : f.Solved) {k k' : ℕ} (hkk : k < k')
    (hk' : k' ≤ f.splits.length) :
    (o.trend = .ascending → f.rate k ≤ f.rate k') ∧ (o.trend = .descending → f.rate k' ≤ f.rate k) := by
  have hne : f.splits ≠ [] := fun hc => by rw [hc] at hk'; simp at hk'; omega
  obtain ⟨inp, sol, -, -, -, -, ha, -, -, hn, hrow⟩ := table_mip ho hsolver h hs hne
  obtain ⟨s, e, hb, hbk, e1, e2⟩ := hrow k (by omega)
  obtain ⟨s', e', hb', hbk', e1', e2'⟩ := hrow k' hk'
  have hlt : e < e' := lt_of_lt_of_le (bin_lt hb hb' (by omega)) hb'.1
  rw [← rate_row e1 e2, ← rate_row e1' e2']
  have ht := ha.trend
  constructor
  · intro hto
    rw [hto] at ht
    exact Rat.cast_le.1 (ht s e s' e' hb hb' hlt trivial trivial)
  · intro hto
    rw [hto] at ht
    exact Rat.cast_le.1 (ht s e s' e' hb hb' hlt trivial trivial)

/-- C12 on the table, `solver="cp"`: the Event rate column is monotone up to 1e-6 on the regular rows. -/
theorem C12_table_cp {reg : ℤ} (ho : ∀ nev ev, c.opts nev ev = o) (hsolver : RespectsCP c reg solver)
    (h : fitNumerical cfg sc so prebin solver recs = .ok f) (hs : f.Solved) {k k' : ℕ} (hkk : k < k')
    (hk' : k' ≤ f.splits.length) :
    (o.trend = .ascending → f.rate k < f.rate k' + 1 / 1000000) ∧
    (o.trend = .descending → f.rate k' < f.rate k + 1 / 1000000) := by
  have hne : f.splits ≠ [] := fun hc => by rw [hc] at hk'; simp at hk'; omega
  obtain ⟨inp, sol, -, -, -, -, ha, -, -, hn, hrow⟩ := table_cp ho hsolver h hs hne
  obtain ⟨s, e, hb, hbk, e1, e2⟩ := hrow k (by omega)
  obtain ⟨s', e', hb', hbk', e1', e2'⟩ := hrow k' hk'
  have hlt : e < e' := lt_of_lt_of_le (bin_lt hb hb' (by omega)) hb'.1
  rw [← rate_row e1 e2, ← rate_row e1' e2']
  have ht := ha.trend
  constructor
  · intro hto
    rw [hto] at ht
    exact floor_le_imp (ht s e s' e' hb hb' hlt trivial trivial)
  · intro hto
    rw [hto] at ht
    exact floor_le_imp (ht s e s' e' hb hb' hlt trivial trivial)

/-- C14 on the table, `solver="mip"`: consecutive regular rows differ by at least `min_event_rate_diff`. -/
theorem C14_table_mip {reg : ℝ} (ho : ∀ nev ev, c.opts nev ev = o) (hsolver : RespectsMIP c reg solver)
    (h : fitNumerical cfg sc so prebin solver recs = .ok f) (hs : f.Solved) {k : ℕ} (hk : k + 1 ≤ f.splits.length) :
    c.minDiff ≤ |f.rate k - f.rate (k + 1)| := by
  have hne : f.splits ≠ [] := fun hc => by rw [hc] at hk; simp at hk
  obtain ⟨inp, sol, -, -, -, hd, ha, -, hsep, hn, hrow⟩ := table_mip ho hsolver h hs hne
  obtain ⟨s, e, hb, hbk, e1, e2⟩ := hrow k (by omega)
  obtain ⟨s', e', hb', hbk', e1', e2'⟩ := hrow (k + 1) hk
  have hlt := bin_lt hb hb' (by omega)
  have hcons : s' = e + 1 := by
    have h1 : binOf sol (e + 1) = k + 1 := by
      have := binOf_succ sol e
      rw [hb.2.2.1] at this
      simpa [hbk] using this
    have h2 := (binOf_iff hb' (e + 1)).1 (by omega)
    omega
  rw [← rate_row e1 e2, ← rate_row e1' e2', ← hd]
  rcases le_or_gt inp.minDiff 0 with h0 | h0
  · exact le_trans h0 (abs_nonneg _)
  · have := hsep s e s' e' hb hb' hlt (fun _ => hcons)
    unfold tooClose at this
    push Not at this
    exact this h0

/-- C15 on the table: no two consecutive regular rows (no two regular rows with policy "all") fail the proportion test. -/
theorem C15_table_cp {reg : ℤ} (ho : ∀ nev ev, c.opts nev ev = o) (hsolver : RespectsCP c reg solver)
    (h : fitNumerical cfg sc so prebin solver recs = .ok f) (hs : f.Solved) {t : ℕ → ℕ → ℕ → ℕ → Bool}
    (ht : c.test = some t) {k k' : ℕ} (hkk : k < k') (hk' : k' ≤ f.splits.length)
    (hpol : c.policy = .consecutive → k' = k + 1) :
    t (f.event.getD k 0) (f.nonevent.getD k 0) (f.event.getD k' 0) (f.nonevent.getD k' 0) = false := by
  have hne : f.splits ≠ [] := fun hc => by rw [hc] at hk'; simp at hk'; omega
  obtain ⟨inp, sol, hw, htt, hpp, -, ha, hsep, -, hn, hrow⟩ := table_cp ho hsolver h hs hne
  obtain ⟨s, e, hb, hbk, e1, e2⟩ := hrow k (by omega)
  obtain ⟨s', e', hb', hbk', e1', e2'⟩ := hrow k' hk'
  have hlt := bin_lt hb hb' (by omega)
  have := hsep s e s' e' hb hb' hlt (fun hp => by
    have hk1 := hpol (hpp ▸ hp)
    have h1 : binOf sol (e + 1) = k + 1 := by
      have := binOf_succ sol e
      rw [hb.2.2.1] at this
      simpa [hbk] using this
    have h2 := (binOf_iff hb' (e + 1)).1 (by omega)
    omega)
  unfold failsTest at this
  push Not at this
  have h3 := this t (htt.trans ht)
  rw [e1, e2, e1', e2'] at h3
  simpa using h3

end

/-- Non-vacuity: the concrete fit `exFit` has status FEASIBLE and three splits, and its solver respects the CP model. -/
example : (⟨"FEASIBLE", [3, 5, 7], [1, 2, 1, 1, 0, 1, 1], [1, 1, 1, 3, 1, 0, 1]⟩ : Fitted ℕ).Solved ∧
    ∃ reg, RespectsCP { div := fun _ _ => 0 } reg (exSolver fun _ _ => 0) := by
  refine ⟨Or.inr rfl, 0, ?_⟩
  intro nev ev
  unfold exSolver
  split_ifs with h
  · exact (Classical.choose_spec (C08_every_partition_accepted { nonevent := nev, event := ev, div := fun _ _ => 0 }
      ⟨h.1, h.2⟩ rfl rfl (fun _ => true) ⟨h.2, rfl⟩)).1
  · exact ⟨by decide, by decide⟩

/-- C09, limit of the statement: if the refinement removes every split, the reported status is OPTIMAL although the solver
never ran: with `min_n_bins=2` (any solver respecting it, any options at all) the result has one bin. -/
theorem C09_optimal_without_solver (solver : Solver) :
    ∃ (recs : List (Rec ℕ)) (f : Fitted ℕ), KnownTargets recs ∧ (∀ r ∈ recs, r.w = 1) ∧
      fitNumerical {} .none {} (fun _ => [2]) solver recs = .ok f ∧ f.status = "OPTIMAL" ∧ f.splits.length + 1 = 1 := by
  set recs : List (Rec ℕ) := [⟨some 1, some true, 1⟩, ⟨some 1, some true, 1⟩, ⟨some 3, some false, 1⟩,
    ⟨some 3, some false, 1⟩] with hr
  refine ⟨recs, ⟨"OPTIMAL", [], [2, 0, 0], [2, 0, 0]⟩, ?_, ?_, ?_, rfl, rfl⟩
  · unfold KnownTargets; simp [hr]
  · simp [hr]
  · have h1 : prebinCounts false 2 [2] (splitData .none {} recs).clean false = [0, 2] := by decide +kernel
    have h2 : prebinCounts false 2 [2] (splitData .none {} recs).clean true = [2, 0] := by decide +kernel
    have h0 : computePrebins {} (splitData .none {} recs).clean {} [2] = .ok ⟨{ nRefinements := 1 }, [], [], []⟩ := by
      rw [computePrebins]
      simp only [prebinNumber, h1, h2, List.length_cons, List.length_nil, Bool.false_eq_true, if_false]
      rw [show (select [2] ((maskSplits false (pureMask [0, 2] [2, 0])).map (!·))) = [] by decide]
      rw [computePrebins]
      simp [pureMask]
    have hs : ∀ e, specialCounts .none (splitData .none {} recs).special e = [0] := by decide +kernel
    have hm : ∀ e, truncWeight ((splitData .none {} recs).missing.filter fun q => q.isEvent == e) = 0 := by
      decide +kernel
    have hc : ∀ e, truncWeight ((splitData .none {} recs).clean.filter fun q => q.isEvent == e) = 2 := by
      decide +kernel
    simp only [fitNumerical, fitFrom, fitCore, h0, bind, Except.bind, pure, Except.pure, hs, hm, hc]
    rfl

/-- C19 on the table: with any status other than OPTIMAL/FEASIBLE there is no split, and the only regular row holds all
clean records of the class. -/
theorem C19_single_row {cfg : PrebinCfg} {sc : SpecialCodes α} {prebin : List (Rec α) → List α} {solver : Solver}
    {c : SolverCfg} {recs : List (Rec α)} {f : Fitted α} (hsc : ProperCodes sc) (hk : KnownTargets recs)
    (hw : WholeWeights recs) (hsolver : Respects c solver) (hsort : ∀ l, (prebin l).Pairwise (· ≤ ·))
    (h : fitNumerical cfg sc {} prebin solver recs = .ok f) (hs : ¬ f.Solved) (event : Bool) :
    f.splits = [] ∧ (((f.column event).getD 0 0 : ℕ) : ℚ) =
      weight recs (fun r => r.y = some event ∧ r.x ≠ none ∧ ¬ sc.codes.contains r.x) := by
  have hsp : f.splits = [] := by
    by_contra hne
    obtain ⟨st', hf⟩ := fitNumerical_from h
    obtain ⟨nev, ev, h1, h2, h3, h4, -⟩ := fitFrom_rows rfl (fun nev ev hn => hsolver.last nev ev hn) hf hne
    cases ha : solver nev ev with
    | optimal a => rw [ha] at h3; exact hs (Or.inl h3)
    | feasible a => rw [ha] at h3; exact hs (Or.inr h3)
    | other s =>
      rw [ha] at h4
      simp only [solve] at h4
      have : ((List.range nev.length).map fun i => i == nev.length - 1).count true = 1 := by
        obtain ⟨m, hm⟩ := Nat.exists_eq_succ_of_ne_zero (show nev.length ≠ 0 by omega)
        rw [hm, List.range_succ, List.map_append, List.count_append]
        have : ((List.range m).map fun i => i == m.succ - 1).count true = 0 := by
          rw [List.count_eq_zero]
          simp only [List.mem_map, List.mem_range, beq_iff_eq, not_exists, not_and]
          intro i hi
          omega
        rw [this]
        simp
      have hp : 0 < f.splits.length := List.length_pos_iff.2 hne
      omega
  refine ⟨hsp, ?_⟩
  rw [(C03_histogram hsc hk hw hsolver hsort h event).2 0]
  refine weight_congr fun r hr => ?_
  obtain ⟨k, e1, e2, e3, e4⟩ := C05_no_confusion f sc hsc r.x
  rw [e1, hsp] at *
  simp only [List.length_nil, Nat.le_zero, List.cons.injEq, and_true] at *
  rw [contains_codes_iff, ← e3]
  constructor
  · rintro ⟨a, b⟩; exact ⟨a, by exact_mod_cast b⟩
  · rintro ⟨a, b⟩; exact ⟨a, by exact_mod_cast b⟩

/-! ## C16 -/

theorem mem_zip_select {β γ : Type*} {l : List β} {g : List γ} {m : List Bool} {s : β} {b : γ} (h : (s, b) ∈ l.zip g)
    (hl : l.length = m.length) (hg : g.length = m.length)
    (hm : ∀ i (h1 : i < l.length) (h2 : i < g.length) (h3 : i < m.length), l[i] = s → g[i] = b → m[i] = true) :
    (s, b) ∈ (select l m).zip (select g m) := by
  induction l generalizing g m with
  | nil => simp at h
  | cons a l ih =>
    cases g with
    | nil => simp at h
    | cons d g =>
      cases m with
      | nil => simp at hl
      | cons t m =>
        have ih' : (s, b) ∈ l.zip g → (s, b) ∈ (select l m).zip (select g m) := fun h' =>
          ih h' (by simpa using hl) (by simpa using hg) fun i h1 h2 h3 e1 e2 =>
            hm (i + 1) (by simpa using h1) (by simpa using h2) (by simpa using h3) (by simpa using e1) (by simpa using e2)
        rw [List.zip_cons_cons, List.mem_cons] at h
        cases t with
        | true =>
          rw [select_cons_true, select_cons_true, List.zip_cons_cons, List.mem_cons]
          exact h.imp id ih'
        | false =>
          rw [select_cons_false, select_cons_false]
          rcases h with h | h
          · have := hm 0 (by simp) (by simp) (by simp) (by simpa using (Prod.mk.inj h).1.symm)
              (by simpa using (Prod.mk.inj h).2.symm)
            simp at this
          · exact ih' h

/-- The refinement keeps every split flagged as fixed, together with its flag, or fails. -/
theorem computePrebins_fixed {cfg : PrebinCfg} {recs : List (Rec α)} {st : PrebinState α} {splits : List α}
    {fx : List Bool} {pb : Prebins α} (hfx : st.fixed = some fx) (hl : fx.length = splits.length)
    (h : computePrebins cfg recs st splits = .ok pb) :
    ∃ fx', pb.st.fixed = some fx' ∧ fx'.length = pb.splits.length ∧
      ∀ s, (s, true) ∈ splits.zip fx → (s, true) ∈ pb.splits.zip fx' := by
  induction hn : splits.length using Nat.strong_induction_on generalizing splits st fx with
  | _ n ih =>
    rw [computePrebins] at h
    simp only [hfx] at h
    split_ifs at h with h0 h1 h2 h3
    · cases h; exact ⟨fx, hfx, hl, fun _ h => h⟩
    · cases h; exact ⟨fx, rfl, hl, fun _ h => h⟩
    · have hm := maskSplits_any (c := cfg.catUser) (n := splits.length) (by omega)
        (by simp [pureMask, length_prebinCounts, prebinNumber]) h1
      set mask := maskSplits cfg.catUser (pureMask
          (prebinCounts cfg.catUser (prebinNumber cfg.catUser splits) splits recs false)
          (prebinCounts cfg.catUser (prebinNumber cfg.catUser splits) splits recs true)) with hmask
      have hlt := length_select_lt hm.1 hm.2
      obtain ⟨fx', e1, e2, e3⟩ := ih _ (hn ▸ hlt) (fx := select fx (mask.map (!·))) rfl
        (by rw [length_select _ _ (by simp [hm.1, hl]), length_select _ _ (by simp [hm.1])]) h rfl
      refine ⟨fx', e1, e2, fun s hs => e3 s ?_⟩
      refine mem_zip_select hs (by simp [hm.1]) (by simp [hm.1, hl]) fun i i1 i2 i3 _ e => ?_
      simp only [List.getElem_map, Bool.not_eq_true']
      have h4 : ¬ ((fx.zipWith and mask).any id = true) := h3
      rw [Bool.not_eq_true, List.any_eq_false] at h4
      have i4 : i < mask.length := by simpa using i3
      have := h4 ((fx.zipWith and mask)[i]'(by simp; omega)) (List.getElem_mem _)
      simpa [e] using this
    · cases h; exact ⟨fx, hfx, hl, fun _ h => h⟩

theorem mem_select {β : Type*} {l : List β} {m : List Bool} {i : ℕ} (h1 : i < l.length) (h2 : i < m.length)
    (h : m[i] = true) : l[i] ∈ select l m := by
  induction l generalizing m i with
  | nil => simp at h1
  | cons a l ih =>
    cases m with
    | nil => simp at h2
    | cons b m =>
      cases i with
      | zero =>
        have : b = true := by simpa using h
        subst this
        simp
      | succ i =>
        have := ih (m := m) (i := i) (by simpa using h1) (by simpa using h2) (by simpa using h)
        cases b <;> simp [this]

/-- C16, one fit of a numerical variable with user splits in any order: if the fit succeeds with status OPTIMAL or FEASIBLE
and the solver gets the flags the object holds after the refinement (binning.py:998, 1006), every user split flagged as
fixed is a split of the result. -/
theorem C16_fixed_splits_in_result {cfg : PrebinCfg} {sc : SpecialCodes α} {so : SplitOpts α} {solver : Solver}
    {c : SolverCfg} {st st' : PrebinState α} {fx : List Bool} {recs : List (Rec α)} {f : Fitted α}
    (hfx : st.fixed = some fx) (hsolver : Respects c solver)
    (hopt : ∀ nev ev, (c.opts nev ev).fixed = st'.fixed.map fun l i => l.getD i false)
    (h : fitUser cfg sc so solver st recs = .ok (st', f)) (hs : f.Solved) {s : α}
    (hsf : (s, true) ∈ st.userSplits.zip fx) : s ∈ f.splits := by
  unfold fitUser at h
  split_ifs at h with h0
  · simp [throw, throwThe, MonadExceptOf.throw, bind, Except.bind] at h
  cases hso : sortUserSplits st with
  | error e => simp [hso, bind, Except.bind] at h
  | ok r =>
    obtain ⟨st1, sorted⟩ := r
    simp only [hso, bind, Except.bind] at h
    have hsort : st1.fixed = some (((st.userSplits.zip fx).insertionSort fun a b => a.1 ≤ b.1).map Prod.snd) ∧
        sorted = ((st.userSplits.zip fx).insertionSort fun a b => a.1 ≤ b.1).map Prod.fst := by
      unfold sortUserSplits at hso
      split_ifs at hso
      simp only [hfx, Except.ok.injEq, Prod.mk.injEq] at hso
      obtain ⟨e1, e2⟩ := hso
      exact ⟨by rw [← e1], e2.symm⟩
    obtain ⟨hf1, hf2⟩ := hsort
    have hmem : (s, true) ∈ sorted.zip (((st.userSplits.zip fx).insertionSort fun a b => a.1 ≤ b.1).map Prod.snd) := by
      rw [hf2, ← List.unzip_fst, ← List.unzip_snd, List.zip_unzip]
      exact (List.mem_insertionSort _).2 hsf
    unfold fitFrom fitCore at h
    simp only [bind, Except.bind] at h
    cases hpb : computePrebins { cfg with catUser := false } (splitData sc so recs).clean st1 sorted with
    | error e => simp [hpb] at h
    | ok pb =>
      simp only [hpb, pure, Except.pure, Except.ok.injEq, Prod.mk.injEq] at h
      obtain ⟨hst, hf⟩ := h
      obtain ⟨fx', g1, g2, g3⟩ := computePrebins_fixed hf1 (by rw [hf2]; simp) hpb
      have hin := g3 s hmem
      obtain ⟨i, hi, hie⟩ := List.mem_iff_getElem.1 hin
      have hi1 : i < pb.splits.length := by simp at hi; omega
      have hi2 : i < fx'.length := by simp at hi; omega
      rw [List.getElem_zip, Prod.mk.injEq] at hie
      obtain ⟨-, hcase⟩ := computePrebins_spec _ _ _ _ _ hpb
      rcases hcase with ⟨h1, -⟩ | ⟨h1, h2, h3, -⟩
      · rw [h1] at hi1; simp at hi1
      have hl1 : pb.nonevent.length = pb.splits.length + 1 := by
        rw [h2, length_prebinCounts]; simp [prebinNumber]
      have hl2 : pb.event.length = pb.splits.length + 1 := by
        rw [h3, length_prebinCounts]; simp [prebinNumber]
      have hn2 : ¬ pb.nonevent.length ≤ 1 := by omega
      have hfs : f.splits = select pb.splits (solve pb.nonevent.length (solver pb.nonevent pb.event)).2.dropLast ∧
          f.status = (solve pb.nonevent.length (solver pb.nonevent pb.event)).1 := by
        rw [← hf]; simp [fitOptimizer, hn2]
      have hw : (c.input pb.nonevent pb.event).Wf := ⟨by show pb.event.length = pb.nonevent.length; omega,
        by show 0 < pb.nonevent.length; omega⟩
      have hs' : OptBinning.Solved (solve (c.input pb.nonevent pb.event).n (solver pb.nonevent pb.event)) := by
        unfold OptBinning.Solved
        show (solve pb.nonevent.length _).1 = _ ∨ (solve pb.nonevent.length _).1 = _
        rw [← hfs.2]; exact hs
      have hfixed : solOf (solve pb.nonevent.length (solver pb.nonevent pb.event)).2 i = true := by
        have hgo : (c.opts pb.nonevent pb.event).fixed = some fun i => fx'.getD i false := by
          rw [hopt, ← hst, g1]; rfl
        have hfi : (fun i => fx'.getD i false) i = true := by
          simp only [List.getD_eq_getElem _ _ hi2, hie.2]
        have hlt : i + 1 < (c.input pb.nonevent pb.event).n := by show i + 1 < pb.nonevent.length; omega
        rcases hsolver with ⟨reg, hr⟩ | ⟨reg, hr⟩
        · exact (cp_master hw (hr pb.nonevent pb.event) hs').1.fixed _ hgo i hlt hfi
        · exact (mip_master hw (hr pb.nonevent pb.event) hs').1.fixed _ hgo i hlt hfi
      have hsl := solve_length pb.nonevent.length (solver pb.nonevent pb.event)
      rw [hfs.1, ← hie.1]
      refine mem_select hi1 (by simp [hsl]; omega) ?_
      rw [List.getElem_dropLast]
      unfold solOf at hfixed
      rwa [List.getD_eq_getElem _ _ (by omega)] at hfixed

open Classical in
/-- A solver that keeps every pre-bin as a bin whenever the CP model accepts that. -/
noncomputable def keepAll (c : SolverCfg) : Solver := fun nev ev =>
  if h : ∃ a, acceptsCP (c.opts nev ev) (c.input nev ev) a ∧ (fun k => a.x k k != 0) = fun _ => true then
    .feasible (Classical.choose h)
  else .other "UNKNOWN"

theorem keepAll_respects (c : SolverCfg) : RespectsCP c 0 (keepAll c) := by
  intro nev ev
  unfold keepAll
  split_ifs with h
  · exact (Classical.choose_spec h).1
  · exact ⟨by decide, by decide⟩

theorem keepAll_solve (c : SolverCfg) (nev ev : List ℕ)
    (h : ∃ a, acceptsCP (c.opts nev ev) (c.input nev ev) a ∧ (fun k => a.x k k != 0) = fun _ => true) :
    solve nev.length (keepAll c nev ev) = ("FEASIBLE", List.replicate nev.length true) := by
  unfold keepAll
  rw [dif_pos h]
  have := (Classical.choose_spec h).2
  simp only [solve, Prod.mk.injEq, true_and]
  rw [this]
  simp

/-- Non-vacuity of `C16_fixed_splits_in_result`: user splits `[2, 1]` with `2` fixed. -/
example : ∃ (c : SolverCfg) (recs : List (Rec ℕ)) (st' : PrebinState ℕ) (f : Fitted ℕ), Respects c (keepAll c) ∧
    (∀ nev ev, (c.opts nev ev).fixed = st'.fixed.map fun l i => l.getD i false) ∧
    fitUser {} .none {} (keepAll c) { userSplits := [2, 1], fixed := some [true, false] } recs = .ok (st', f) ∧
    f.Solved ∧ f.splits = [1, 2] := by
  set recs : List (Rec ℕ) := [⟨some 0, some true, 1⟩, ⟨some 0, some false, 1⟩, ⟨some 1, some true, 1⟩,
    ⟨some 1, some false, 1⟩, ⟨some 2, some true, 1⟩, ⟨some 2, some false, 1⟩] with hr
  let c : SolverCfg := { opts := fun _ _ => { fixed := some fun i => [false, true].getD i false }, div := fun _ _ => 0 }
  refine ⟨c, recs, { userSplits := [2, 1], fixed := some [false, true] },
    ⟨"FEASIBLE", [1, 2], [1, 1, 1, 0, 0], [1, 1, 1, 0, 0]⟩, Or.inl ⟨0, keepAll_respects c⟩, fun _ _ => rfl, ?_, Or.inr rfl, rfl⟩
  have hacc : ∃ a, acceptsCP (c.opts [1, 1, 1] [1, 1, 1]) (c.input [1, 1, 1] [1, 1, 1]) a ∧
      (fun k => a.x k k != 0) = fun _ => true := by
    refine acceptsCP.complete ⟨rfl, by decide⟩ ⟨Or.inl (Or.inl rfl), by simp [c], by simp [c]⟩ ?_ ?_ ?_
    · exact ⟨⟨by decide, rfl⟩, by simp [c, AtLeast], by simp [c, AtMost], by simp [c, AtLeast], by simp [c, AtMost],
        by simp [c, AtLeast], by simp [c, AtMost], by simp [c, AtLeast], by simp [c, AtMost], trivial, by simp⟩
    · rintro s e s' e' - - - - ⟨t, ht, -⟩
      simp [c, SolverCfg.input] at ht
    · rintro s e s' e' - - - - ⟨h, -⟩
      simp [c, SolverCfg.input] at h
  have h1 : ∀ e, prebinCounts false 3 [1, 2] (splitData .none {} recs).clean e = [1, 1, 1] := by decide +kernel
  have h0 : computePrebins {} (splitData .none {} recs).clean { userSplits := [2, 1], fixed := some [false, true] } [1, 2] =
      .ok ⟨{ userSplits := [2, 1], fixed := some [false, true] }, [1, 2], [1, 1, 1], [1, 1, 1]⟩ := by
    rw [computePrebins]
    simp [prebinNumber, h1, pureMask]
  have hs : ∀ e, specialCounts .none (splitData .none {} recs).special e = [0] := by decide +kernel
  have hm : ∀ e, truncWeight ((splitData .none {} recs).missing.filter fun q => q.isEvent == e) = 0 := by
    decide +kernel
  have hso : sortUserSplits { userSplits := [2, 1], fixed := some [true, false] } =
      .ok (({ userSplits := [2, 1], fixed := some [false, true] } : PrebinState ℕ), [1, 2]) := rfl
  have hopt : fitOptimizer false (keepAll c) [1, 2] [1, 1, 1] [1, 1, 1] = ⟨"FEASIBLE", [1, 2], [true, true, true]⟩ := by
    rw [fitOptimizer, keepAll_solve c _ _ hacc]; rfl
  simp only [fitUser, hso, bind, Except.bind, fitFrom, fitCore, h0, pure, Except.pure, hs, hm, hopt]
  rfl

/-- C16, finding (refitting the same object): the flags stored by the first `fit` belong to the *sorted* splits, while the
splits stay in the user's order; the body of a second `fit` would permute the flags again and treat another split as fixed.  The argument
check refuses the array left by the first `fit` (`C117_second_fit_refused`), so this happens if the flags are converted back to a list
of Python bools (`opt.user_splits_fixed = opt.user_splits_fixed.tolist()`). -/
theorem C16_refit_fixes_other_split :
    ∃ (st st' a b : PrebinState ℕ) (recs : List (Rec ℕ)) (f : Fitted ℕ),
      st.userSplits = [2, 1] ∧ st.fixed = some [true, false] ∧
      fitUser {} .none {} (fun _ _ => .other "UNKNOWN") st recs = .ok (st', f) ∧
      sortUserSplits st = .ok (a, [1, 2]) ∧ a.fixed = some [false, true] ∧
      sortUserSplits st' = .ok (b, [1, 2]) ∧ b.fixed = some [true, false] := by
  set recs : List (Rec ℕ) := [⟨some 0, some true, 1⟩, ⟨some 0, some false, 1⟩, ⟨some 1, some true, 1⟩,
    ⟨some 1, some false, 1⟩, ⟨some 2, some true, 1⟩, ⟨some 2, some false, 1⟩] with hr
  refine ⟨{ userSplits := [2, 1], fixed := some [true, false] }, { userSplits := [2, 1], fixed := some [false, true] },
    { userSplits := [2, 1], fixed := some [false, true] }, { userSplits := [2, 1], fixed := some [true, false] }, recs,
    ⟨"UNKNOWN", [], [3, 0, 0], [3, 0, 0]⟩, rfl, rfl, ?_, rfl, rfl, rfl, rfl⟩
  have h1 : ∀ e, prebinCounts false 3 [1, 2] (splitData .none {} recs).clean e = [1, 1, 1] := by decide +kernel
  have h0 : computePrebins {} (splitData .none {} recs).clean { userSplits := [2, 1], fixed := some [false, true] } [1, 2] =
      .ok ⟨{ userSplits := [2, 1], fixed := some [false, true] }, [1, 2], [1, 1, 1], [1, 1, 1]⟩ := by
    rw [computePrebins]
    simp [prebinNumber, h1, pureMask]
  have hs : ∀ e, specialCounts .none (splitData .none {} recs).special e = [0] := by decide +kernel
  have hm : ∀ e, truncWeight ((splitData .none {} recs).missing.filter fun q => q.isEvent == e) = 0 := by
    decide +kernel
  have hso : sortUserSplits { userSplits := [2, 1], fixed := some [true, false] } =
      .ok (({ userSplits := [2, 1], fixed := some [false, true] } : PrebinState ℕ), [1, 2]) := rfl
  simp only [fitUser, hso, bind, Except.bind, fitFrom, fitCore, h0, pure, Except.pure, hs, hm]
  rfl

end OptBinning
