import Verif.Props.StreamSolve

/-!
# C71: what the options guarantee about the table of a streaming object

The solver-level statements (`cp_master`, `mip_master`) carried to the table of `solve`, as in `Props/FitTable.lean`.  The options limit the
counts shown in the table, which are those of the sketches (C69 bounds their distance from the data).
-/
set_option linter.unusedSectionVars false
namespace OptBinning
open Finset Spec
variable {α : Type*} [LinearOrder α]

section
variable {cfg : StreamCfg α} {c : SolverCfg} {solver : Solver} {ops : List (StreamOp α)} {f : StreamFit α} {o : Opts}

/-- If there is more than one pre-bin the solver was called and the regular rows of the table are its bins. -/
theorem stream_rows (heps : 0 < cfg.eps) (hsc : ¬ IsSpecialValue cfg.sc none) (hr : Respects c solver)
    (hf : ((Stream.run cfg ops).solve cfg solver).1 = .ok f) (h1 : 1 < f.nPrebins) :
    ∃ nev ev : List ℕ, ev.length = nev.length ∧ 2 ≤ nev.length ∧
      f.table.status = (solve nev.length (solver nev ev)).1 ∧
      (solve nev.length (solver nev ev)).2.count true = f.table.splits.length + 1 ∧
      ∀ k ≤ f.table.splits.length, ∃ s e, IsBin nev.length (solOf (solve nev.length (solver nev ev)).2) s e ∧
        binOf (solve nev.length (solver nev ev)).2 e = k ∧
        f.table.nonevent.getD k 0 = ∑ i ∈ Icc s e, nev.getD i 0 ∧ f.table.event.getD k 0 = ∑ i ∈ Icc s e, ev.getD i 0 := by
  obtain ⟨K, cand, pb, -, -, -, -, -, -, -, h8, -, h10⟩ :=
    solve_result heps hsc (holding_run cfg heps ops).1 (fun nev ev hn => hr.last nev ev hn) hf
  rcases h10 with ⟨hp, -⟩ | ⟨hp, sol, s1, s2, s3, s4, s5⟩
  · rw [hp] at h8; simp at h8; omega
  · have hl : ∀ ev, ((K ev).counts pb).length = pb.length + 1 := fun ev => length_counts _ _
    refine ⟨(K false).counts pb, (K true).counts pb, by rw [hl, hl], by rw [hl]; have := List.length_pos_iff.2 hp; omega, ?_⟩
    rw [hl, s3]
    have hcount : sol.count true = f.table.splits.length + 1 := by
      rw [s4, length_select _ _ (by simp [s1])]
      obtain ⟨l, hl⟩ := List.getLast?_eq_some_iff.1 s2
      rw [hl]; simp
    refine ⟨rfl, hcount, fun k hk => ?_⟩
    obtain ⟨a, b, hb, hbk, hacc⟩ := accumBins_bin sol s2 (k := k) (by rw [hcount]; exact Nat.lt_succ_of_le hk)
    have hrow : ∀ ev, (f.table.column ev).getD k 0 = ∑ i ∈ Icc a b, ((K ev).counts pb).getD i 0 := by
      intro ev
      rw [← hacc _ (by rw [hl, s1]), s5 ev, List.getD_append]
      rw [accumBins_length _ _ _ (by rw [hl, s1]), hcount]
      exact Nat.lt_succ_of_le hk
    exact ⟨a, b, s1 ▸ hb, hbk, hrow false, hrow true⟩

/-- All row-level guarantees at once, `solver="cp"`. -/
theorem stream_cp {reg : ℤ} (heps : 0 < cfg.eps) (hsc : ¬ IsSpecialValue cfg.sc none)
    (ho : ∀ nev ev, c.opts nev ev = o) (hsolver : RespectsCP c reg solver)
    (h : ((Stream.run cfg ops).solve cfg solver).1 = .ok f) (hs : f.table.Solved) (h2 : 1 < f.nPrebins) :
    ∃ inp : BinaryInput, ∃ sol : List Bool, inp.Wf ∧ inp.test = c.test ∧ inp.policy = c.policy ∧ inp.minDiff = c.minDiff ∧
      Admissible o inp.n (solOf sol) inp.ne inp.ev (rate6 inp) ∧
      Separated inp.policy inp.n (solOf sol) (failsTest inp) ∧
      Separated .consecutive inp.n (solOf sol) (tooClose6 inp) ∧
      numBins inp.n (solOf sol) = f.table.splits.length + 1 ∧
      ∀ k ≤ f.table.splits.length, ∃ s e, IsBin inp.n (solOf sol) s e ∧ binOf sol e = k ∧
        binTotal inp.ne s e = ((f.table.nonevent.getD k 0 : ℕ) : ℤ) ∧ binTotal inp.ev s e = ((f.table.event.getD k 0 : ℕ) : ℤ) := by
  obtain ⟨nev, ev, h1, h2, h3, h4, h5⟩ := stream_rows heps hsc (Or.inl ⟨reg, hsolver⟩) h h2
  have hw : (c.input nev ev).Wf := ⟨h1, by show 0 < nev.length; omega⟩
  have hv := hsolver nev ev
  rw [ho] at hv
  have hs' : OptBinning.Solved (solve (c.input nev ev).n (solver nev ev)) := by
    unfold OptBinning.Solved
    show (solve nev.length (solver nev ev)).1 = _ ∨ (solve nev.length (solver nev ev)).1 = _
    rw [← h3]; exact hs
  obtain ⟨m1, m2, m3⟩ := cp_master hw hv hs'
  refine ⟨c.input nev ev, (solve nev.length (solver nev ev)).2, hw, rfl, rfl, rfl, m1, m2, m3, ?_, ?_⟩
  · rw [numBins_eq]
    show binOf _ nev.length = _
    have := binOf_length (solve nev.length (solver nev ev)).2
    rw [solve_length] at this
    rw [this, h4]
  · intro k hk
    obtain ⟨s, e, hb, hbk, e1, e2⟩ := h5 k hk
    refine ⟨s, e, hb, hbk, ?_, ?_⟩
    · rw [e1]; exact binTotal_eq nev s e
    · rw [e2]; exact binTotal_eq ev s e

/-- All row-level guarantees at once, `solver="mip"`. -/
theorem stream_mip {reg : ℝ} (heps : 0 < cfg.eps) (hsc : ¬ IsSpecialValue cfg.sc none)
    (ho : ∀ nev ev, c.opts nev ev = o) (hsolver : RespectsMIP c reg solver)
    (h : ((Stream.run cfg ops).solve cfg solver).1 = .ok f) (hs : f.table.Solved) (h2 : 1 < f.nPrebins) :
    ∃ inp : BinaryInput, ∃ sol : List Bool, inp.Wf ∧ inp.test = c.test ∧ inp.policy = c.policy ∧ inp.minDiff = c.minDiff ∧
      Admissible o inp.n (solOf sol) inp.ne inp.ev (fun s e => (eventRate inp.ne inp.ev s e : ℝ)) ∧
      Separated inp.policy inp.n (solOf sol) (failsTest inp) ∧
      Separated .consecutive inp.n (solOf sol) (tooClose inp) ∧
      numBins inp.n (solOf sol) = f.table.splits.length + 1 ∧
      ∀ k ≤ f.table.splits.length, ∃ s e, IsBin inp.n (solOf sol) s e ∧ binOf sol e = k ∧
        binTotal inp.ne s e = ((f.table.nonevent.getD k 0 : ℕ) : ℤ) ∧ binTotal inp.ev s e = ((f.table.event.getD k 0 : ℕ) : ℤ) := by
  obtain ⟨nev, ev, h1, h2, h3, h4, h5⟩ := stream_rows heps hsc (Or.inr ⟨reg, hsolver⟩) h h2
  have hw : (c.input nev ev).Wf := ⟨h1, by show 0 < nev.length; omega⟩
  have hv := hsolver nev ev
  rw [ho] at hv
  have hs' : OptBinning.Solved (solve (c.input nev ev).n (solver nev ev)) := by
    unfold OptBinning.Solved
    show (solve nev.length (solver nev ev)).1 = _ ∨ (solve nev.length (solver nev ev)).1 = _
    rw [← h3]; exact hs
  obtain ⟨m1, m2, m3⟩ := mip_master hw hv hs'
  refine ⟨c.input nev ev, (solve nev.length (solver nev ev)).2, hw, rfl, rfl, rfl, m1, m2, m3, ?_, ?_⟩
  · rw [numBins_eq]
    show binOf _ nev.length = _
    have := binOf_length (solve nev.length (solver nev ev)).2
    rw [solve_length] at this
    rw [this, h4]
  · intro k hk
    obtain ⟨s, e, hb, hbk, e1, e2⟩ := h5 k hk
    refine ⟨s, e, hb, hbk, ?_, ?_⟩
    · rw [e1]; exact binTotal_eq nev s e
    · rw [e2]; exact binTotal_eq ev s e

/-- C71, `solver="cp"`: number of regular rows, records, non-events and events per regular row. -/
theorem C71_limits_cp {reg : ℤ} (heps : 0 < cfg.eps) (hsc : ¬ IsSpecialValue cfg.sc none)
    (ho : ∀ nev ev, c.opts nev ev = o) (hsolver : RespectsCP c reg solver)
    (h : ((Stream.run cfg ops).solve cfg solver).1 = .ok f)
    (hs : f.table.Solved) (h2 : 1 < f.nPrebins) :
    AtLeast o.minBins (f.table.splits.length + 1 : ℕ) ∧ AtMost o.maxBins (f.table.splits.length + 1 : ℕ) ∧
    ∀ k ≤ f.table.splits.length,
      AtLeast o.minSize (f.table.nonevent.getD k 0 + f.table.event.getD k 0 : ℕ) ∧
      AtMost o.maxSize (f.table.nonevent.getD k 0 + f.table.event.getD k 0 : ℕ) ∧
      AtLeast o.minNonevent (f.table.nonevent.getD k 0 : ℕ) ∧ AtMost o.maxNonevent (f.table.nonevent.getD k 0 : ℕ) ∧
      AtLeast o.minEvent (f.table.event.getD k 0 : ℕ) ∧ AtMost o.maxEvent (f.table.event.getD k 0 : ℕ) := by
  obtain ⟨inp, sol, -, -, -, -, ha, -, -, hn, hrow⟩ := stream_cp heps hsc ho hsolver h hs h2
  refine ⟨hn ▸ ha.minBins, hn ▸ ha.maxBins, fun k hk => ?_⟩
  obtain ⟨s, e, hb, -, e1, e2⟩ := hrow k hk
  rw [Nat.cast_add, ← e1, ← e2]
  exact ⟨ha.minSize s e hb, ha.maxSize s e hb, ha.minNonevent s e hb, ha.maxNonevent s e hb, ha.minEvent s e hb,
    ha.maxEvent s e hb⟩

/-- C71, `solver="mip"`. -/
theorem C71_limits_mip {reg : ℝ} (heps : 0 < cfg.eps) (hsc : ¬ IsSpecialValue cfg.sc none)
    (ho : ∀ nev ev, c.opts nev ev = o) (hsolver : RespectsMIP c reg solver)
    (h : ((Stream.run cfg ops).solve cfg solver).1 = .ok f)
    (hs : f.table.Solved) (h2 : 1 < f.nPrebins) :
    AtLeast o.minBins (f.table.splits.length + 1 : ℕ) ∧ AtMost o.maxBins (f.table.splits.length + 1 : ℕ) ∧
    ∀ k ≤ f.table.splits.length,
      AtLeast o.minSize (f.table.nonevent.getD k 0 + f.table.event.getD k 0 : ℕ) ∧
      AtMost o.maxSize (f.table.nonevent.getD k 0 + f.table.event.getD k 0 : ℕ) ∧
      AtLeast o.minNonevent (f.table.nonevent.getD k 0 : ℕ) ∧ AtMost o.maxNonevent (f.table.nonevent.getD k 0 : ℕ) ∧
      AtLeast o.minEvent (f.table.event.getD k 0 : ℕ) ∧ AtMost o.maxEvent (f.table.event.getD k 0 : ℕ) := by
  obtain ⟨inp, sol, -, -, -, -, ha, -, -, hn, hrow⟩ := stream_mip heps hsc ho hsolver h hs h2
  refine ⟨hn ▸ ha.minBins, hn ▸ ha.maxBins, fun k hk => ?_⟩
  obtain ⟨s, e, hb, -, e1, e2⟩ := hrow k hk
  rw [Nat.cast_add, ← e1, ← e2]
  exact ⟨ha.minSize s e hb, ha.maxSize s e hb, ha.minNonevent s e hb, ha.maxNonevent s e hb, ha.minEvent s e hb,
    ha.maxEvent s e hb⟩

/-- C71, `solver="mip"`: the Event rate column is exactly monotone on the regular rows. -/
theorem C71_trend_mip {reg : ℝ} (heps : 0 < cfg.eps) (hsc : ¬ IsSpecialValue cfg.sc none)
    (ho : ∀ nev ev, c.opts nev ev = o) (hsolver : RespectsMIP c reg solver)
    (h : ((Stream.run cfg ops).solve cfg solver).1 = .ok f)
    (hs : f.table.Solved) (h2 : 1 < f.nPrebins) {k k' : ℕ} (hkk : k < k')
    (hk' : k' ≤ f.table.splits.length) :
    (o.trend = .ascending → f.table.rate k ≤ f.table.rate k') ∧ (o.trend = .descending → f.table.rate k' ≤ f.table.rate k) := by
  obtain ⟨inp, sol, -, -, -, -, ha, -, -, hn, hrow⟩ := stream_mip heps hsc ho hsolver h hs h2
  obtain ⟨s, e, hb, hbk, e1, e2⟩ := hrow k (by omega)
  obtain ⟨s', e', hb', hbk', e1', e2'⟩ := hrow k' hk'
  have hlt : e < e' := lt_of_lt_of_le (bin_lt hb hb' (by omega)) hb'.1
  rw [← rate_row e1 e2, ← rate_row e1' e2']
  have ht := ha.trend
  constructor
  · intro hto
    rw [hto] at ht
    exact Rat.cast_le.1 (ht s e s' e' hb hb' hlt trivial trivial)
  · intro hto
    rw [hto] at ht
    exact Rat.cast_le.1 (ht s e s' e' hb hb' hlt trivial trivial)

/-- C71, `solver="cp"`: the Event rate column is monotone up to 1e-6 on the regular rows. -/
theorem C71_trend_cp {reg : ℤ} (heps : 0 < cfg.eps) (hsc : ¬ IsSpecialValue cfg.sc none)
    (ho : ∀ nev ev, c.opts nev ev = o) (hsolver : RespectsCP c reg solver)
    (h : ((Stream.run cfg ops).solve cfg solver).1 = .ok f)
    (hs : f.table.Solved) (h2 : 1 < f.nPrebins) {k k' : ℕ} (hkk : k < k')
    (hk' : k' ≤ f.table.splits.length) :
    (o.trend = .ascending → f.table.rate k < f.table.rate k' + 1 / 1000000) ∧
    (o.trend = .descending → f.table.rate k' < f.table.rate k + 1 / 1000000) := by
  obtain ⟨inp, sol, -, -, -, -, ha, -, -, hn, hrow⟩ := stream_cp heps hsc ho hsolver h hs h2
  obtain ⟨s, e, hb, hbk, e1, e2⟩ := hrow k (by omega)
  obtain ⟨s', e', hb', hbk', e1', e2'⟩ := hrow k' hk'
  have hlt : e < e' := lt_of_lt_of_le (bin_lt hb hb' (by omega)) hb'.1
  rw [← rate_row e1 e2, ← rate_row e1' e2']
  have ht := ha.trend
  constructor
  · intro hto
    rw [hto] at ht
    exact floor_le_imp (ht s e s' e' hb hb' hlt trivial trivial)
  · intro hto
    rw [hto] at ht
    exact floor_le_imp (ht s e s' e' hb hb' hlt trivial trivial)

/-- C71, `solver="mip"`: consecutive regular rows differ by at least `min_event_rate_diff`. -/
theorem C71_min_event_rate_diff_mip {reg : ℝ} (heps : 0 < cfg.eps) (hsc : ¬ IsSpecialValue cfg.sc none)
    (ho : ∀ nev ev, c.opts nev ev = o) (hsolver : RespectsMIP c reg solver)
    (h : ((Stream.run cfg ops).solve cfg solver).1 = .ok f)
    (hs : f.table.Solved) (h2 : 1 < f.nPrebins) {k : ℕ} (hk : k + 1 ≤ f.table.splits.length) :
    c.minDiff ≤ |f.table.rate k - f.table.rate (k + 1)| := by
  obtain ⟨inp, sol, -, -, -, hd, ha, -, hsep, hn, hrow⟩ := stream_mip heps hsc ho hsolver h hs h2
  obtain ⟨s, e, hb, hbk, e1, e2⟩ := hrow k (by omega)
  obtain ⟨s', e', hb', hbk', e1', e2'⟩ := hrow (k + 1) hk
  have hlt := bin_lt hb hb' (by omega)
  have hcons : s' = e + 1 := by
    have h1 : binOf sol (e + 1) = k + 1 := by
      have := binOf_succ sol e
      rw [hb.2.2.1] at this
      simpa [hbk] using this
    have h2 := (binOf_iff hb' (e + 1)).1 (by omega)
    omega
  rw [← rate_row e1 e2, ← rate_row e1' e2', ← hd]
  rcases le_or_gt inp.minDiff 0 with h0 | h0
  · exact le_trans h0 (abs_nonneg _)
  · have := hsep s e s' e' hb hb' hlt (fun _ => hcons)
    unfold tooClose at this
    push Not at this
    exact this h0

/-- C71: no two consecutive regular rows (no two regular rows with policy "all") fail the proportion test. -/
theorem C71_test_cp {reg : ℤ} (heps : 0 < cfg.eps) (hsc : ¬ IsSpecialValue cfg.sc none)
    (ho : ∀ nev ev, c.opts nev ev = o) (hsolver : RespectsCP c reg solver)
    (h : ((Stream.run cfg ops).solve cfg solver).1 = .ok f)
    (hs : f.table.Solved) (h2 : 1 < f.nPrebins) {t : ℕ → ℕ → ℕ → ℕ → Bool}
    (ht : c.test = some t) {k k' : ℕ} (hkk : k < k') (hk' : k' ≤ f.table.splits.length)
    (hpol : c.policy = .consecutive → k' = k + 1) :
    t (f.table.event.getD k 0) (f.table.nonevent.getD k 0) (f.table.event.getD k' 0) (f.table.nonevent.getD k' 0) = false := by
  obtain ⟨inp, sol, hw, htt, hpp, -, ha, hsep, -, hn, hrow⟩ := stream_cp heps hsc ho hsolver h hs h2
  obtain ⟨s, e, hb, hbk, e1, e2⟩ := hrow k (by omega)
  obtain ⟨s', e', hb', hbk', e1', e2'⟩ := hrow k' hk'
  have hlt := bin_lt hb hb' (by omega)
  have := hsep s e s' e' hb hb' hlt (fun hp => by
    have hk1 := hpol (hpp ▸ hp)
    have h1 : binOf sol (e + 1) = k + 1 := by
      have := binOf_succ sol e
      rw [hb.2.2.1] at this
      simpa [hbk] using this
    have h2 := (binOf_iff hb' (e + 1)).1 (by omega)
    omega)
  unfold failsTest at this
  push Not at this
  have h3 := this t (htt.trans ht)
  rw [e1, e2, e1', e2'] at h3
  simpa using h3

/-- C71: no two consecutive regular rows (no two regular rows with policy "all") fail the proportion test, `solver="mip"`. -/
theorem C71_test_mip {reg : ℝ} (heps : 0 < cfg.eps) (hsc : ¬ IsSpecialValue cfg.sc none)
    (ho : ∀ nev ev, c.opts nev ev = o) (hsolver : RespectsMIP c reg solver)
    (h : ((Stream.run cfg ops).solve cfg solver).1 = .ok f)
    (hs : f.table.Solved) (h2 : 1 < f.nPrebins) {t : ℕ → ℕ → ℕ → ℕ → Bool}
    (ht : c.test = some t) {k k' : ℕ} (hkk : k < k') (hk' : k' ≤ f.table.splits.length)
    (hpol : c.policy = .consecutive → k' = k + 1) :
    t (f.table.event.getD k 0) (f.table.nonevent.getD k 0) (f.table.event.getD k' 0) (f.table.nonevent.getD k' 0) = false := by
  obtain ⟨inp, sol, hw, htt, hpp, -, ha, hsep, -, hn, hrow⟩ := stream_mip heps hsc ho hsolver h hs h2
  obtain ⟨s, e, hb, hbk, e1, e2⟩ := hrow k (by omega)
  obtain ⟨s', e', hb', hbk', e1', e2'⟩ := hrow k' hk'
  have hlt := bin_lt hb hb' (by omega)
  have := hsep s e s' e' hb hb' hlt (fun hp => by
    have hk1 := hpol (hpp ▸ hp)
    have h1 : binOf sol (e + 1) = k + 1 := by
      have := binOf_succ sol e
      rw [hb.2.2.1] at this
      simpa [hbk] using this
    have h2 := (binOf_iff hb' (e + 1)).1 (by omega)
    omega)
  unfold failsTest at this
  push Not at this
  have h3 := this t (htt.trans ht)
  rw [e1, e2, e1', e2'] at h3
  simpa using h3

/-- C71: with any status other than OPTIMAL and FEASIBLE there is no split. -/
theorem C71_unsolved (heps : 0 < cfg.eps) (hsc : ¬ IsSpecialValue cfg.sc none) (hr : Respects c solver)
    (hf : ((Stream.run cfg ops).solve cfg solver).1 = .ok f) (hs : ¬ f.table.Solved) : f.table.splits = [] := by
  by_cases h2 : 1 < f.nPrebins
  · obtain ⟨nev, ev, h1, h2, h3, h4, -⟩ := stream_rows heps hsc hr hf h2
    cases ha : solver nev ev with
    | optimal a => rw [ha] at h3; exact absurd (Or.inl h3) hs
    | feasible a => rw [ha] at h3; exact absurd (Or.inr h3) hs
    | other s =>
      rw [ha] at h4
      simp only [solve] at h4
      have : ((List.range nev.length).map fun i => i == nev.length - 1).count true = 1 := by
        obtain ⟨m, hm⟩ := Nat.exists_eq_succ_of_ne_zero (show nev.length ≠ 0 by omega)
        rw [hm, List.range_succ, List.map_append, List.count_append]
        have : ((List.range m).map fun i => i == m.succ - 1).count true = 0 := by
          rw [List.count_eq_zero]
          simp only [List.mem_map, List.mem_range, beq_iff_eq, not_exists, not_and]
          intro i hi
          omega
        rw [this]
        simp
      rw [← List.length_eq_zero_iff]
      omega
  · obtain ⟨K, cand, pb, -, -, -, -, -, -, -, h8, -, h10⟩ := solve_history heps hsc hr hf
    rcases h10 with ⟨-, -, hs, -⟩ | ⟨hp, -⟩
    · exact hs
    · have := List.length_pos_iff.2 hp
      omega

end
end OptBinning
