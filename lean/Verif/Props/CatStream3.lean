import Verif.Props.CatStream2
import Verif.Props.StreamTable

/-!
# C75: what the options guarantee about the table of a categorical streaming object

The solver-level statements (`cp_master`, `mip_master`) carried to the table of `solve`, as in `Props/StreamTable.lean`.
-/
set_option linter.unusedSectionVars false
namespace OptBinning
open Finset Spec
variable {κ : Type} [LinearOrder κ]

/-- Column "Event rate" of row `k`. -/
def CatFitted.rate (f : CatFitted κ) (k : ℕ) : ℚ :=
  ((f.event.getD k 0 : ℕ) : ℚ) / (((f.nonevent.getD k 0 : ℕ) : ℚ) + ((f.event.getD k 0 : ℕ) : ℚ))

/-- Status OPTIMAL or FEASIBLE. -/
def CatFitted.Solved (f : CatFitted κ) : Prop := f.status = "OPTIMAL" ∨ f.status = "FEASIBLE"

section
variable {cfg : CatStreamCfg} {sc : SpecialCodes κ} {solver : Solver} {c : SolverCfg} {ops : List (SkOp (Rec κ))}
  {w : List (Option (List (Rec κ)))} {i : ℕ} {rows : List (Rec κ)} {f : CatStreamFit κ} {o : Opts}

theorem catRate_row {t : CatFitted κ} {inp : BinaryInput} {s e k : ℕ} (e1 : binTotal inp.ne s e = ((t.nonevent.getD k 0 : ℕ) : ℤ))
    (e2 : binTotal inp.ev s e = ((t.event.getD k 0 : ℕ) : ℤ)) : eventRate inp.ne inp.ev s e = t.rate k := by
  unfold eventRate CatFitted.rate
  rw [e1, e2]
  push_cast
  rfl

/-- If there is more than one pre-bin the solver was called and the regular rows of the table are its bins. -/
theorem catStream_rows (hm : 0 < cfg.maxPrebins) (hsc : ¬ IsSpecialValue sc none) (hw : ownedAll (fun _ _ => true) ops = some w)
    (hi : w[i]? = some (some rows)) (hr : Respects c solver)
    (hf : (CWorld.run sc ops).solve cfg solver i = .ok f) (h1 : 1 < f.nPrebins) :
    ∃ nev ev : List ℕ, ev.length = nev.length ∧ 2 ≤ nev.length ∧
      f.table.status = (solve nev.length (solver nev ev)).1 ∧
      (solve nev.length (solver nev ev)).2.count true = f.table.splits.length + 1 ∧
      ∀ k ≤ f.table.splits.length, ∃ s e, IsBin nev.length (solOf (solve nev.length (solver nev ev)).2) s e ∧
        binOf (solve nev.length (solver nev ev)).2 e = k ∧
        f.table.nonevent.getD k 0 = ∑ i ∈ Icc s e, nev.getD i 0 ∧ f.table.event.getD k 0 = ∑ i ∈ Icc s e, ev.getD i 0 := by
  obtain ⟨S, h⟩ := catStream_spec hm hsc hw hi hf
  have hS := catStream_S h1 h
  obtain ⟨sol, s1, s2, s3, -, s4, s5, s6⟩ := catStream_bins hr h hS
  have hl : ∀ ev, (groupSums (cnt S) S.length (catCounts sc rows f.table.categories ev)).length = S.length + 1 := by simp
  refine ⟨groupSums (cnt S) S.length (catCounts sc rows f.table.categories false), groupSums (cnt S) S.length (catCounts sc rows f.table.categories true),
    by simp, by have := List.length_pos_iff.2 hS; rw [hl]; omega, ?_⟩
  rw [hl, ← s4, ← s5]
  refine ⟨rfl, s3, fun k hk => ?_⟩
  obtain ⟨a, b, hb, hbk, hacc⟩ := accumBins_bin sol s2 (k := k) (by rw [s3]; exact Nat.lt_succ_of_le hk)
  have hrow : ∀ ev, (f.table.column ev).getD k 0 = ∑ i ∈ Icc a b, (groupSums (cnt S) S.length (catCounts sc rows f.table.categories ev)).getD i 0 := by
    intro ev
    rw [← hacc _ (by rw [hl, s1]), s6 ev, List.append_assoc, List.append_assoc, List.getD_append]
    rw [accumBins_length _ _ _ (by rw [hl, s1]), s3]
    exact Nat.lt_succ_of_le hk
  exact ⟨a, b, s1 ▸ hb, hbk, hrow false, hrow true⟩

/-- All row-level guarantees at once, `solver="cp"`. -/
theorem catStream_cp {reg : ℤ} (hm : 0 < cfg.maxPrebins) (hsc : ¬ IsSpecialValue sc none) (hw : ownedAll (fun _ _ => true) ops = some w)
    (hi : w[i]? = some (some rows))
    (ho : ∀ nev ev, c.opts nev ev = o) (hsolver : RespectsCP c reg solver)
    (h : (CWorld.run sc ops).solve cfg solver i = .ok f) (hs : f.table.Solved) (h2 : 1 < f.nPrebins) :
    ∃ inp : BinaryInput, ∃ sol : List Bool, inp.Wf ∧ inp.test = c.test ∧ inp.policy = c.policy ∧ inp.minDiff = c.minDiff ∧
      Admissible o inp.n (solOf sol) inp.ne inp.ev (rate6 inp) ∧
      Separated inp.policy inp.n (solOf sol) (failsTest inp) ∧
      Separated .consecutive inp.n (solOf sol) (tooClose6 inp) ∧
      numBins inp.n (solOf sol) = f.table.splits.length + 1 ∧
      ∀ k ≤ f.table.splits.length, ∃ s e, IsBin inp.n (solOf sol) s e ∧ binOf sol e = k ∧
        binTotal inp.ne s e = ((f.table.nonevent.getD k 0 : ℕ) : ℤ) ∧ binTotal inp.ev s e = ((f.table.event.getD k 0 : ℕ) : ℤ) := by
  obtain ⟨nev, ev, h1, h2, h3, h4, h5⟩ := catStream_rows hm hsc hw hi (Or.inl ⟨reg, hsolver⟩) h h2
  have hwf : (c.input nev ev).Wf := ⟨h1, by show 0 < nev.length; omega⟩
  have hv := hsolver nev ev
  rw [ho] at hv
  have hs' : OptBinning.Solved (solve (c.input nev ev).n (solver nev ev)) := by
    unfold OptBinning.Solved
    show (solve nev.length (solver nev ev)).1 = _ ∨ (solve nev.length (solver nev ev)).1 = _
    rw [← h3]; exact hs
  obtain ⟨m1, m2, m3⟩ := cp_master hwf hv hs'
  refine ⟨c.input nev ev, (solve nev.length (solver nev ev)).2, hwf, rfl, rfl, rfl, m1, m2, m3, ?_, ?_⟩
  · rw [numBins_eq]
    show binOf _ nev.length = _
    have := binOf_length (solve nev.length (solver nev ev)).2
    rw [solve_length] at this
    rw [this, h4]
  · intro k hk
    obtain ⟨s, e, hb, hbk, e1, e2⟩ := h5 k hk
    refine ⟨s, e, hb, hbk, ?_, ?_⟩
    · rw [e1]; exact binTotal_eq nev s e
    · rw [e2]; exact binTotal_eq ev s e

/-- All row-level guarantees at once, `solver="mip"`. -/
theorem catStream_mip {reg : ℝ} (hm : 0 < cfg.maxPrebins) (hsc : ¬ IsSpecialValue sc none) (hw : ownedAll (fun _ _ => true) ops = some w)
    (hi : w[i]? = some (some rows))
    (ho : ∀ nev ev, c.opts nev ev = o) (hsolver : RespectsMIP c reg solver)
    (h : (CWorld.run sc ops).solve cfg solver i = .ok f) (hs : f.table.Solved) (h2 : 1 < f.nPrebins) :
    ∃ inp : BinaryInput, ∃ sol : List Bool, inp.Wf ∧ inp.test = c.test ∧ inp.policy = c.policy ∧ inp.minDiff = c.minDiff ∧
      Admissible o inp.n (solOf sol) inp.ne inp.ev (fun s e => (eventRate inp.ne inp.ev s e : ℝ)) ∧
      Separated inp.policy inp.n (solOf sol) (failsTest inp) ∧
      Separated .consecutive inp.n (solOf sol) (tooClose inp) ∧
      numBins inp.n (solOf sol) = f.table.splits.length + 1 ∧
      ∀ k ≤ f.table.splits.length, ∃ s e, IsBin inp.n (solOf sol) s e ∧ binOf sol e = k ∧
        binTotal inp.ne s e = ((f.table.nonevent.getD k 0 : ℕ) : ℤ) ∧ binTotal inp.ev s e = ((f.table.event.getD k 0 : ℕ) : ℤ) := by
  obtain ⟨nev, ev, h1, h2, h3, h4, h5⟩ := catStream_rows hm hsc hw hi (Or.inr ⟨reg, hsolver⟩) h h2
  have hwf : (c.input nev ev).Wf := ⟨h1, by show 0 < nev.length; omega⟩
  have hv := hsolver nev ev
  rw [ho] at hv
  have hs' : OptBinning.Solved (solve (c.input nev ev).n (solver nev ev)) := by
    unfold OptBinning.Solved
    show (solve nev.length (solver nev ev)).1 = _ ∨ (solve nev.length (solver nev ev)).1 = _
    rw [← h3]; exact hs
  obtain ⟨m1, m2, m3⟩ := mip_master hwf hv hs'
  refine ⟨c.input nev ev, (solve nev.length (solver nev ev)).2, hwf, rfl, rfl, rfl, m1, m2, m3, ?_, ?_⟩
  · rw [numBins_eq]
    show binOf _ nev.length = _
    have := binOf_length (solve nev.length (solver nev ev)).2
    rw [solve_length] at this
    rw [this, h4]
  · intro k hk
    obtain ⟨s, e, hb, hbk, e1, e2⟩ := h5 k hk
    refine ⟨s, e, hb, hbk, ?_, ?_⟩
    · rw [e1]; exact binTotal_eq nev s e
    · rw [e2]; exact binTotal_eq ev s e

/-- C75, `solver="cp"`: number of regular rows, records, non-events and events per regular row. -/
theorem C75_limits_cp {reg : ℤ} (hm : 0 < cfg.maxPrebins) (hsc : ¬ IsSpecialValue sc none) (hw : ownedAll (fun _ _ => true) ops = some w)
    (hi : w[i]? = some (some rows))
    (ho : ∀ nev ev, c.opts nev ev = o) (hsolver : RespectsCP c reg solver)
    (h : (CWorld.run sc ops).solve cfg solver i = .ok f)
    (hs : f.table.Solved) (h2 : 1 < f.nPrebins) :
    AtLeast o.minBins (f.table.splits.length + 1 : ℕ) ∧ AtMost o.maxBins (f.table.splits.length + 1 : ℕ) ∧
    ∀ k ≤ f.table.splits.length,
      AtLeast o.minSize (f.table.nonevent.getD k 0 + f.table.event.getD k 0 : ℕ) ∧
      AtMost o.maxSize (f.table.nonevent.getD k 0 + f.table.event.getD k 0 : ℕ) ∧
      AtLeast o.minNonevent (f.table.nonevent.getD k 0 : ℕ) ∧ AtMost o.maxNonevent (f.table.nonevent.getD k 0 : ℕ) ∧
      AtLeast o.minEvent (f.table.event.getD k 0 : ℕ) ∧ AtMost o.maxEvent (f.table.event.getD k 0 : ℕ) := by
  obtain ⟨inp, sol, -, -, -, -, ha, -, -, hn, hrow⟩ := catStream_cp hm hsc hw hi ho hsolver h hs h2
  refine ⟨hn ▸ ha.minBins, hn ▸ ha.maxBins, fun k hk => ?_⟩
  obtain ⟨s, e, hb, -, e1, e2⟩ := hrow k hk
  rw [Nat.cast_add, ← e1, ← e2]
  exact ⟨ha.minSize s e hb, ha.maxSize s e hb, ha.minNonevent s e hb, ha.maxNonevent s e hb, ha.minEvent s e hb,
    ha.maxEvent s e hb⟩

/-- C75, `solver="mip"`. -/
theorem C75_limits_mip {reg : ℝ} (hm : 0 < cfg.maxPrebins) (hsc : ¬ IsSpecialValue sc none) (hw : ownedAll (fun _ _ => true) ops = some w)
    (hi : w[i]? = some (some rows))
    (ho : ∀ nev ev, c.opts nev ev = o) (hsolver : RespectsMIP c reg solver)
    (h : (CWorld.run sc ops).solve cfg solver i = .ok f)
    (hs : f.table.Solved) (h2 : 1 < f.nPrebins) :
    AtLeast o.minBins (f.table.splits.length + 1 : ℕ) ∧ AtMost o.maxBins (f.table.splits.length + 1 : ℕ) ∧
    ∀ k ≤ f.table.splits.length,
      AtLeast o.minSize (f.table.nonevent.getD k 0 + f.table.event.getD k 0 : ℕ) ∧
      AtMost o.maxSize (f.table.nonevent.getD k 0 + f.table.event.getD k 0 : ℕ) ∧
      AtLeast o.minNonevent (f.table.nonevent.getD k 0 : ℕ) ∧ AtMost o.maxNonevent (f.table.nonevent.getD k 0 : ℕ) ∧
      AtLeast o.minEvent (f.table.event.getD k 0 : ℕ) ∧ AtMost o.maxEvent (f.table.event.getD k 0 : ℕ) := by
  obtain ⟨inp, sol, -, -, -, -, ha, -, -, hn, hrow⟩ := catStream_mip hm hsc hw hi ho hsolver h hs h2
  refine ⟨hn ▸ ha.minBins, hn ▸ ha.maxBins, fun k hk => ?_⟩
  obtain ⟨s, e, hb, -, e1, e2⟩ := hrow k hk
  rw [Nat.cast_add, ← e1, ← e2]
  exact ⟨ha.minSize s e hb, ha.maxSize s e hb, ha.minNonevent s e hb, ha.maxNonevent s e hb, ha.minEvent s e hb,
    ha.maxEvent s e hb⟩

/-- C75, `solver="mip"`: the Event rate column is exactly monotone on the regular rows. -/
theorem C75_trend_mip {reg : ℝ} (hm : 0 < cfg.maxPrebins) (hsc : ¬ IsSpecialValue sc none) (hw : ownedAll (fun _ _ => true) ops = some w)
    (hi : w[i]? = some (some rows))
    (ho : ∀ nev ev, c.opts nev ev = o) (hsolver : RespectsMIP c reg solver)
    (h : (CWorld.run sc ops).solve cfg solver i = .ok f)
    (hs : f.table.Solved) (h2 : 1 < f.nPrebins) {k k' : ℕ} (hkk : k < k')
    (hk' : k' ≤ f.table.splits.length) :
    (o.trend = .ascending → f.table.rate k ≤ f.table.rate k') ∧ (o.trend = .descending → f.table.rate k' ≤ f.table.rate k) := by
  obtain ⟨inp, sol, -, -, -, -, ha, -, -, hn, hrow⟩ := catStream_mip hm hsc hw hi ho hsolver h hs h2
  obtain ⟨s, e, hb, hbk, e1, e2⟩ := hrow k (by omega)
  obtain ⟨s', e', hb', hbk', e1', e2'⟩ := hrow k' hk'
  have hlt : e < e' := lt_of_lt_of_le (bin_lt hb hb' (by omega)) hb'.1
  rw [← catRate_row e1 e2, ← catRate_row e1' e2']
  have ht := ha.trend
  constructor
  · intro hto
    rw [hto] at ht
    exact Rat.cast_le.1 (ht s e s' e' hb hb' hlt trivial trivial)
  · intro hto
    rw [hto] at ht
    exact Rat.cast_le.1 (ht s e s' e' hb hb' hlt trivial trivial)

/-- C75, `solver="cp"`: the Event rate column is monotone up to 1e-6 on the regular rows. -/
theorem C75_trend_cp {reg : ℤ} (hm : 0 < cfg.maxPrebins) (hsc : ¬ IsSpecialValue sc none) (hw : ownedAll (fun _ _ => true) ops = some w)
    (hi : w[i]? = some (some rows))
    (ho : ∀ nev ev, c.opts nev ev = o) (hsolver : RespectsCP c reg solver)
    (h : (CWorld.run sc ops).solve cfg solver i = .ok f)
    (hs : f.table.Solved) (h2 : 1 < f.nPrebins) {k k' : ℕ} (hkk : k < k')
    (hk' : k' ≤ f.table.splits.length) :
    (o.trend = .ascending → f.table.rate k < f.table.rate k' + 1 / 1000000) ∧
    (o.trend = .descending → f.table.rate k' < f.table.rate k + 1 / 1000000) := by
  obtain ⟨inp, sol, -, -, -, -, ha, -, -, hn, hrow⟩ := catStream_cp hm hsc hw hi ho hsolver h hs h2
  obtain ⟨s, e, hb, hbk, e1, e2⟩ := hrow k (by omega)
  obtain ⟨s', e', hb', hbk', e1', e2'⟩ := hrow k' hk'
  have hlt : e < e' := lt_of_lt_of_le (bin_lt hb hb' (by omega)) hb'.1
  rw [← catRate_row e1 e2, ← catRate_row e1' e2']
  have ht := ha.trend
  constructor
  · intro hto
    rw [hto] at ht
    exact floor_le_imp (ht s e s' e' hb hb' hlt trivial trivial)
  · intro hto
    rw [hto] at ht
    exact floor_le_imp (ht s e s' e' hb hb' hlt trivial trivial)

/-- C75, `solver="mip"`: consecutive regular rows differ by at least `min_event_rate_diff`. -/
theorem C75_min_event_rate_diff_mip {reg : ℝ} (hm : 0 < cfg.maxPrebins) (hsc : ¬ IsSpecialValue sc none) (hw : ownedAll (fun _ _ => true) ops = some w)
    (hi : w[i]? = some (some rows))
    (ho : ∀ nev ev, c.opts nev ev = o) (hsolver : RespectsMIP c reg solver)
    (h : (CWorld.run sc ops).solve cfg solver i = .ok f)
    (hs : f.table.Solved) (h2 : 1 < f.nPrebins) {k : ℕ} (hk : k + 1 ≤ f.table.splits.length) :
    c.minDiff ≤ |f.table.rate k - f.table.rate (k + 1)| := by
  obtain ⟨inp, sol, -, -, -, hd, ha, -, hsep, hn, hrow⟩ := catStream_mip hm hsc hw hi ho hsolver h hs h2
  obtain ⟨s, e, hb, hbk, e1, e2⟩ := hrow k (by omega)
  obtain ⟨s', e', hb', hbk', e1', e2'⟩ := hrow (k + 1) hk
  have hlt := bin_lt hb hb' (by omega)
  have hcons : s' = e + 1 := by
    have h1 : binOf sol (e + 1) = k + 1 := by
      have := binOf_succ sol e
      rw [hb.2.2.1] at this
      simpa [hbk] using this
    have h2 := (binOf_iff hb' (e + 1)).1 (by omega)
    omega
  rw [← catRate_row e1 e2, ← catRate_row e1' e2', ← hd]
  rcases le_or_gt inp.minDiff 0 with h0 | h0
  · exact le_trans h0 (abs_nonneg _)
  · have := hsep s e s' e' hb hb' hlt (fun _ => hcons)
    unfold tooClose at this
    push Not at this
    exact this h0

/-- C75: no two consecutive regular rows (no two regular rows with policy "all") fail the proportion test. -/
theorem C75_test_cp {reg : ℤ} (hm : 0 < cfg.maxPrebins) (hsc : ¬ IsSpecialValue sc none) (hw : ownedAll (fun _ _ => true) ops = some w)
    (hi : w[i]? = some (some rows))
    (ho : ∀ nev ev, c.opts nev ev = o) (hsolver : RespectsCP c reg solver)
    (h : (CWorld.run sc ops).solve cfg solver i = .ok f)
    (hs : f.table.Solved) (h2 : 1 < f.nPrebins) {t : ℕ → ℕ → ℕ → ℕ → Bool}
    (ht : c.test = some t) {k k' : ℕ} (hkk : k < k') (hk' : k' ≤ f.table.splits.length)
    (hpol : c.policy = .consecutive → k' = k + 1) :
    t (f.table.event.getD k 0) (f.table.nonevent.getD k 0) (f.table.event.getD k' 0) (f.table.nonevent.getD k' 0) = false := by
  obtain ⟨inp, sol, -, htt, hpp, -, ha, hsep, -, hn, hrow⟩ := catStream_cp hm hsc hw hi ho hsolver h hs h2
  obtain ⟨s, e, hb, hbk, e1, e2⟩ := hrow k (by omega)
  obtain ⟨s', e', hb', hbk', e1', e2'⟩ := hrow k' hk'
  have hlt := bin_lt hb hb' (by omega)
  have := hsep s e s' e' hb hb' hlt (fun hp => by
    have hk1 := hpol (hpp ▸ hp)
    have h1 : binOf sol (e + 1) = k + 1 := by
      have := binOf_succ sol e
      rw [hb.2.2.1] at this
      simpa [hbk] using this
    have h2 := (binOf_iff hb' (e + 1)).1 (by omega)
    omega)
  unfold failsTest at this
  push Not at this
  have h3 := this t (htt.trans ht)
  rw [e1, e2, e1', e2'] at h3
  simpa using h3


/-- C75: with any status other than OPTIMAL and FEASIBLE there is no split. -/
theorem C75_unsolved (hm : 0 < cfg.maxPrebins) (hsc : ¬ IsSpecialValue sc none) (hw : ownedAll (fun _ _ => true) ops = some w)
    (hi : w[i]? = some (some rows)) (hr : Respects c solver)
    (hf : (CWorld.run sc ops).solve cfg solver i = .ok f) (hs : ¬ f.table.Solved) : f.table.splits = [] := by
  by_cases h2 : 1 < f.nPrebins
  · obtain ⟨nev, ev, h1, h2, h3, h4, -⟩ := catStream_rows hm hsc hw hi hr hf h2
    cases ha : solver nev ev with
    | optimal a => rw [ha] at h3; exact absurd (Or.inl h3) hs
    | feasible a => rw [ha] at h3; exact absurd (Or.inr h3) hs
    | other s =>
      rw [ha] at h4
      simp only [solve] at h4
      have : ((List.range nev.length).map fun i => i == nev.length - 1).count true = 1 := by
        obtain ⟨m, hm⟩ := Nat.exists_eq_succ_of_ne_zero (show nev.length ≠ 0 by omega)
        rw [hm, List.range_succ, List.map_append, List.count_append]
        have : ((List.range m).map fun i => i == m.succ - 1).count true = 0 := by
          rw [List.count_eq_zero]
          simp only [List.mem_map, List.mem_range, beq_iff_eq, not_exists, not_and]
          intro i hi
          omega
        rw [this]
        simp
      rw [← List.length_eq_zero_iff]
      omega
  · refine (C73_single_prebin hm hsc hw hi hf ?_ true).1
    obtain ⟨S, h⟩ := catStream_spec hm hsc hw hi hf
    have := h.nPrebins
    omega

end
end OptBinning
