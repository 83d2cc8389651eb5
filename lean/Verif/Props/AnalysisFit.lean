import Verif.Props.Analysis2
import Verif.Props.FitTable

/-!
# C99: significance tests of a fitted binary binning
-/
namespace OptBinning
open Finset Spec

section
variable {α : Type*} [LinearOrder α]

theorem pureMaskFit_false {nev ev : List ℕ} (h : (pureMask nev ev).any id = false) (hl : ev.length = nev.length) {i : ℕ} (hi : i < nev.length) :
    0 < nev.getD i 0 ∧ 0 < ev.getD i 0 := by
  unfold pureMask at h
  rw [List.any_eq_false] at h
  have hz : i < (nev.zip ev).length := by rw [List.length_zip]; omega
  have := h _ (List.mem_map.2 ⟨(nev.zip ev)[i], List.getElem_mem hz, rfl⟩)
  rw [List.getElem_zip] at this
  simp only [id, Bool.or_eq_true, beq_iff_eq, not_or] at this
  rw [List.getD_eq_getElem _ _ hi, List.getD_eq_getElem _ _ (by omega)]
  exact ⟨Nat.pos_of_ne_zero this.1, Nat.pos_of_ne_zero this.2⟩

theorem fitCore_table {cfg : PrebinCfg} {solver : Solver} {clean : List (Rec α)} {others : Bool → Option ℕ}
    {special : Bool → List ℕ} {missing : Bool → ℕ} {st st' : PrebinState α} {splits : List α} {f : Fitted α} (hcat : cfg.catUser = false)
    (hsolver : ∀ nev ev : List ℕ, 0 < nev.length → (solve nev.length (solver nev ev)).2.getLast? = some true)
    (h : fitCore cfg solver clean others special missing st splits = .ok (st', f)) :
    ∃ ne e, TableB f.nonevent f.event (special false).length (others false).isSome ne e ∧ ne.length = f.splits.length + 1 ∧
      (cfg.keepPure = false → 2 ≤ ne.length → ∀ i < ne.length, 0 < ne.getD i 0 ∧ 0 < e.getD i 0) := by
  have htail : ((others false).toList ++ (special false) ++ [missing false]).length =
      (if (others false).isSome = true then 1 else 0) + (special false).length + 1 := by
    cases others false <;> simp [add_comm]
  have hrows := fun hne => fitCore_rows hcat hsolver h hne
  unfold fitCore at h
  cases hpb : computePrebins cfg clean st splits with
  | error e => simp [hpb, bind, Except.bind] at h
  | ok pb =>
    simp only [hpb, bind, Except.bind, pure, Except.pure, Except.ok.injEq, Prod.mk.injEq] at h
    obtain ⟨-, hf⟩ := h
    obtain ⟨hsub, hcase⟩ := computePrebins_spec _ _ _ _ _ hpb
    rcases hcase with ⟨h1, h2, h3⟩ | ⟨h1, h2, h3, hpure⟩
    · have hr : fitOptimizer cfg.catUser solver pb.splits pb.nonevent pb.event = ⟨"OPTIMAL", [], []⟩ := by
        simp [fitOptimizer, h1, h2]
      rw [hr] at hf
      subst hf
      simp only [h1, List.length_nil, if_true, binInfo, accumBins, List.nil_append, List.getD_cons_zero]
      refine ⟨[truncWeight (List.filter (fun q => q.isEvent == false) clean)], [truncWeight (List.filter (fun q => q.isEvent == true) clean)],
        ⟨by simp, rfl, ⟨(others false).toList ++ (special false) ++ [missing false], by simp only [List.append_assoc], htail⟩,
          ⟨(others true).toList ++ (special true) ++ [missing true], by simp only [List.append_assoc]⟩⟩, rfl, fun _ h => by simp at h⟩
    · have hlen : pb.nonevent.length = pb.splits.length + 1 := by
        rw [h2, length_prebinCounts]; simp [prebinNumber, hcat]
      have hlen' : pb.event.length = pb.splits.length + 1 := by
        rw [h3, length_prebinCounts]; simp [prebinNumber, hcat]
      have hpos : 0 < pb.splits.length := List.length_pos_iff.2 h1
      have hn2 : ¬ pb.nonevent.length ≤ 1 := by omega
      have hlast := hsolver pb.nonevent pb.event (by omega)
      have hsl := solve_length pb.nonevent.length (solver pb.nonevent pb.event)
      generalize hsol : (solve pb.nonevent.length (solver pb.nonevent pb.event)) = R at hlast hsl
      have hr : fitOptimizer cfg.catUser solver pb.splits pb.nonevent pb.event =
          ⟨R.1, select pb.splits R.2.dropLast, R.2⟩ := by
        simp [fitOptimizer, hn2, hcat, hsol]
      rw [hr] at hf
      subst hf
      have hne : R.2.length ≠ 0 := by omega
      have hcount : R.2.count true = (select pb.splits R.2.dropLast).length + 1 := by
        rw [length_select _ _ (by simp [hsl, hlen])]
        obtain ⟨l, hl⟩ := List.getLast?_eq_some_iff.1 hlast
        rw [hl]; simp
      have l1 := accumBins_length R.2 pb.nonevent 0 (by omega)
      have l2 := accumBins_length R.2 pb.event 0 (by omega)
      simp only [binInfo, h1, hne, if_false, List.length_eq_zero_iff, List.append_nil] at *
      refine ⟨accumBins R.2 pb.nonevent 0, accumBins R.2 pb.event 0, ⟨?_, ?_, ⟨_, by simp only [List.append_assoc]; rfl, ?_⟩,
        ⟨_, by simp only [List.append_assoc]; rfl⟩⟩, ?_, ?_⟩
      · intro hc; rw [hc] at l1; simp at l1; omega
      · omega
      · rw [← htail, List.append_assoc]
      · omega
      · intro hk h2l i hi
        have hi' : i < R.2.count true := by omega
        obtain ⟨a, b, hb, hbk, hacc⟩ := accumBins_bin R.2 hlast (k := i) hi'
        have hab : a ≤ b := hb.1
        have hbl : b < pb.nonevent.length := by have := hb.2.1; omega
        rw [hacc pb.nonevent (by omega), hacc pb.event (by omega)]
        have hp := pureMaskFit_false (hpure hk) (by omega) hbl
        constructor
        · exact lt_of_lt_of_le hp.1 (single_le_sum (f := fun i => pb.nonevent.getD i 0) (fun _ _ => Nat.zero_le _) (mem_Icc.2 ⟨hab, le_refl b⟩))
        · exact lt_of_lt_of_le hp.2 (single_le_sum (f := fun i => pb.event.getD i 0) (fun _ _ => Nat.zero_le _) (mem_Icc.2 ⟨hab, le_refl b⟩))

theorem length_specialCounts (sc : SpecialCodes α) (sp : List (Rec α)) (b : Bool) : (specialCounts sc sp b).length = sc.count := by
  unfold specialCounts SpecialCodes.count
  cases sc <;> simp

theorem fitNumerical_table {cfg : PrebinCfg} {sc : SpecialCodes α} {so : SplitOpts α} {prebin : List (Rec α) → List α}
    {solver : Solver} {recs : List (Rec α)} {f : Fitted α}
    (hsolver : ∀ nev ev : List ℕ, 0 < nev.length → (solve nev.length (solver nev ev)).2.getLast? = some true)
    (h : fitNumerical cfg sc so prebin solver recs = .ok f) :
    ∃ ne e, TableB f.nonevent f.event sc.count false ne e ∧ ne.length = f.splits.length + 1 ∧
      (cfg.keepPure = false → 2 ≤ ne.length → ∀ i < ne.length, 0 < ne.getD i 0 ∧ 0 < e.getD i 0) := by
  obtain ⟨st', hf⟩ := fitNumerical_from h
  unfold fitFrom at hf
  have := fitCore_table rfl hsolver hf
  rw [length_specialCounts] at this
  exact this

/-- C99: after a fit with divergence "iv" or "js" (which remove pure bins) `analysis` with the chi-square test never fails. -/
theorem C99_fit_succeeds_basic {cfg : PrebinCfg} {sc : SpecialCodes α} {so : SplitOpts α} {prebin : List (Rec α) → List α}
    {solver : Solver} {c : SolverCfg} {recs : List (Rec α)} {f : Fitted α} (hr : Respects c solver)
    (h : fitNumerical cfg sc so prebin solver recs = .ok f) (hk : cfg.keepPure = false)
    (s : ScipyTests) (nSamples : ℤ) (hn : 0 < nSamples) (shuffle : List ℕ → List ℕ) (iv hhiN : ℝ) :
    ∃ r, analysisB s "chi2" nSamples shuffle f.nonevent f.event sc.count false iv hhiN = .ok r ∧
      r.tests.length = f.splits.length := by
  obtain ⟨ne, e, ht, hl, hp⟩ := fitNumerical_table (fun nev ev hn => hr.last nev ev hn) h
  cases ha : analysisB s "chi2" nSamples shuffle f.nonevent f.event sc.count false iv hhiN with
  | error m =>
    exfalso
    obtain ⟨h2, -, ⟨i, hi, h3, -⟩ | ⟨i, hi, ⟨h3, -⟩ | ⟨h3, -⟩⟩⟩ := (C99_fails s nSamples shuffle _ _ _ _ iv hhiN ne e ht hn).1 ⟨m, ha⟩
    · have := (hp hk h2 i hi).1; omega
    · have := (hp hk h2 i (by omega)).1; omega
    · have := (hp hk h2 i (by omega)).2; omega
  | ok r => exact ⟨r, rfl, by have := (C99_pairs s nSamples shuffle _ _ _ _ iv hhiN ne e ht r ha).1; omega⟩

/-- C99: after a successful fit with `max_pvalue` every p-value reported by `analysis` is at most `max_pvalue`. -/
theorem C99_fit_pvalues_basic {cfg : PrebinCfg} {sc : SpecialCodes α} {so : SplitOpts α} {prebin : List (Rec α) → List α}
    {solver : Solver} {c : SolverCfg} {o : Opts} {reg : ℤ} {recs : List (Rec α)} {f : Fitted α}
    (ho : ∀ nev ev, c.opts nev ev = o) (hsolver : RespectsCP c reg solver)
    (h : fitNumerical cfg sc so prebin solver recs = .ok f) (hs : f.Solved) (hk : cfg.keepPure = false)
    (s : ScipyTests) (maxP : ℝ)
    (ht : c.test = some fun e₁ ne₁ e₂ ne₂ => decide (maxP < s.sf 1 (zSquared e₁ ne₁ e₂ ne₂)))
    (nSamples : ℤ) (shuffle : List ℕ → List ℕ) (iv hhiN : ℝ) (r : AnalysisB)
    (ha : analysisB s "chi2" nSamples shuffle f.nonevent f.event sc.count false iv hhiN = .ok r) :
    ∀ t ∈ r.tests, ∃ p, t.pvalue = .real p ∧ p ≤ maxP := by
  have hr : Respects c solver := Or.inl ⟨reg, hsolver⟩
  obtain ⟨ne, e, htb, hl, hp⟩ := fitNumerical_table (fun nev ev hn => hr.last nev ev hn) h
  obtain ⟨hlen, hpairs⟩ := C99_pairs s nSamples shuffle _ _ _ _ iv hhiN ne e htb r ha
  intro t htm
  obtain ⟨i, hi, rfl⟩ := List.mem_iff_getElem.1 htm
  obtain ⟨t', ht', -, -, -, hcase⟩ := hpairs i (by omega)
  rw [List.getElem?_eq_getElem hi] at ht'
  injection ht' with ht'
  subst ht'
  have h2 : 2 ≤ ne.length := by omega
  rcases hcase with ⟨h0, -⟩ | ⟨-, -, z, hz, -, -, -, hpv⟩
  · have := (hp hk h2 i (by omega)).1; omega
  · refine ⟨_, hpv, ?_⟩
    have key := C15_table_cp ho hsolver h hs ht (k := i) (k' := i + 1) (by omega) (by omega) (fun _ => rfl)
    rw [decide_eq_false_iff_not, not_lt] at key
    obtain ⟨tn, hn1, -⟩ := htb.nonevent
    obtain ⟨te, he1⟩ := htb.event
    have g1 : ∀ j < ne.length, f.nonevent.getD j 0 = ne.getD j 0 := fun j hj => by rw [hn1, List.getD_append _ _ _ _ hj]
    have g2 : ∀ j < ne.length, f.event.getD j 0 = e.getD j 0 := fun j hj => by
      rw [he1, List.getD_append _ _ _ _ (by rw [htb.same]; exact hj)]
    rw [g1 i (by omega), g1 (i + 1) (by omega), g2 i (by omega), g2 (i + 1) (by omega), ← hz] at key
    exact key

end
end OptBinning

namespace OptBinning
open Finset Spec

/-! ### concrete cases -/

/-- The table of the running example is a table in the sense of the theorems; its analysis succeeds with three tests. -/
example : TableB [1, 2, 1, 1, 0, 1, 1] [1, 1, 1, 3, 1, 0, 1] exCodes.count false [1, 2, 1, 1] [1, 1, 1, 3] :=
  ⟨by simp, rfl, ⟨[0, 1, 1], rfl, rfl⟩, ⟨[1, 0, 1], rfl⟩⟩

example (s : ScipyTests) (shuffle : List ℕ → List ℕ) :
    ∃ r, analysisB s "chi2" 100 shuffle [1, 2, 1, 1, 0, 1, 1] [1, 1, 1, 3, 1, 0, 1] exCodes.count false 0 0 = .ok r ∧ r.tests.length = 3 :=
  C99_fit_succeeds_basic (exSolver_respects _) exFit rfl s 100 (by decide) shuffle 0 0

/-- The statistic of the first pair of bins (1 of 2 and 1 of 3 events). -/
example : zSquared 1 1 1 2 = 5 / 36 := by unfold zSquared rateOf; norm_num

end OptBinning
