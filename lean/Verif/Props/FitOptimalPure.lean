import Verif.Props.FitOptimal

/-!
# C103 for the divergences which keep pre-bins with one class
-/
namespace OptBinning
open Finset Spec

variable {α : Type*} [LinearOrder α]

/-- A fit whose divergence keeps pure pre-bins chooses among the sublists of the pre-binning splits. -/
theorem fit_cuts_pure {cfg : PrebinCfg} {sc : SpecialCodes α} {so : SplitOpts α} {prebin : List (Rec α) → List α} {solver : Solver}
    {recs : List (Rec α)} {f : Fitted α} (hw : WholeWeights recs)
    (hsolver : ∀ nev ev : List ℕ, 0 < nev.length → (solve nev.length (solver nev ev)).2.getLast? = some true)
    (hsort : ∀ l, (prebin l).Pairwise (· ≤ ·)) (hk : cfg.keepPure = true)
    (h : fitNumerical cfg sc so prebin solver recs = .ok f) :
    f.splits.Sublist (prebin (splitData sc so recs).clean) ∧
      (prebin (splitData sc so recs).clean = [] ∨ ∃ nev ev : List ℕ, ev.length = nev.length ∧ 0 < nev.length ∧
        f.status = (solve nev.length (solver nev ev)).1 ∧
        (∃ idx, CutBins (splitData sc so recs).clean f.splits nev.length (solOf (solve nev.length (solver nev ev)).2)
          (fun k => ((nev.getD k 0 : ℕ) : ℤ)) (fun k => ((ev.getD k 0 : ℕ) : ℤ)) idx) ∧
        ∀ cs : List α, cs.Sublist (prebin (splitData sc so recs).clean) → ∃ sol idx, CutBins (splitData sc so recs).clean cs nev.length sol
          (fun k => ((nev.getD k 0 : ℕ) : ℤ)) (fun k => ((ev.getD k 0 : ℕ) : ℤ)) idx) := by
  have hclean : ∀ r ∈ (splitData sc so recs).clean, r.x ≠ none ∧ r.y ≠ none := fun r hr => by
    have := clean_known hr; exact ⟨this.2.1, this.2.2.1⟩
  have hwc : WholeWeights (splitData sc so recs).clean := fun r hr => hw r (clean_known hr).1
  have hps := hsort (splitData sc so recs).clean
  unfold fitNumerical at h
  unfold fitFrom fitCore at h
  simp only at h
  generalize hsp : prebin (splitData sc so recs).clean = splits at *
  by_cases hlen : splits.length = 0
  · have hpb : computePrebins { cfg with catUser := false } (splitData sc so recs).clean {} splits = .ok ⟨{}, splits, [], []⟩ := by
      rw [computePrebins]; simp [hlen]
    simp only [hpb, bind, Except.bind, pure, Except.pure, Except.ok.injEq] at h
    have h0 : splits = [] := List.length_eq_zero_iff.1 hlen
    subst h
    exact ⟨by simp [fitOptimizer], Or.inl h0⟩
  · have hpb : ∃ st, computePrebins { cfg with catUser := false } (splitData sc so recs).clean {} splits =
        .ok ⟨st, splits, prebinCounts false (splits.length + 1) splits (splitData sc so recs).clean false,
          prebinCounts false (splits.length + 1) splits (splitData sc so recs).clean true⟩ := by
      rw [computePrebins]
      simp only [dif_neg hlen, prebinNumber, Bool.false_eq_true, if_false, hk, if_true]
      split_ifs <;> exact ⟨_, rfl⟩
    obtain ⟨st, hpb⟩ := hpb
    simp only [hpb, bind, Except.bind, pure, Except.pure, Except.ok.injEq] at h
    have l1 : (prebinCounts false (splits.length + 1) splits (splitData sc so recs).clean false).length = splits.length + 1 := length_prebinCounts ..
    have l2 : (prebinCounts false (splits.length + 1) splits (splitData sc so recs).clean true).length = splits.length + 1 := length_prebinCounts ..
    have hcut := fun (R : List Bool) h1 h2 => cutBins hclean hwc hps (R := R) h1 h2 (n := splits.length + 1) rfl
    generalize prebinCounts false (splits.length + 1) splits (splitData sc so recs).clean false = nev at *
    generalize prebinCounts false (splits.length + 1) splits (splitData sc so recs).clean true = ev at *
    have hlast := hsolver nev ev (by omega)
    have hsl := solve_length nev.length (solver nev ev)
    have hr : fitOptimizer false solver splits nev ev =
        ⟨(solve nev.length (solver nev ev)).1, select splits (solve nev.length (solver nev ev)).2.dropLast, (solve nev.length (solver nev ev)).2⟩ := by
      simp [fitOptimizer, show ¬ nev.length ≤ 1 by omega]
    rw [hr] at h
    subst h
    refine ⟨select_sublist _ _, Or.inr ⟨nev, ev, by omega, by omega, rfl, ?_, ?_⟩⟩
    · have hc := hcut (solve nev.length (solver nev ev)).2 (by omega) hlast
      rw [← l1] at hc
      exact ⟨_, hc⟩
    · intro cs hcs
      obtain ⟨m, hm1, hm2⟩ := sublist_mask hcs
      have hc := hcut (m ++ [true]) (by simp [hm1]) (getLast_append_true m)
      rw [List.dropLast_concat, hm2, ← l1] at hc
      exact ⟨_, _, hc⟩

section
variable {recs : List (Rec α)} {cs : List α} {p : Params} {pv : ℕ → ℕ → ℕ → ℕ → ℝ} {N : ℕ} {slack : ℚ}

/-- The arguments with the minimum counts as `_fit_optimizer` changes them. -/
def Params.raised (p : Params) (flag : Bool) : Params :=
  { p with minEvent := p.minCount flag p.minEvent, minNonevent := p.minCount flag p.minNonevent }

theorem options_raised {p : Params} {hull : List ℚ → Option ℚ} {stale : Bool} {n : ℕ} {nev ev : List ℕ} {t : Trend}
    (ht : resolveTrend hull nev ev p.trend = .ok t) (pv : ℕ → ℕ → ℕ → ℕ → ℝ) :
    ∃ flag, (p.cfg hull stale pv n).opts nev ev =
      { trend := t, minBins := p.minBins, maxBins := p.maxBins,
        minSize := p.minBinSize.map (ceilSize n), maxSize := p.maxBinSize.map (ceilSize n),
        minEvent := (p.raised flag).minEvent, maxEvent := p.maxEvent, minNonevent := (p.raised flag).minNonevent, maxNonevent := p.maxNonevent,
        minRateDiffZero := decide (p.minRateDiff = .num 0), gamma := decide (p.gamma ≠ .num 0) } := by
  refine ⟨stale || (p.divergence.keepsPure && (pureMask nev ev).any id), ?_⟩
  simp only [Params.cfg, Params.options, ht, bind, Except.bind, pure, Except.pure]
  rfl

theorem cutsMeet_raised {n : ℕ} {sol : ℕ → Bool} {ne ev : ℕ → ℤ} {idx : ℕ → ℕ} (h : CutBins recs cs n sol ne ev idx)
    (hm : CutsMeet p pv N slack recs cs) (hmix : CutsMixed recs cs) (flag : Bool) : CutsMeet (p.raised flag) pv N slack recs cs := by
  have hwhole : ∀ event, ∀ k ≤ cs.length, (1 : ℚ) ≤ cutWeight recs cs event k := by
    intro event k hk
    have h0 := hmix k hk event
    obtain ⟨s, e, hb, rfl⟩ := h.surj k hk
    cases event
    · rw [← h.rowNe s e hb] at h0 ⊢
      have : 0 < binTotal ne s e := by exact_mod_cast h0
      exact_mod_cast this
    · rw [← h.rowEv s e hb] at h0 ⊢
      have : 0 < binTotal ev s e := by exact_mod_cast h0
      exact_mod_cast this
  have key : ∀ (m : Option ℤ) (event : Bool), (∀ b, m = some b → ∀ k ≤ cs.length, ((b : ℤ) : ℚ) ≤ cutWeight recs cs event k) →
      ∀ b, p.minCount flag m = some b → ∀ k ≤ cs.length, ((b : ℤ) : ℚ) ≤ cutWeight recs cs event k := by
    intro m event hmin b hb k hk
    unfold Params.minCount at hb
    split_ifs at hb with hc
    · cases m with
      | none => simp only [Option.some.injEq] at hb; rw [← hb]; exact_mod_cast hwhole event k hk
      | some v =>
        simp only [Option.some.injEq] at hb
        rw [← hb, Int.cast_max]
        exact max_le (hmin v rfl k hk) (by exact_mod_cast hwhole event k hk)
    · exact hmin b hb k hk
  exact { minBins := hm.minBins, maxBins := hm.maxBins, minSize := hm.minSize, maxSize := hm.maxSize, maxNonevent := hm.maxNonevent,
          maxEvent := hm.maxEvent, ascending := hm.ascending, descending := hm.descending, peak := hm.peak, valley := hm.valley,
          minDiff := hm.minDiff, pvalue := hm.pvalue, minNonevent := key _ _ hm.minNonevent, minEvent := key _ _ hm.minEvent }

end

/-- C103, `solver="mip"`, divergence "hellinger" or "triangular" (pre-bins with one class are kept): if `fit` reports OPTIMAL, no
selection of the pre-binning splits all of whose intervals hold both classes and which meets the arguments has a larger divergence.
No interval of the pre-binning is empty (NumPy's rate of an empty pre-bin is NaN, which is outside the model). -/
theorem C103_pure_mip (p : Params) (hull : List ℚ → Option ℚ) (stale : Bool) (pv : ℕ → ℕ → ℕ → ℕ → ℝ) (sc : SpecialCodes α)
    (so : SplitOpts α) (prebin : List (Rec α) → List α) (solver : Solver) (recs : List (Rec α)) (f : Fitted α) (reg : ℝ)
    (hw : WholeWeights recs) (hsort : ∀ l, (prebin l).Pairwise (· ≤ ·)) (hd : p.divergence = .hellinger ∨ p.divergence = .triangular) (hg : p.gamma = .num 0)
    (_hne : ∀ k ≤ (prebin (splitData sc so recs).clean).length,
      0 < cutWeight (splitData sc so recs).clean (prebin (splitData sc so recs).clean) false k + cutWeight (splitData sc so recs).clean (prebin (splitData sc so recs).clean) true k)
    (hp : AnyLimits p) (hr : RespectsMIP (p.cfg hull stale pv recs.length) reg solver)
    (h : fitParams p sc so prebin solver recs = .ok f) (hs : f.status = "OPTIMAL") :
    f.splits.Sublist (prebin (splitData sc so recs).clean) ∧
      ∀ cs : List α, cs.Sublist (prebin (splitData sc so recs).clean) → CutsMixed (splitData sc so recs).clean cs →
        CutsMeet p pv recs.length 0 (splitData sc so recs).clean cs →
        cutDivergence p.divergence.fn (splitData sc so recs).clean cs ≤ cutDivergence p.divergence.fn (splitData sc so recs).clean f.splits := by
  have hk : p.divergence.keepsPure = true := by rcases hd with hd | hd <;> rw [hd] <;> rfl
  obtain ⟨a1, a2, q, a3, a4⟩ := accepted_num (fitParams_accepted h)
  obtain ⟨g1, g4⟩ := fit_cuts_pure hw (fun nev ev hn => Respects.last (Or.inr ⟨reg, hr⟩) nev ev hn) hsort hk (fitParams_fit h)
  refine ⟨g1, fun cs hcs hmix hm => ?_⟩
  rcases g4 with h0 | ⟨nev, ev, l1, l2, hst, ⟨idx, hcf⟩, hall⟩
  · rw [h0] at hcs g1
    rw [List.sublist_nil.1 hcs, List.sublist_nil.1 g1]
  · obtain ⟨sol, idx', hc⟩ := hall cs hcs
    obtain ⟨flag, hopt⟩ := options_raised (n := recs.length) (stale := stale) (resolve_plain (Or.inl hp) hull nev ev) pv
    have hwf : ((p.cfg hull stale pv recs.length).input nev ev).Wf := ⟨l1, l2⟩
    have hv := hr nev ev
    rw [hopt] at hv
    have hc' : CutBins (splitData sc so recs).clean cs ((p.cfg hull stale pv recs.length).input nev ev).n sol
      ((p.cfg hull stale pv recs.length).input nev ev).ne ((p.cfg hull stale pv recs.length).input nev ev).ev idx' := hc
    have hm' := cutsMeet_raised hc hm hmix flag
    have key := C18_optimal_mip_partial hwf (anyLimits_noShortcuts hp a3 rfl rfl) (by simp [hg]) hv (by rw [← hst.symm.trans hs]; rfl)
      sol (hc'.admissible (p := p.raised flag) a1 hm' ⟨rfl, rfl, rfl, rfl, rfl, rfl, rfl, rfl, rfl⟩ (trend_cast _ (hc'.trend hm)))
      (hc'.tests a2 hm (fun k => ⟨by unfold BinaryInput.ne; positivity, by unfold BinaryInput.ev; positivity⟩) rfl rfl)
      (hc'.apart ⟨q, a3⟩ hm rfl)
    rw [hc'.divergence] at key
    refine le_trans key (le_of_eq ?_)
    exact hcf.divergence _

/-- C103, `solver="cp"`, divergence "hellinger" or "triangular": the same up to the integer rounding of the solver. -/
theorem C103_pure_cp (p : Params) (hull : List ℚ → Option ℚ) (stale : Bool) (pv : ℕ → ℕ → ℕ → ℕ → ℝ) (sc : SpecialCodes α)
    (so : SplitOpts α) (prebin : List (Rec α) → List α) (solver : Solver) (recs : List (Rec α)) (f : Fitted α) (reg : ℤ)
    (hw : WholeWeights recs) (hsort : ∀ l, (prebin l).Pairwise (· ≤ ·)) (hd : p.divergence = .hellinger ∨ p.divergence = .triangular) (hg : p.gamma = .num 0)
    (_hne : ∀ k ≤ (prebin (splitData sc so recs).clean).length,
      0 < cutWeight (splitData sc so recs).clean (prebin (splitData sc so recs).clean) false k + cutWeight (splitData sc so recs).clean (prebin (splitData sc so recs).clean) true k)
    (hp : AnyLimits p) (hr : RespectsCP (p.cfg hull stale pv recs.length) reg solver)
    (h : fitParams p sc so prebin solver recs = .ok f) (hs : f.status = "OPTIMAL") :
    f.splits.Sublist (prebin (splitData sc so recs).clean) ∧
      ∀ cs : List α, cs.Sublist (prebin (splitData sc so recs).clean) → CutsMixed (splitData sc so recs).clean cs →
        CutsMeet p pv recs.length (1 / 1000000) (splitData sc so recs).clean cs →
        cutDivergence p.divergence.fn (splitData sc so recs).clean cs ≤
          cutDivergence p.divergence.fn (splitData sc so recs).clean f.splits + ((cs.length : ℝ) + 1) / 1000000 := by
  have hk : p.divergence.keepsPure = true := by rcases hd with hd | hd <;> rw [hd] <;> rfl
  obtain ⟨a1, a2, q, a3, a4⟩ := accepted_num (fitParams_accepted h)
  obtain ⟨g1, g4⟩ := fit_cuts_pure hw (fun nev ev hn => Respects.last (Or.inl ⟨reg, hr⟩) nev ev hn) hsort hk (fitParams_fit h)
  refine ⟨g1, fun cs hcs hmix hm => ?_⟩
  rcases g4 with h0 | ⟨nev, ev, l1, l2, hst, ⟨idx, hcf⟩, hall⟩
  · rw [h0] at hcs g1
    rw [List.sublist_nil.1 hcs, List.sublist_nil.1 g1]; exact le_add_of_nonneg_right (by positivity)
  · obtain ⟨sol, idx', hc⟩ := hall cs hcs
    obtain ⟨flag, hopt⟩ := options_raised (n := recs.length) (stale := stale) (resolve_plain (Or.inl hp) hull nev ev) pv
    have hwf : ((p.cfg hull stale pv recs.length).input nev ev).Wf := ⟨l1, l2⟩
    have hv := hr nev ev
    rw [hopt] at hv
    have hc' : CutBins (splitData sc so recs).clean cs ((p.cfg hull stale pv recs.length).input nev ev).n sol
      ((p.cfg hull stale pv recs.length).input nev ev).ne ((p.cfg hull stale pv recs.length).input nev ev).ev idx' := hc
    have hm' := cutsMeet_raised hc hm hmix flag
    have hnn : ∀ sol' s e, IsBin ((p.cfg hull stale pv recs.length).input nev ev).n sol' s e → 0 ≤ binDivergence ((p.cfg hull stale pv recs.length).input nev ev).div
        ((p.cfg hull stale pv recs.length).input nev ev).n ((p.cfg hull stale pv recs.length).input nev ev).ne ((p.cfg hull stale pv recs.length).input nev ev).ev s e := by
      intro sol' s e _
      have t0 : ∀ (x : ℕ → ℕ) (s e : ℕ), (0 : ℝ) ≤ ((binTotal (fun k => ((x k : ℕ) : ℤ)) s e : ℤ) : ℝ) := fun x s e =>
        Int.cast_nonneg (Finset.sum_nonneg fun k _ => Int.natCast_nonneg _)
      show 0 ≤ p.divergence.fn _ _
      rcases hd with hd | hd <;> rw [hd]
      · simp only [Divergence.fn, hellinger]; positivity
      · simp only [Divergence.fn, triangular]
        exact div_nonneg (sq_nonneg _) (add_nonneg (div_nonneg (t0 _ _ _) (t0 _ _ _)) (div_nonneg (t0 _ _ _) (t0 _ _ _)))
    have key := C18_optimal_cp_partial hwf (anyLimits_noShortcuts hp a3 rfl rfl) (by simp [hg]) hv (by rw [← hst.symm.trans hs]; rfl)
      sol (hc'.admissible (p := p.raised flag) a1 hm' ⟨rfl, rfl, rfl, rfl, rfl, rfl, rfl, rfl, rfl⟩ (trend_floor _ (hc'.trend hm)))
      (hc'.tests a2 hm (fun k => ⟨by unfold BinaryInput.ne; positivity, by unfold BinaryInput.ev; positivity⟩) rfl rfl)
      (hc'.apart6 ⟨q, a3⟩ hm rfl)
    have t1 := (total_trunc (hnn sol)).2
    have t2 := (total_trunc (hnn (solOf (solve nev.length (solver nev ev)).2))).1
    have key' : ((totalOverBins _ sol (fun s e => truncReal (binDivergence ((p.cfg hull stale pv recs.length).input nev ev).div
        ((p.cfg hull stale pv recs.length).input nev ev).n ((p.cfg hull stale pv recs.length).input nev ev).ne ((p.cfg hull stale pv recs.length).input nev ev).ev s e *
          1000000)) : ℤ) : ℝ) ≤ _ := Int.cast_le.2 key
    have t3 := le_trans key' t2
    rw [hc'.divergence, hc'.num] at t1
    have e1 : totalOverBins ((p.cfg hull stale pv recs.length).input nev ev).n (solOf (solve nev.length (solver nev ev)).2)
        (binDivergence ((p.cfg hull stale pv recs.length).input nev ev).div ((p.cfg hull stale pv recs.length).input nev ev).n
          ((p.cfg hull stale pv recs.length).input nev ev).ne ((p.cfg hull stale pv recs.length).input nev ev).ev) =
        cutDivergence p.divergence.fn (splitData sc so recs).clean f.splits := hcf.divergence _
    rw [e1] at t3
    have e2 : ((p.cfg hull stale pv recs.length).input nev ev).div = p.divergence.fn := rfl
    rw [e2] at t1 t3
    push_cast at t1
    linarith

end OptBinning
