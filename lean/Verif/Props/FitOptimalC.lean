import Verif.Lemmas.CutsC
import Verif.Props.ParamsC
import Verif.Props.Optimal

/-!
# C105: the table of a continuous fit with status OPTIMAL is the best among all groupings of the pre-bins
-/
namespace OptBinning
open Finset Spec

variable {α : Type*} [LinearOrder α]

theorem cleanC_known {sc : SpecialCodes α} {det : Option (List (RecC α) → List Bool)} {recs : List (RecC α)} {r : RecC α}
    (hr : r ∈ (splitDataC sc det recs).clean) : r ∈ recs ∧ r.x ≠ none ∧ r.y ≠ none := by
  have hsub : (splitDataC sc det recs).clean.Sublist (recs.filter fun r => !r.isMissing && !r.isSpecial sc) := by
    simp only [splitDataC]
    cases det with
    | none => exact List.Sublist.refl _
    | some d => exact select_sublist _ _
  have h := List.mem_filter.1 (hsub.subset hr)
  refine ⟨h.1, ?_⟩
  have h2 := h.2
  unfold RecC.isMissing at h2
  cases hx : r.x <;> cases hy : r.y <;> simp_all

theorem computePrebinsC_filled {recs : List (RecC α)} {ps : List α} (hclean : ∀ r ∈ recs, r.x ≠ none ∧ r.y ≠ none) (hu : UnitWeights recs)
    (hsort : ps.Pairwise (· ≤ ·)) (hf : CutsFilled recs ps) (st : PrebinState α) {pb : PrebinsC α} (h : computePrebinsC false recs st ps = .ok pb) :
    pb.splits = ps := by
  rw [computePrebinsC] at h
  simp only at h
  split_ifs at h with h0 h1
  · exfalso
    simp only [prebinNumber, Bool.false_eq_true, if_false, emptyMask, List.any_map, List.any_eq_true] at h1
    obtain ⟨c, hc, hz⟩ := h1
    simp only [Function.comp_apply, id, beq_iff_eq] at hz
    unfold prebinCells at hc
    rw [List.mem_map] at hc
    obtain ⟨k, hk, rfl⟩ := hc
    have hk' : k ≤ ps.length := by have := List.mem_range.1 hk; omega
    apply hf k hk'
    rw [cutTargets_eq hclean hsort]
    have h2 := (unit_cell (recs := recs.filter fun r => digitize false ps r.x == k) fun r hr => hu r (List.mem_filter.1 hr).1).1
    rw [hz] at h2
    simp only [Nat.cast_zero, List.map_const', List.sum_replicate, nsmul_eq_mul, mul_one] at h2
    have h3 : (recs.filter fun r => digitize false ps r.x == k).length = 0 := by exact_mod_cast h2.symm
    rw [List.length_eq_zero_iff.1 h3]; rfl
  · cases h; rfl

/-- A fit chooses among the sublists of a list `ps` of splits. -/
theorem fitC_cuts {c : SolverCfgC} {sc : SpecialCodes α} {det : Option (List (RecC α) → List Bool)} {prebin : List (RecC α) → List α} {solver : SolverC}
    {old old' : MissingStats} {recs : List (RecC α)} {f : FittedC α} (hu : UnitWeights recs) (hr : RespectsC c solver)
    (hsort : ∀ l, (prebin l).Pairwise (· ≤ ·)) (h : fitNumericalC sc det prebin solver old recs = .ok (old', f)) :
    ∃ ps : List α, f.splits.Sublist ps ∧ ps.Sublist (prebin (splitDataC sc det recs).clean) ∧
      (CutsFilled (splitDataC sc det recs).clean (prebin (splitDataC sc det recs).clean) → ps = prebin (splitDataC sc det recs).clean) ∧
      (ps = [] ∨ ∃ cells : List CellC, 2 ≤ cells.length ∧ (c.input cells).Wf ∧ (c.input cells).n = cells.length ∧
        cells = prebinCells false (ps.length + 1) ps (splitDataC sc det recs).clean ∧
        f.status = (solve (c.input cells).n (solver cells)).1 ∧
        (∃ idx, CutBinsC (splitDataC sc det recs).clean f.splits (c.input cells) (solOf (solve (c.input cells).n (solver cells)).2) idx) ∧
        ∀ cs : List α, cs.Sublist ps → ∃ sol idx, CutBinsC (splitDataC sc det recs).clean cs (c.input cells) sol idx) := by
  have hclean : ∀ r ∈ (splitDataC sc det recs).clean, r.x ≠ none ∧ r.y ≠ none := fun r hr => (cleanC_known hr).2
  have huc : UnitWeights (splitDataC sc det recs).clean := fun r hr => hu r (cleanC_known hr).1
  obtain ⟨special, st', hs, hf⟩ := fitNumericalC_cases h
  obtain ⟨hne, hcase⟩ := fitCoreC_cases hf
  rcases hcase with ⟨h1, rfl⟩ | ⟨pb, h1, h2, h3, rfl⟩
  · exact ⟨[], by simp, by simp, fun _ => h1.symm, Or.inl rfl⟩
  · obtain ⟨hsub, hne', hcells, hpos⟩ := computePrebinsC_spec _ _ _ _ _ h2
    simp only [prebinNumber, Bool.false_eq_true, if_false] at hcells
    have hps : pb.splits.Pairwise (· ≤ ·) := (hsort _).sublist hsub
    have hlen : pb.cells.length = pb.splits.length + 1 := by rw [hcells]; simp [prebinCells]
    have hpos' : 0 < pb.splits.length := List.length_pos_iff.2 hne'
    have hn : (c.input pb.cells).n = pb.cells.length := by simp [SolverCfgC.input, ContInput.n]
    have hw : (c.input pb.cells).Wf := by
      refine ⟨by simp [SolverCfgC.input], by simp [SolverCfgC.input], by simp [SolverCfgC.input]; omega, ?_⟩
      intro x hx
      simp only [SolverCfgC.input, List.mem_map] at hx
      obtain ⟨d, hd, rfl⟩ := hx
      exact Nat.pos_of_ne_zero (hpos d hd)
    refine ⟨pb.splits, select_sublist _ _, hsub, fun hfl => computePrebinsC_filled hclean huc (hsort _) hfl {} h2,
      Or.inr ⟨pb.cells, by omega, hw, hn, hcells, by rw [hn], ?_, ?_⟩⟩
    · have hlast := hr.last pb.cells (by omega)
      have hsl := solve_length pb.cells.length (solver pb.cells)
      have := cutBinsC hclean huc hps (R := (solve pb.cells.length (solver pb.cells)).2) (by omega) hlast c
      rw [← hcells] at this
      rw [hn]
      exact ⟨_, this⟩
    · intro cs hcs
      obtain ⟨m, hm1, hm2⟩ := sublist_mask hcs
      have hc := cutBinsC hclean huc hps (R := m ++ [true]) (by simp [hm1]) (getLast_append_true m) c
      rw [List.dropLast_concat, hm2, ← hcells] at hc
      exact ⟨_, _, hc⟩

section
variable {recs : List (RecC α)} {cs : List α} {p : ParamsC} {pv : ℚ → ℝ → ℕ → ℚ → ℝ → ℕ → ℝ} {N : ℕ}
  {inp : ContInput} {sol : ℕ → Bool} {idx : ℕ → ℕ}

theorem CutBinsC.rise (h : CutBinsC recs cs inp sol idx) {lo hi : ℕ} (ht : MeansRise recs cs lo hi) {P : ℕ → Prop}
    (hP : ∀ s e, IsBin inp.n sol s e → P e → lo ≤ idx e ∧ idx e < hi) : AscendingOn inp.n sol (mean6 inp) P := by
  intro s e s' e' hb hb' hlt h3 h4
  unfold mean6
  rw [h.mean hb, h.mean hb']
  refine truncRat_mono ?_
  have := ht _ _ (hP _ _ hb h3).1 (h.lt _ _ _ _ hb hb' hlt) (hP _ _ hb' h4).2 (h.le _ _ hb')
  linarith

theorem CutBinsC.fall (h : CutBinsC recs cs inp sol idx) {lo hi : ℕ} (ht : MeansFall recs cs lo hi) {P : ℕ → Prop}
    (hP : ∀ s e, IsBin inp.n sol s e → P e → lo ≤ idx e ∧ idx e < hi) : DescendingOn inp.n sol (mean6 inp) P := by
  intro s e s' e' hb hb' hlt h3 h4
  unfold mean6
  rw [h.mean hb, h.mean hb']
  refine truncRat_mono ?_
  have := ht _ _ (hP _ _ hb h3).1 (h.lt _ _ _ _ hb hb' hlt) (hP _ _ hb' h4).2 (h.le _ _ hb')
  linarith

/-- The trend argument as the solver sees it. -/
def plainTrendC : TrendArg → Trend
  | .ascending => .ascending
  | .descending => .descending
  | .peak => .peak
  | .valley => .valley
  | _ => .unconstrained

theorem CutBinsC.trend (h : CutBinsC recs cs inp sol idx) (hm : CutsMeetC p pv N recs cs) :
    TrendHolds inp.n sol (mean6 inp) (plainTrendC p.trend) := by
  have hall : ∀ s e, IsBin inp.n sol s e → True → 0 ≤ idx e ∧ idx e < cs.length + 1 := fun s e hb _ => ⟨Nat.zero_le _, by have := h.le s e hb; omega⟩
  cases ht : p.trend <;> simp only [plainTrendC] <;> first
    | exact trivial
    | exact h.rise (hm.ascending ht) hall
    | exact h.fall (hm.descending ht) hall
    | skip
  · obtain ⟨c, h1, h2⟩ := hm.peak ht
    obtain ⟨c', hc⟩ := h.threshold c
    exact ⟨c', h.rise h1 fun s e hb he => ⟨Nat.zero_le _, (hc s e hb).1 he⟩,
      h.fall h2 fun s e hb he => ⟨by have := (hc s e hb).not; omega, by have := h.le s e hb; omega⟩⟩
  · obtain ⟨c, h1, h2⟩ := hm.valley ht
    obtain ⟨c', hc⟩ := h.threshold c
    exact ⟨c', h.fall h1 fun s e hb he => ⟨Nat.zero_le _, (hc s e hb).1 he⟩,
      h.rise h2 fun s e hb he => ⟨by have := (hc s e hb).not; omega, by have := h.le s e hb; omega⟩⟩

/-- A candidate is admissible. -/
theorem CutBinsC.admissible (hacc : ∀ v, p.minBinSize = some v ∨ p.maxBinSize = some v → ∃ q, v = .num q)
    (h : CutBinsC recs cs inp sol idx) (hm : CutsMeetC p pv N recs cs) {o : Opts}
    (o1 : o.minBins = p.minBins) (o2 : o.maxBins = p.maxBins) (o3 : o.minSize = p.minBinSize.map (ceilSize N))
    (o4 : o.maxSize = p.maxBinSize.map (ceilSize N)) (o5 : o.fixed = none) (o6 : o.trend = plainTrendC p.trend) :
    AdmissibleMean o inp.n sol inp.recs (mean6 inp) := by
  have hnum : ((numBins inp.n sol : ℕ) : ℤ) = (cs.length : ℤ) + 1 := by rw [h.num]; push_cast; rfl
  refine ⟨h.binning, ?_, ?_, ?_, ?_, ?_, ?_⟩
  · rw [o1, hnum]; exact hm.minBins
  · rw [o2, hnum]; exact hm.maxBins
  · intro s e hb b hb'
    rw [o3] at hb'
    cases hq : p.minBinSize with
    | none => rw [hq] at hb'; cases hb'
    | some v =>
      obtain ⟨q, rfl⟩ := hacc v (Or.inl hq)
      rw [hq] at hb'
      simp only [Option.map_some, Option.some.injEq, ceilSize] at hb'
      rw [← hb', Int.ceil_le, (h.row s e hb).1]
      push_cast
      exact hm.minSize q hq _ (h.le s e hb)
  · intro s e hb b hb'
    rw [o4] at hb'
    cases hq : p.maxBinSize with
    | none => rw [hq] at hb'; cases hb'
    | some v =>
      obtain ⟨q, rfl⟩ := hacc v (Or.inr hq)
      rw [hq] at hb'
      simp only [Option.map_some, Option.some.injEq, ceilSize] at hb'
      rw [← hb', (h.row s e hb).1]
      have h1 := hm.maxSize q hq _ (h.le s e hb)
      have h2 : ((((cutTargets recs cs (idx e)).length : ℕ) : ℤ) : ℚ) ≤ ((⌈q * (N : ℚ)⌉ : ℤ) : ℚ) := by
        push_cast
        exact le_trans h1 (Int.le_ceil _)
      exact_mod_cast h2
  · rw [o6]; exact h.trend hm
  · intro g hg; rw [o5] at hg; cases hg

theorem CutBinsC.tests (hacc : ∀ v, p.maxPvalue = some v → ∃ q, v = .num q) (hw : inp.Wf)
    (h : CutBinsC recs cs inp sol idx) (hm : CutsMeetC p pv N recs cs)
    (htest : inp.test = p.maxPvalue.map fun v u s r u2 s2 r2 => decide ((v.value : ℝ) < pv u s r u2 s2 r2)) (hpol : inp.policy = p.policy) :
    Separated inp.policy inp.n sol (failsTTest inp) := by
  rintro s e s' e' hb hb' hlt hc ⟨t, ht, hf⟩
  rw [htest] at ht
  cases hq : p.maxPvalue with
  | none => rw [hq] at ht; cases ht
  | some v =>
    obtain ⟨q, rfl⟩ := hacc v hq
    rw [hq] at ht
    simp only [Option.map_some, Option.some.injEq] at ht
    subst ht
    simp only [XQ.value] at hf
    have hee : e < e' := lt_of_lt_of_le hlt hb'.1
    have := hm.pvalue q hq (idx e) (idx e') (h.lt _ _ _ _ hb hb' hee) (h.le _ _ hb')
      (fun hp => h.next _ _ _ _ hb hb' (hc (hpol.trans hp)))
    rw [h.mean hb, h.mean hb', h.std hw hb, h.std hw hb', (h.row _ _ hb).1, (h.row _ _ hb').1, Int.toNat_natCast, Int.toNat_natCast] at hf
    exact absurd (of_decide_eq_true hf) (not_lt.2 this)

theorem CutBinsC.apart (h : CutBinsC recs cs inp sol idx) (hm : CutsMeetC p pv N recs cs) (hd : inp.minDiff = p.minMeanDiff.value) :
    Separated .consecutive inp.n sol (meansTooClose inp) := by
  rintro s e s' e' hb hb' hlt hc ⟨h0, h1⟩
  rw [hd] at h0 h1
  cases hq : p.minMeanDiff with
  | num q =>
    rw [hq] at h1
    have hi := h.next _ _ _ _ hb hb' (hc rfl)
    have := hm.minDiff q hq (idx e) (by have := h.le _ _ hb'; omega)
    rw [← hi, ← h.mean hb, ← h.mean hb'] at this
    exact absurd h1 (not_lt.2 this)
  | _ => rw [hq] at h0; simp [XQ.value] at h0

end

theorem acceptedC_num {p : ParamsC} (h : checkParametersC p = .ok ()) :
    (∀ v, p.minBinSize = some v ∨ p.maxBinSize = some v → ∃ q, v = .num q) ∧ (∀ v, p.maxPvalue = some v → ∃ q, v = .num q) ∧ 0 ≤ p.gamma.value := by
  have hv := ((C104_checks p).2.1 h).2 0 0 0
  refine ⟨?_, ?_, ?_⟩
  · rintro v (hv' | hv')
    · obtain ⟨q, hq, -⟩ := hv.minBinSize v hv'; exact ⟨q, hq⟩
    · obtain ⟨q, hq, -⟩ := hv.maxBinSize v hv'; exact ⟨q, hq⟩
  · intro v hv'
    obtain ⟨q, hq, -⟩ := hv.maxPvalue v hv'; exact ⟨q, hq⟩
  · have ite_ok : ∀ (b : Prop) [Decidable b] (x : Except String Unit), (if b then Except.error "ValueError" else x) = .ok () → ¬ b ∧ x = .ok () := by
      intro b _ x hx
      by_cases hb : b <;> simp_all
    unfold checkParametersC at h
    iterate 10 replace h := (ite_ok _ _ h).2
    have h11 := (ite_ok _ _ h).1
    cases hg : p.gamma with
    | num q => rw [hg] at h11; simpa [XQ.below, XQ.value] using h11
    | _ => simp [XQ.value]

theorem sum_nonpos_list {l : List ℚ} (h : ∀ x ∈ l, x ≤ 0) : l.sum ≤ 0 := by
  induction l with
  | nil => simp
  | cons a l ih =>
    have h1 := h a (by simp)
    have h2 := ih fun x hx => h x (by simp [hx])
    rw [List.sum_cons]; linarith

theorem one_signed {recs : List (RecC α)} {ps : List α} (hu : UnitWeights recs) (c : SolverCfgC) {cells : List CellC}
    (hc : cells = prebinCells false (ps.length + 1) ps recs) :
    ((∀ y ∈ allTargets recs, 0 ≤ y) → ∀ s e, 0 ≤ binMean (c.input cells).recs (c.input cells).sum s e) ∧
    ((∀ y ∈ allTargets recs, y ≤ 0) → ∀ s e, binMean (c.input cells).recs (c.input cells).sum s e ≤ 0) := by
  have hrec : ∀ s e, (0 : ℚ) ≤ ((binTotal (c.input cells).recs s e : ℤ) : ℚ) := by
    intro s e
    have : 0 ≤ binTotal (c.input cells).recs s e := Finset.sum_nonneg fun i _ => by unfold ContInput.recs; positivity
    exact_mod_cast this
  have hcell : ∀ k, (c.input cells).sum k = 0 ∨ ∃ l : List (RecC α), (∀ r ∈ l, r ∈ recs) ∧ (c.input cells).sum k = (l.map fun r => r.y.getD 0).sum := by
    intro k
    by_cases hk : k < ps.length + 1
    · right
      refine ⟨recs.filter fun r => digitize false ps r.x == k, fun r hr => (List.mem_filter.1 hr).1, ?_⟩
      rw [← (unit_cell fun r hr => hu r (List.mem_filter.1 hr).1).2.1]
      simp [ContInput.sum, SolverCfgC.input, hc, prebinCells, List.getD, hk]
    · left
      simp [ContInput.sum, SolverCfgC.input, hc, prebinCells, List.getD, hk]
  have hy : ∀ r ∈ recs, r.y.getD 0 = 0 ∨ r.y.getD 0 ∈ allTargets recs := by
    intro r hr
    cases hy : r.y with
    | none => left; rfl
    | some y => right; exact List.mem_filterMap.2 ⟨r, hr, by simp [hy]⟩
  constructor
  · intro h s e
    refine div_nonneg (Finset.sum_nonneg fun k _ => ?_) (hrec s e)
    rcases hcell k with h0 | ⟨l, hl, h0⟩ <;> rw [h0]
    refine List.sum_nonneg fun x hx => ?_
    obtain ⟨r, hr, rfl⟩ := List.mem_map.1 hx
    rcases hy r (hl r hr) with h1 | h1
    · rw [h1]
    · exact h _ h1
  · intro h s e
    refine div_nonpos_of_nonpos_of_nonneg (Finset.sum_nonpos fun k _ => ?_) (hrec s e)
    rcases hcell k with h0 | ⟨l, hl, h0⟩ <;> rw [h0]
    refine sum_nonpos_list fun x hx => ?_
    obtain ⟨r, hr, rfl⟩ := List.mem_map.1 hx
    rcases hy r (hl r hr) with h1 | h1
    · rw [h1]
    · exact h _ h1

/-- C105: if `ContinuousOptimalBinning.fit` reports OPTIMAL, there is a list `ps` of cut points — the pre-binning splits, all of them if no
pre-bin is empty — such that no selection of these cut points which meets the arguments has a sum of distances between the means of its
intervals and the overall mean larger by more than 10⁻⁶ per interval than the table at the returned splits.  Whatever `gamma` is. -/
theorem C105_optimal (p : ParamsC) (hull : List ℚ → Option ℚ) (pv : ℚ → ℝ → ℕ → ℚ → ℝ → ℕ → ℝ) (sc : SpecialCodes α)
    (det : Option (List (RecC α) → List Bool)) (prebin : List (RecC α) → List α) (solver : SolverC) (old old' : MissingStats)
    (recs : List (RecC α)) (f : FittedC α) (hu : UnitWeights recs) (hsort : ∀ l, (prebin l).Pairwise (· ≤ ·))
    (hp : PlainTrendC p (splitDataC sc det recs).clean) (hr : RespectsC (p.cfg hull pv recs.length) solver)
    (h : fitParamsC p sc det prebin solver old recs = .ok (old', f)) (hs : f.status = "OPTIMAL") :
    ∃ ps : List α, f.splits.Sublist ps ∧ ps.Sublist (prebin (splitDataC sc det recs).clean) ∧
      (CutsFilled (splitDataC sc det recs).clean (prebin (splitDataC sc det recs).clean) → ps = prebin (splitDataC sc det recs).clean) ∧
      ∀ cs : List α, cs.Sublist ps → CutsMeetC p pv recs.length (splitDataC sc det recs).clean cs →
        cutDistance (splitDataC sc det recs).clean cs ≤ cutDistance (splitDataC sc det recs).clean f.splits + ((cs.length : ℚ) + 1) / 1000000 := by
  have hacc : checkParametersC p = .ok () := by
    unfold fitParamsC at h
    split at h
    · cases h
    · assumption
  obtain ⟨a1, a2, a3⟩ := acceptedC_num hacc
  obtain ⟨ps, g1, g2, g3, g4⟩ := fitC_cuts hu hr hsort (fitParamsC_fit h)
  refine ⟨ps, g1, g2, g3, fun cs hcs hm => ?_⟩
  rcases g4 with rfl | ⟨cells, l1, hwf, hn, hcells, hst, ⟨idx, hcf⟩, hall⟩
  · rw [List.sublist_nil.1 hcs, List.sublist_nil.1 g1]; exact le_add_of_nonneg_right (by positivity)
  · obtain ⟨sol, idx', hc⟩ := hall cs hcs
    have hplain : p.trend = .none ∨ p.trend = .ascending ∨ p.trend = .descending ∨ p.trend = .peak ∨ p.trend = .valley := by
      rcases hp with h | ⟨h, -⟩ <;> tauto
    have hres : resolveTrendC hull cells p.trend = .ok (plainTrendC p.trend) := by
      rcases hplain with h | h | h | h | h <;> rw [h] <;> rfl
    have ho : (p.cfg hull pv recs.length).opts cells =
      { trend := plainTrendC p.trend, minBins := p.minBins, maxBins := p.maxBins,
        minSize := p.minBinSize.map (ceilSize recs.length), maxSize := p.maxBinSize.map (ceilSize recs.length), gamma := decide (p.gamma ≠ .num 0) } := by
      simp only [ParamsC.cfg, ParamsC.options, hres, bind, Except.bind, pure, Except.pure]
    obtain ⟨t, o, ho', -, -, hch, -⟩ := optionsC_ok p hull pv recs.length cells l1
    rw [← ho'] at hch
    have huc : UnitWeights (splitDataC sc det recs).clean := fun r hr => hu r (cleanC_known hr).1
    obtain ⟨s1, s2⟩ := one_signed huc (p.cfg hull pv recs.length) hcells
    have hss : (((p.cfg hull pv recs.length).opts cells).trend ≠ .peak ∧ ((p.cfg hull pv recs.length).opts cells).trend ≠ .valley) ∨
      (∀ s e, s ≤ e → e < ((p.cfg hull pv recs.length).input cells).n →
        0 ≤ binMean ((p.cfg hull pv recs.length).input cells).recs ((p.cfg hull pv recs.length).input cells).sum s e) ∨
      (∀ s e, s ≤ e → e < ((p.cfg hull pv recs.length).input cells).n →
        binMean ((p.cfg hull pv recs.length).input cells).recs ((p.cfg hull pv recs.length).input cells).sum s e ≤ 0) := by
      rcases hp with hp | ⟨-, hp | hp⟩
      · left
        rw [ho]
        rcases hp with hp | hp | hp <;> simp [hp, plainTrendC]
      · exact Or.inr (Or.inl fun s e _ _ => s1 hp s e)
      · exact Or.inr (Or.inr fun s e _ _ => s2 hp s e)
    have key := (C49_optimal_partial a3 hwf hch hss (hr cells) (hst.symm.trans hs) sol
      (hc.admissible a1 hm (by rw [ho]) (by rw [ho]) (by rw [ho]) (by rw [ho]) (by rw [ho]) (by rw [ho]))
      (hc.tests a2 hwf hm rfl rfl) (hc.apart hm rfl)).2
    rw [hc.distance, hcf.distance] at key
    have hcard : ((binsOf ((p.cfg hull pv recs.length).input cells).n sol).card : ℚ) ≤ (cs.length : ℚ) + 1 := by
      have := card_binsOf_le ((p.cfg hull pv recs.length).input cells).n sol
      rw [hc.num] at this
      exact_mod_cast this
    refine le_trans key (add_le_add le_rfl ?_)
    exact div_le_div_of_nonneg_right hcard (by norm_num)

end OptBinning
