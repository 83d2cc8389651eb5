import Verif.Lemmas.CutsFit
import Verif.Props.Optimal
import Verif.Props.Params
import Verif.Props.FitTable
import Verif.Lemmas.TableDiv

/-!
# C103: the table of a fit with status OPTIMAL is the best among all groupings of the pre-bins
-/
namespace OptBinning
open Finset Spec

variable {α : Type*} [LinearOrder α]

theorem options_none {p : Params} {hull : List ℚ → Option ℚ} {stale : Bool} {n : ℕ} {nev ev : List ℕ} {t : Trend} (hk : p.divergence.keepsPure = false)
    (ht : resolveTrend hull nev ev p.trend = .ok t) (pv : ℕ → ℕ → ℕ → ℕ → ℝ) :
    (p.cfg hull stale pv n).opts nev ev =
      { trend := t, minBins := p.minBins, maxBins := p.maxBins,
        minSize := p.minBinSize.map (ceilSize n), maxSize := p.maxBinSize.map (ceilSize n),
        minEvent := p.minEvent, maxEvent := p.maxEvent, minNonevent := p.minNonevent, maxNonevent := p.maxNonevent,
        minRateDiffZero := decide (p.minRateDiff = .num 0), gamma := decide (p.gamma ≠ .num 0) } := by
  simp only [Params.cfg, Params.options, ht, bind, Except.bind, pure, Except.pure]
  simp [Params.minCount, hk]

section
variable {recs : List (Rec α)} {cs : List α} {p : Params} {pv : ℕ → ℕ → ℕ → ℕ → ℝ} {N : ℕ} {slack : ℚ}
  {inp : BinaryInput} {sol : ℕ → Bool} {idx : ℕ → ℕ}

/-- The trend argument as the solver sees it. -/
def plainTrend : TrendArg → Trend
  | .ascending => .ascending
  | .descending => .descending
  | .peak => .peak
  | .valley => .valley
  | _ => .unconstrained

theorem resolve_plain {p : Params} (h : AnyLimits p ∨ OnlyTrend p) (hull : List ℚ → Option ℚ) (nev ev : List ℕ) :
    resolveTrend hull nev ev p.trend = .ok (plainTrend p.trend) := by
  have : p.trend = .none ∨ p.trend = .peak ∨ p.trend = .valley ∨ p.trend = .ascending ∨ p.trend = .descending := by
    rcases h with (h | ⟨h, -⟩) | h
    · tauto
    · tauto
    · have := h.trend; tauto
  rcases this with h | h | h | h | h <;> rw [h] <;> rfl

theorem trend_floor {n : ℕ} {sol : ℕ → Bool} {r : ℕ → ℕ → ℚ} (a : TrendArg) (h : TrendHolds n sol r (plainTrend a)) :
    TrendHolds n sol (fun s e => ⌊r s e * 1000000⌋) (plainTrend a) := by
  have hm : ∀ {x y : ℚ}, x ≤ y → ⌊x * 1000000⌋ ≤ ⌊y * 1000000⌋ := fun h => Int.floor_mono (by linarith)
  cases a <;> simp only [plainTrend] at h ⊢ <;> first
    | exact trivial
    | exact fun s e s' e' h1 h2 h3 h4 h5 => hm (h s e s' e' h1 h2 h3 h4 h5)
    | (obtain ⟨c, ha, hd⟩ := h
       exact ⟨c, fun s e s' e' h1 h2 h3 h4 h5 => hm (ha s e s' e' h1 h2 h3 h4 h5), fun s e s' e' h1 h2 h3 h4 h5 => hm (hd s e s' e' h1 h2 h3 h4 h5)⟩)

theorem trend_cast {n : ℕ} {sol : ℕ → Bool} {r : ℕ → ℕ → ℚ} (a : TrendArg) (h : TrendHolds n sol r (plainTrend a)) :
    TrendHolds n sol (fun s e => ((r s e : ℚ) : ℝ)) (plainTrend a) := by
  have hm : ∀ {x y : ℚ}, x ≤ y → (x : ℝ) ≤ (y : ℝ) := fun h => by exact_mod_cast h
  cases a <;> simp only [plainTrend] at h ⊢ <;> first
    | exact trivial
    | exact fun s e s' e' h1 h2 h3 h4 h5 => hm (h s e s' e' h1 h2 h3 h4 h5)
    | (obtain ⟨c, ha, hd⟩ := h
       exact ⟨c, fun s e s' e' h1 h2 h3 h4 h5 => hm (ha s e s' e' h1 h2 h3 h4 h5), fun s e s' e' h1 h2 h3 h4 h5 => hm (hd s e s' e' h1 h2 h3 h4 h5)⟩)

theorem CutBins.trend (h : CutBins recs cs inp.n sol inp.ne inp.ev idx) (hm : CutsMeet p pv N slack recs cs) :
    TrendHolds inp.n sol (eventRate inp.ne inp.ev) (plainTrend p.trend) := by
  cases ht : p.trend <;> simp only [plainTrend] <;> first
    | exact h.ascending (hm.ascending ht)
    | exact h.descending (hm.descending ht)
    | exact h.peak (hm.peak ht)
    | exact h.valley (hm.valley ht)
    | exact trivial

/-- A candidate is admissible, for whatever rates of the bins follow the trend. -/
theorem CutBins.admissible {R : Type*} [CommRing R] [LinearOrder R] {r : ℕ → ℕ → R} (hacc : ∀ v, p.minBinSize = some v ∨ p.maxBinSize = some v → ∃ q, v = .num q)
    (h : CutBins recs cs inp.n sol inp.ne inp.ev idx) (hm : CutsMeet p pv N slack recs cs) {o : Opts}
    (ho : o.minBins = p.minBins ∧ o.maxBins = p.maxBins ∧ o.minSize = p.minBinSize.map (ceilSize N) ∧ o.maxSize = p.maxBinSize.map (ceilSize N) ∧
      o.minEvent = p.minEvent ∧ o.maxEvent = p.maxEvent ∧ o.minNonevent = p.minNonevent ∧ o.maxNonevent = p.maxNonevent ∧ o.fixed = none)
    (ht : TrendHolds inp.n sol r o.trend) : Admissible o inp.n sol inp.ne inp.ev r := by
  obtain ⟨o1, o2, o3, o4, o5, o6, o7, o8, o9⟩ := ho
  have hnum : ((numBins inp.n sol : ℕ) : ℤ) = (cs.length : ℤ) + 1 := by rw [h.num]; push_cast; rfl
  refine ⟨h.binning, ?_, ?_, ?_, ?_, ?_, ?_, ?_, ?_, ht, ?_⟩
  · rw [o1, hnum]; exact hm.minBins
  · rw [o2, hnum]; exact hm.maxBins
  · intro s e hb b hb'
    rw [o3] at hb'
    cases hq : p.minBinSize with
    | none => rw [hq] at hb'; cases hb'
    | some v =>
      obtain ⟨q, rfl⟩ := hacc v (Or.inl hq)
      rw [hq] at hb'
      simp only [Option.map_some, Option.some.injEq, ceilSize] at hb'
      rw [← hb', Int.ceil_le]
      push_cast
      rw [h.rowNe s e hb, h.rowEv s e hb]
      exact hm.minSize q hq _ (h.le s e hb)
  · intro s e hb b hb'
    rw [o4] at hb'
    cases hq : p.maxBinSize with
    | none => rw [hq] at hb'; cases hb'
    | some v =>
      obtain ⟨q, rfl⟩ := hacc v (Or.inr hq)
      rw [hq] at hb'
      simp only [Option.map_some, Option.some.injEq, ceilSize] at hb'
      rw [← hb']
      have h1 := hm.maxSize q hq _ (h.le s e hb)
      rw [← h.rowNe s e hb, ← h.rowEv s e hb] at h1
      have h2 : ((binTotal inp.ne s e + binTotal inp.ev s e : ℤ) : ℚ) ≤ ((⌈q * (N : ℚ)⌉ : ℤ) : ℚ) := by
        push_cast
        exact le_trans h1 (Int.le_ceil _)
      exact_mod_cast h2
  · intro s e hb b hb'
    have h1 := hm.minNonevent b (o7 ▸ hb') _ (h.le s e hb)
    rw [← h.rowNe s e hb] at h1
    exact_mod_cast h1
  · intro s e hb b hb'
    have h1 := hm.maxNonevent b (o8 ▸ hb') _ (h.le s e hb)
    rw [← h.rowNe s e hb] at h1
    exact_mod_cast h1
  · intro s e hb b hb'
    have h1 := hm.minEvent b (o5 ▸ hb') _ (h.le s e hb)
    rw [← h.rowEv s e hb] at h1
    exact_mod_cast h1
  · intro s e hb b hb'
    have h1 := hm.maxEvent b (o6 ▸ hb') _ (h.le s e hb)
    rw [← h.rowEv s e hb] at h1
    exact_mod_cast h1
  · intro g hg; rw [o9] at hg; cases hg

theorem CutBins.tests (hacc : ∀ v, p.maxPvalue = some v → ∃ q, v = .num q)
    (h : CutBins recs cs inp.n sol inp.ne inp.ev idx) (hm : CutsMeet p pv N slack recs cs)
    (hpos : ∀ k, 0 ≤ inp.ne k ∧ 0 ≤ inp.ev k)
    (htest : inp.test = p.maxPvalue.map fun v e₁ ne₁ e₂ ne₂ => decide ((v.value : ℝ) < pv e₁ ne₁ e₂ ne₂)) (hpol : inp.policy = p.policy) :
    Separated inp.policy inp.n sol (failsTest inp) := by
  rintro s e s' e' hb hb' hlt hc ⟨t, ht, hf⟩
  rw [htest] at ht
  cases hq : p.maxPvalue with
  | none => rw [hq] at ht; cases ht
  | some v =>
    obtain ⟨q, rfl⟩ := hacc v hq
    rw [hq] at ht
    simp only [Option.map_some, Option.some.injEq] at ht
    subst ht
    simp only [XQ.value] at hf
    have hnn : ∀ {x : ℕ → ℤ} (_ : ∀ k, 0 ≤ x k) (s e : ℕ), (((binTotal x s e).toNat : ℕ) : ℚ) = ((binTotal x s e : ℤ) : ℚ) := by
      intro x hx s e
      have : 0 ≤ binTotal x s e := Finset.sum_nonneg fun k _ => hx k
      have h2 : (((binTotal x s e).toNat : ℕ) : ℤ) = binTotal x s e := Int.toNat_of_nonneg this
      exact_mod_cast congrArg (fun z : ℤ => (z : ℚ)) h2
    have hee : e < e' := lt_of_lt_of_le hlt hb'.1
    have := hm.pvalue q hq (idx e) (idx e') (h.lt _ _ _ _ hb hb' hee) (h.le _ _ hb')
      (fun hp => h.next _ _ _ _ hb hb' (hc (hpol.trans hp))) _ _ _ _
      ((hnn (fun k => (hpos k).2) s e).trans (h.rowEv s e hb)) ((hnn (fun k => (hpos k).1) s e).trans (h.rowNe s e hb))
      ((hnn (fun k => (hpos k).2) s' e').trans (h.rowEv s' e' hb')) ((hnn (fun k => (hpos k).1) s' e').trans (h.rowNe s' e' hb'))
    exact absurd (of_decide_eq_true hf) (not_lt.2 this)

theorem CutBins.apart (hacc : ∃ q, p.minRateDiff = .num q)
    (h : CutBins recs cs inp.n sol inp.ne inp.ev idx) (hm : CutsMeet p pv N 0 recs cs) (hd : inp.minDiff = p.minRateDiff.value) :
    Separated .consecutive inp.n sol (tooClose inp) := by
  rintro s e s' e' hb hb' hlt hc ⟨h0, h1⟩
  obtain ⟨q, hq⟩ := hacc
  rw [hd, hq] at h0 h1
  have hi := h.next _ _ _ _ hb hb' (hc rfl)
  have := hm.minDiff q hq h0 (idx e) (by have := h.le _ _ hb'; omega)
  rw [← hi, ← h.rate hb, ← h.rate hb', add_zero] at this
  exact absurd h1 (not_lt.2 this)

theorem CutBins.apart6 (hacc : ∃ q, p.minRateDiff = .num q)
    (h : CutBins recs cs inp.n sol inp.ne inp.ev idx) (hm : CutsMeet p pv N (1 / 1000000) recs cs) (hd : inp.minDiff = p.minRateDiff.value) :
    Separated .consecutive inp.n sol (tooClose6 inp) := by
  rintro s e s' e' hb hb' hlt hc ⟨h0, h1⟩
  obtain ⟨q, hq⟩ := hacc
  rw [hd, hq] at h0 h1
  have hi := h.next _ _ _ _ hb hb' (hc rfl)
  have := hm.minDiff q hq h0 (idx e) (by have := h.le _ _ hb'; omega)
  rw [← hi, ← h.rate hb, ← h.rate hb'] at this
  simp only [XQ.value] at h1
  unfold rate6 at h1
  generalize eventRate inp.ne inp.ev s e = a at *
  generalize eventRate inp.ne inp.ev s' e' = b at *
  have f1 := Int.floor_le (a * 1000000)
  have f2 := Int.lt_floor_add_one (a * 1000000)
  have f3 := Int.floor_le (b * 1000000)
  have f4 := Int.lt_floor_add_one (b * 1000000)
  have f5 := Int.floor_le (q * 1000000)
  have h1' : |((⌊a * 1000000⌋ : ℤ) : ℚ) - ((⌊b * 1000000⌋ : ℤ) : ℚ)| + 1 ≤ ((⌊q * 1000000⌋ : ℤ) : ℚ) := by
    have : |⌊a * 1000000⌋ - ⌊b * 1000000⌋| + 1 ≤ ⌊q * 1000000⌋ := h1
    exact_mod_cast this
  have g1 := le_abs_self (((⌊a * 1000000⌋ : ℤ) : ℚ) - ((⌊b * 1000000⌋ : ℤ) : ℚ))
  have g2 := neg_abs_le (((⌊a * 1000000⌋ : ℤ) : ℚ) - ((⌊b * 1000000⌋ : ℤ) : ℚ))
  rcases le_total 0 (a - b) with hs | hs
  · rw [abs_of_nonneg hs] at this; linarith
  · rw [abs_of_nonpos hs] at this; linarith

end

theorem accepted_num {p : Params} (h : checkParameters p = .ok ()) :
    (∀ v, p.minBinSize = some v ∨ p.maxBinSize = some v → ∃ q, v = .num q) ∧ (∀ v, p.maxPvalue = some v → ∃ q, v = .num q) ∧
      ∃ q, p.minRateDiff = .num q ∧ 0 ≤ q := by
  have hv := ((C102_checks p).2.1 h).2 0 0
  refine ⟨?_, ?_, ?_⟩
  · rintro v (hv' | hv')
    · obtain ⟨q, hq, -⟩ := hv.minBinSize v hv'; exact ⟨q, hq⟩
    · obtain ⟨q, hq, -⟩ := hv.maxBinSize v hv'; exact ⟨q, hq⟩
  · intro v hv'
    obtain ⟨q, hq, -⟩ := hv.maxPvalue v hv'; exact ⟨q, hq⟩
  · obtain ⟨q, hq, h0, -⟩ := hv.minRateDiff; exact ⟨q, hq, h0⟩

theorem fitParams_accepted {p : Params} {sc : SpecialCodes α} {so : SplitOpts α} {prebin : List (Rec α) → List α} {solver : Solver}
    {recs : List (Rec α)} {f : Fitted α} (h : fitParams p sc so prebin solver recs = .ok f) : checkParameters p = .ok () := by
  unfold fitParams at h
  split at h
  · cases h
  · assumption

theorem anyLimits_noShortcuts {p : Params} (h : AnyLimits p) {q : ℚ} (hq : p.minRateDiff = .num q) {o : Opts} (ho : o.trend = plainTrend p.trend)
    {inp : BinaryInput} (hd : inp.minDiff = p.minRateDiff.value) : NoShortcuts o inp := by
  rcases h with h | ⟨h, h'⟩
  · refine ⟨Or.inl ?_, ?_, ?_⟩
    · rcases h with h | h | h <;> rw [ho, h] <;> simp [plainTrend]
    · rcases h with h | h | h <;> rw [ho, h] <;> simp [plainTrend]
    · intro tc ht
      rcases h with h | h | h <;> rw [ho, h] at ht <;> simp [plainTrend] at ht
  · refine ⟨Or.inr ?_, ?_, ?_⟩
    · rw [hd, hq]; intro h0; rw [hq] at h'; exact h' (by simp only [XQ.value] at h0; rw [h0])
    · rcases h with h | h <;> rw [ho, h] <;> simp [plainTrend]
    · intro tc ht
      rcases h with h | h <;> rw [ho, h] at ht <;> simp [plainTrend] at ht

/-- `C103_limits_mip` for a fit whose options are computed from `N` records. -/
theorem cut_limits_mip_of_size {N : ℕ} (p : Params) (hull : List ℚ → Option ℚ) (stale : Bool) (pv : ℕ → ℕ → ℕ → ℕ → ℝ) (sc : SpecialCodes α)
    (so : SplitOpts α) (prebin : List (Rec α) → List α) (solver : Solver) (recs : List (Rec α)) (f : Fitted α) (reg : ℝ)
    (hw : WholeWeights recs) (hsort : ∀ l, (prebin l).Pairwise (· ≤ ·)) (hd : p.divergence = .iv ∨ p.divergence = .js) (hg : p.gamma = .num 0)
    (hp : AnyLimits p) (hr : RespectsMIP (p.cfg hull stale pv N) reg solver)
    (h : fitParams p sc so prebin solver recs = .ok f) (hs : f.status = "OPTIMAL") :
    ∃ ps : List α, f.splits.Sublist ps ∧ ps.Sublist (prebin (splitData sc so recs).clean) ∧
      (CutsMixed (splitData sc so recs).clean (prebin (splitData sc so recs).clean) → ps = prebin (splitData sc so recs).clean) ∧
      ∀ cs : List α, cs.Sublist ps → CutsMeet p pv N 0 (splitData sc so recs).clean cs →
        cutDivergence p.divergence.fn (splitData sc so recs).clean cs ≤ cutDivergence p.divergence.fn (splitData sc so recs).clean f.splits := by
  have hk : p.divergence.keepsPure = false := by rcases hd with hd | hd <;> rw [hd] <;> rfl
  obtain ⟨a1, a2, q, a3, a4⟩ := accepted_num (fitParams_accepted h)
  obtain ⟨ps, g1, g2, g3, -, g4⟩ := fit_cuts hw (fun nev ev hn => Respects.last (Or.inr ⟨reg, hr⟩) nev ev hn) hsort hk (fitParams_fit h)
  refine ⟨ps, g1, g2, g3, fun cs hcs hm => ?_⟩
  rcases g4 with rfl | ⟨nev, ev, l1, l2, hpos, hst, ⟨idx, hcf⟩, hall⟩
  · rw [List.sublist_nil.1 hcs, List.sublist_nil.1 g1]
  · obtain ⟨sol, idx', hc⟩ := hall cs hcs
    have hopt := options_none (n := N) (stale := stale) hk (resolve_plain (Or.inl hp) hull nev ev) pv
    have hwf : ((p.cfg hull stale pv N).input nev ev).Wf := ⟨l1, by show 0 < nev.length; omega⟩
    have hv := hr nev ev
    rw [hopt] at hv
    have hc' : CutBins (splitData sc so recs).clean cs ((p.cfg hull stale pv N).input nev ev).n sol
      ((p.cfg hull stale pv N).input nev ev).ne ((p.cfg hull stale pv N).input nev ev).ev idx' := hc
    have key := C18_optimal_mip_partial hwf (anyLimits_noShortcuts hp a3 rfl rfl) (by simp [hg]) hv (by rw [← hst.symm.trans hs]; rfl)
      sol (hc'.admissible a1 hm ⟨rfl, rfl, rfl, rfl, rfl, rfl, rfl, rfl, rfl⟩ (trend_cast _ (hc'.trend hm)))
      (hc'.tests a2 hm (fun k => ⟨by unfold BinaryInput.ne; positivity, by unfold BinaryInput.ev; positivity⟩) rfl rfl)
      (hc'.apart ⟨q, a3⟩ hm rfl)
    rw [hc'.divergence] at key
    refine le_trans key (le_of_eq ?_)
    exact hcf.divergence _

/-- C103, `solver="mip"`: if `fit` reports OPTIMAL (no regularisation, divergence "iv" or "js"), there is a list `ps` of cut points — the
pre-binning splits, all of them if every pre-bin holds both classes — such that the table at the returned splits has the largest
divergence among the tables at any selection of these cut points which meets the arguments.
The arguments are any limits with no trend, peak or valley, or with ascending/descending and a minimum rate difference. -/
theorem C103_limits_mip (p : Params) (hull : List ℚ → Option ℚ) (stale : Bool) (pv : ℕ → ℕ → ℕ → ℕ → ℝ) (sc : SpecialCodes α)
    (so : SplitOpts α) (prebin : List (Rec α) → List α) (solver : Solver) (recs : List (Rec α)) (f : Fitted α) (reg : ℝ)
    (hw : WholeWeights recs) (hsort : ∀ l, (prebin l).Pairwise (· ≤ ·)) (hd : p.divergence = .iv ∨ p.divergence = .js) (hg : p.gamma = .num 0)
    (hp : AnyLimits p) (hr : RespectsMIP (p.cfg hull stale pv recs.length) reg solver)
    (h : fitParams p sc so prebin solver recs = .ok f) (hs : f.status = "OPTIMAL") :
    ∃ ps : List α, f.splits.Sublist ps ∧ ps.Sublist (prebin (splitData sc so recs).clean) ∧
      (CutsMixed (splitData sc so recs).clean (prebin (splitData sc so recs).clean) → ps = prebin (splitData sc so recs).clean) ∧
      ∀ cs : List α, cs.Sublist ps → CutsMeet p pv recs.length 0 (splitData sc so recs).clean cs →
        cutDivergence p.divergence.fn (splitData sc so recs).clean cs ≤ cutDivergence p.divergence.fn (splitData sc so recs).clean f.splits :=
  cut_limits_mip_of_size p hull stale pv sc so prebin solver recs f reg hw hsort hd hg hp hr h hs

/-- `C103_limits_cp` for a fit whose options are computed from `N` records. -/
theorem cut_limits_cp_of_size {N : ℕ} (p : Params) (hull : List ℚ → Option ℚ) (stale : Bool) (pv : ℕ → ℕ → ℕ → ℕ → ℝ) (sc : SpecialCodes α)
    (so : SplitOpts α) (prebin : List (Rec α) → List α) (solver : Solver) (recs : List (Rec α)) (f : Fitted α) (reg : ℤ)
    (hw : WholeWeights recs) (hsort : ∀ l, (prebin l).Pairwise (· ≤ ·)) (hd : p.divergence = .iv ∨ p.divergence = .js) (hg : p.gamma = .num 0)
    (hp : AnyLimits p) (hr : RespectsCP (p.cfg hull stale pv N) reg solver)
    (h : fitParams p sc so prebin solver recs = .ok f) (hs : f.status = "OPTIMAL") :
    ∃ ps : List α, f.splits.Sublist ps ∧ ps.Sublist (prebin (splitData sc so recs).clean) ∧
      (CutsMixed (splitData sc so recs).clean (prebin (splitData sc so recs).clean) → ps = prebin (splitData sc so recs).clean) ∧
      ∀ cs : List α, cs.Sublist ps → CutsMeet p pv N (1 / 1000000) (splitData sc so recs).clean cs →
        cutDivergence p.divergence.fn (splitData sc so recs).clean cs ≤ cutDivergence p.divergence.fn (splitData sc so recs).clean f.splits + ((cs.length : ℝ) + 1) / 1000000 := by
  obtain ⟨a1, a2, q, a3, a4⟩ := accepted_num (fitParams_accepted h)
  have hk : p.divergence.keepsPure = false := by rcases hd with hd | hd <;> rw [hd] <;> rfl
  obtain ⟨ps, g1, g2, g3, -, g4⟩ := fit_cuts hw (fun nev ev hn => Respects.last (Or.inl ⟨reg, hr⟩) nev ev hn) hsort hk (fitParams_fit h)
  refine ⟨ps, g1, g2, g3, fun cs hcs hm => ?_⟩
  rcases g4 with rfl | ⟨nev, ev, l1, l2, hpos, hst, ⟨idx, hcf⟩, hall⟩
  · rw [List.sublist_nil.1 hcs, List.sublist_nil.1 g1]; exact le_add_of_nonneg_right (by positivity)
  · obtain ⟨sol, idx', hc⟩ := hall cs hcs
    have hopt := options_none (n := N) (stale := stale) hk (resolve_plain (Or.inl hp) hull nev ev) pv
    have hwf : ((p.cfg hull stale pv N).input nev ev).Wf := ⟨l1, by show 0 < nev.length; omega⟩
    have hv := hr nev ev
    rw [hopt] at hv
    have hmix : ∀ k < ((p.cfg hull stale pv N).input nev ev).n, 0 < ((p.cfg hull stale pv N).input nev ev).ne k ∧
        0 < ((p.cfg hull stale pv N).input nev ev).ev k := fun k hk => by
      have := hpos k hk
      exact ⟨Int.natCast_pos.2 this.1, Int.natCast_pos.2 this.2⟩
    have hc' : CutBins (splitData sc so recs).clean cs ((p.cfg hull stale pv N).input nev ev).n sol
      ((p.cfg hull stale pv N).input nev ev).ne ((p.cfg hull stale pv N).input nev ev).ev idx' := hc
    have hnn : ∀ sol' s e, IsBin ((p.cfg hull stale pv N).input nev ev).n sol' s e → 0 ≤ binDivergence ((p.cfg hull stale pv N).input nev ev).div
        ((p.cfg hull stale pv N).input nev ev).n ((p.cfg hull stale pv N).input nev ev).ne ((p.cfg hull stale pv N).input nev ev).ev s e :=
      fun sol' s e hb => binDivergence_nonneg (fun k hk => (hmix k hk).1) (fun k hk => (hmix k hk).2) p.divergence hb
    have key := C18_optimal_cp_partial hwf (anyLimits_noShortcuts hp a3 rfl rfl) (by simp [hg]) hv (by rw [← hst.symm.trans hs]; rfl)
      sol (hc'.admissible a1 hm ⟨rfl, rfl, rfl, rfl, rfl, rfl, rfl, rfl, rfl⟩ (trend_floor _ (hc'.trend hm)))
      (hc'.tests a2 hm (fun k => ⟨by unfold BinaryInput.ne; positivity, by unfold BinaryInput.ev; positivity⟩) rfl rfl)
      (hc'.apart6 ⟨q, a3⟩ hm rfl)
    have t1 := (total_trunc (hnn sol)).2
    have t2 := (total_trunc (hnn (solOf (solve nev.length (solver nev ev)).2))).1
    have key' : ((totalOverBins _ sol (fun s e => truncReal (binDivergence ((p.cfg hull stale pv N).input nev ev).div
        ((p.cfg hull stale pv N).input nev ev).n ((p.cfg hull stale pv N).input nev ev).ne ((p.cfg hull stale pv N).input nev ev).ev s e *
          1000000)) : ℤ) : ℝ) ≤ _ := Int.cast_le.2 key
    have t3 := le_trans key' t2
    rw [hc'.divergence, hc'.num] at t1
    have e1 : totalOverBins ((p.cfg hull stale pv N).input nev ev).n (solOf (solve nev.length (solver nev ev)).2)
        (binDivergence ((p.cfg hull stale pv N).input nev ev).div ((p.cfg hull stale pv N).input nev ev).n
          ((p.cfg hull stale pv N).input nev ev).ne ((p.cfg hull stale pv N).input nev ev).ev) =
        cutDivergence p.divergence.fn (splitData sc so recs).clean f.splits := hcf.divergence _
    rw [e1] at t3
    have e2 : ((p.cfg hull stale pv N).input nev ev).div = p.divergence.fn := rfl
    rw [e2] at t1 t3
    push_cast at t1
    linarith

/-- C103, `solver="cp"`: the same up to the integer rounding of the solver, at most 10⁻⁶ per bin of the compared table (and 10⁻⁶ in the
minimum rate difference). -/
theorem C103_limits_cp (p : Params) (hull : List ℚ → Option ℚ) (stale : Bool) (pv : ℕ → ℕ → ℕ → ℕ → ℝ) (sc : SpecialCodes α)
    (so : SplitOpts α) (prebin : List (Rec α) → List α) (solver : Solver) (recs : List (Rec α)) (f : Fitted α) (reg : ℤ)
    (hw : WholeWeights recs) (hsort : ∀ l, (prebin l).Pairwise (· ≤ ·)) (hd : p.divergence = .iv ∨ p.divergence = .js) (hg : p.gamma = .num 0)
    (hp : AnyLimits p) (hr : RespectsCP (p.cfg hull stale pv recs.length) reg solver)
    (h : fitParams p sc so prebin solver recs = .ok f) (hs : f.status = "OPTIMAL") :
    ∃ ps : List α, f.splits.Sublist ps ∧ ps.Sublist (prebin (splitData sc so recs).clean) ∧
      (CutsMixed (splitData sc so recs).clean (prebin (splitData sc so recs).clean) → ps = prebin (splitData sc so recs).clean) ∧
      ∀ cs : List α, cs.Sublist ps → CutsMeet p pv recs.length (1 / 1000000) (splitData sc so recs).clean cs →
        cutDivergence p.divergence.fn (splitData sc so recs).clean cs ≤ cutDivergence p.divergence.fn (splitData sc so recs).clean f.splits + ((cs.length : ℝ) + 1) / 1000000 :=
  cut_limits_cp_of_size p hull stale pv sc so prebin solver recs f reg hw hsort hd hg hp hr h hs

/-- `C103_monotone_mip` for a fit whose options are computed from `N` records. -/
theorem cut_monotone_mip_of_size {N : ℕ} (p : Params) (hull : List ℚ → Option ℚ) (stale : Bool) (pv : ℕ → ℕ → ℕ → ℕ → ℝ) (sc : SpecialCodes α)
    (so : SplitOpts α) (prebin : List (Rec α) → List α) (solver : Solver) (recs : List (Rec α)) (f : Fitted α) (reg : ℝ)
    (hw : WholeWeights recs) (hsort : ∀ l, (prebin l).Pairwise (· ≤ ·)) (hd : p.divergence = .iv ∨ p.divergence = .js) (hg : p.gamma = .num 0)
    (hp : OnlyTrend p) (hr : RespectsMIP (p.cfg hull stale pv N) reg solver)
    (h : fitParams p sc so prebin solver recs = .ok f) (hs : f.status = "OPTIMAL") :
    ∃ ps : List α, f.splits.Sublist ps ∧ ps.Sublist (prebin (splitData sc so recs).clean) ∧
      (CutsMixed (splitData sc so recs).clean (prebin (splitData sc so recs).clean) → ps = prebin (splitData sc so recs).clean) ∧
      ∀ cs : List α, cs.Sublist ps → (p.trend = .ascending → CutsAscending (splitData sc so recs).clean cs) →
        (p.trend = .descending → CutsDescending (splitData sc so recs).clean cs) → AtMost p.maxBins (cs.length + 1) →
        cutDivergence p.divergence.fn (splitData sc so recs).clean cs ≤ cutDivergence p.divergence.fn (splitData sc so recs).clean f.splits := by
  have hk : p.divergence.keepsPure = false := by rcases hd with hd | hd <;> rw [hd] <;> rfl
  obtain ⟨ps, g1, g2, g3, -, g4⟩ := fit_cuts hw (fun nev ev hn => Respects.last (Or.inr ⟨reg, hr⟩) nev ev hn) hsort hk (fitParams_fit h)
  refine ⟨ps, g1, g2, g3, fun cs hcs hm hm' hmax => ?_⟩
  rcases g4 with rfl | ⟨nev, ev, l1, l2, hpos, hst, ⟨idx, hcf⟩, hall⟩
  · rw [List.sublist_nil.1 hcs, List.sublist_nil.1 g1]
  · obtain ⟨sol, idx', hc⟩ := hall cs hcs
    have hopt := options_none (n := N) (stale := stale) hk (resolve_plain (Or.inr hp) hull nev ev) pv
    have hwf : ((p.cfg hull stale pv N).input nev ev).Wf := ⟨l1, by show 0 < nev.length; omega⟩
    have hv := hr nev ev
    rw [hopt] at hv
    have hmix : ∀ k < ((p.cfg hull stale pv N).input nev ev).n, 0 < ((p.cfg hull stale pv N).input nev ev).ne k ∧
        0 < ((p.cfg hull stale pv N).input nev ev).ev k := fun k hk => by
      have := hpos k hk
      exact ⟨Int.natCast_pos.2 this.1, Int.natCast_pos.2 this.2⟩
    have hc' : CutBins (splitData sc so recs).clean cs ((p.cfg hull stale pv N).input nev ev).n sol
      ((p.cfg hull stale pv N).input nev ev).ne ((p.cfg hull stale pv N).input nev ev).ev idx' := hc
    have ht : TrendHolds ((p.cfg hull stale pv N).input nev ev).n sol
        (eventRate ((p.cfg hull stale pv N).input nev ev).ne ((p.cfg hull stale pv N).input nev ev).ev) (plainTrend p.trend) := by
      rcases hp.trend with ht | ht
      · rw [ht]; exact hc'.ascending (hm ht)
      · rw [ht]; exact hc'.descending (hm' ht)
    have key := C18_monotone_mip (hv := hv) hwf
      ⟨by rcases hp.trend with ht | ht <;> rw [ht] <;> simp [plainTrend], hp.minBins, by simp [hp.minBinSize], by simp [hp.maxBinSize], hp.minEvent, hp.maxEvent,
        hp.minNonevent, hp.maxNonevent, rfl, by simp [hg]⟩
      hmix (by simp [SolverCfg.input, Params.cfg, hp.maxPvalue]) (by simp [SolverCfg.input, Params.cfg, hp.minRateDiff, XQ.value]) p.divergence rfl
      (by rw [← hst.symm.trans hs]; rfl) sol hc'.binning (by rw [hc'.num]; push_cast; exact hmax) ht
    rw [hc'.divergence] at key
    refine le_trans key (le_of_eq ?_)
    exact hcf.divergence _

/-- C103, `solver="mip"`, ascending or descending trend, possibly with `max_n_bins`, but no other requirement: no selection of the cut points
with this trend and at most that many intervals has a larger divergence. -/
theorem C103_monotone_mip (p : Params) (hull : List ℚ → Option ℚ) (stale : Bool) (pv : ℕ → ℕ → ℕ → ℕ → ℝ) (sc : SpecialCodes α)
    (so : SplitOpts α) (prebin : List (Rec α) → List α) (solver : Solver) (recs : List (Rec α)) (f : Fitted α) (reg : ℝ)
    (hw : WholeWeights recs) (hsort : ∀ l, (prebin l).Pairwise (· ≤ ·)) (hd : p.divergence = .iv ∨ p.divergence = .js) (hg : p.gamma = .num 0)
    (hp : OnlyTrend p) (hr : RespectsMIP (p.cfg hull stale pv recs.length) reg solver)
    (h : fitParams p sc so prebin solver recs = .ok f) (hs : f.status = "OPTIMAL") :
    ∃ ps : List α, f.splits.Sublist ps ∧ ps.Sublist (prebin (splitData sc so recs).clean) ∧
      (CutsMixed (splitData sc so recs).clean (prebin (splitData sc so recs).clean) → ps = prebin (splitData sc so recs).clean) ∧
      ∀ cs : List α, cs.Sublist ps → (p.trend = .ascending → CutsAscending (splitData sc so recs).clean cs) →
        (p.trend = .descending → CutsDescending (splitData sc so recs).clean cs) → AtMost p.maxBins (cs.length + 1) →
        cutDivergence p.divergence.fn (splitData sc so recs).clean cs ≤ cutDivergence p.divergence.fn (splitData sc so recs).clean f.splits :=
  cut_monotone_mip_of_size p hull stale pv sc so prebin solver recs f reg hw hsort hd hg hp hr h hs

/-- `C103_monotone_cp` for a fit whose options are computed from `N` records. -/
theorem cut_monotone_cp_of_size {N : ℕ} (p : Params) (hull : List ℚ → Option ℚ) (stale : Bool) (pv : ℕ → ℕ → ℕ → ℕ → ℝ) (sc : SpecialCodes α)
    (so : SplitOpts α) (prebin : List (Rec α) → List α) (solver : Solver) (recs : List (Rec α)) (f : Fitted α) (reg : ℤ)
    (hw : WholeWeights recs) (hsort : ∀ l, (prebin l).Pairwise (· ≤ ·)) (hd : p.divergence = .iv ∨ p.divergence = .js) (hg : p.gamma = .num 0)
    (hp : OnlyTrend p) (hr : RespectsCP (p.cfg hull stale pv N) reg solver)
    (h : fitParams p sc so prebin solver recs = .ok f) (hs : f.status = "OPTIMAL") :
    ∃ ps : List α, f.splits.Sublist ps ∧ ps.Sublist (prebin (splitData sc so recs).clean) ∧
      (CutsMixed (splitData sc so recs).clean (prebin (splitData sc so recs).clean) → ps = prebin (splitData sc so recs).clean) ∧
      ∀ cs : List α, cs.Sublist ps → (p.trend = .ascending → CutsAscending (splitData sc so recs).clean cs) →
        (p.trend = .descending → CutsDescending (splitData sc so recs).clean cs) → AtMost p.maxBins (cs.length + 1) →
        cutDivergence p.divergence.fn (splitData sc so recs).clean cs ≤ cutDivergence p.divergence.fn (splitData sc so recs).clean f.splits + ((cs.length : ℝ) + 1) / 1000000 := by
  have hk : p.divergence.keepsPure = false := by rcases hd with hd | hd <;> rw [hd] <;> rfl
  obtain ⟨ps, g1, g2, g3, -, g4⟩ := fit_cuts hw (fun nev ev hn => Respects.last (Or.inl ⟨reg, hr⟩) nev ev hn) hsort hk (fitParams_fit h)
  refine ⟨ps, g1, g2, g3, fun cs hcs hm hm' hmax => ?_⟩
  rcases g4 with rfl | ⟨nev, ev, l1, l2, hpos, hst, ⟨idx, hcf⟩, hall⟩
  · rw [List.sublist_nil.1 hcs, List.sublist_nil.1 g1]; exact le_add_of_nonneg_right (by positivity)
  · obtain ⟨sol, idx', hc⟩ := hall cs hcs
    have hopt := options_none (n := N) (stale := stale) hk (resolve_plain (Or.inr hp) hull nev ev) pv
    have hwf : ((p.cfg hull stale pv N).input nev ev).Wf := ⟨l1, by show 0 < nev.length; omega⟩
    have hv := hr nev ev
    rw [hopt] at hv
    have hmix : ∀ k < ((p.cfg hull stale pv N).input nev ev).n, 0 < ((p.cfg hull stale pv N).input nev ev).ne k ∧
        0 < ((p.cfg hull stale pv N).input nev ev).ev k := fun k hk => by
      have := hpos k hk
      exact ⟨Int.natCast_pos.2 this.1, Int.natCast_pos.2 this.2⟩
    have hc' : CutBins (splitData sc so recs).clean cs ((p.cfg hull stale pv N).input nev ev).n sol
      ((p.cfg hull stale pv N).input nev ev).ne ((p.cfg hull stale pv N).input nev ev).ev idx' := hc
    have ht : TrendHolds ((p.cfg hull stale pv N).input nev ev).n sol
        (eventRate ((p.cfg hull stale pv N).input nev ev).ne ((p.cfg hull stale pv N).input nev ev).ev) (plainTrend p.trend) := by
      rcases hp.trend with ht | ht
      · rw [ht]; exact hc'.ascending (hm ht)
      · rw [ht]; exact hc'.descending (hm' ht)
    have key := C18_monotone_cp (hv := hv) hwf
      ⟨by rcases hp.trend with ht | ht <;> rw [ht] <;> simp [plainTrend], hp.minBins, by simp [hp.minBinSize], by simp [hp.maxBinSize], hp.minEvent, hp.maxEvent,
        hp.minNonevent, hp.maxNonevent, rfl, by simp [hg]⟩
      hmix (by simp [SolverCfg.input, Params.cfg, hp.maxPvalue]) (by simp [SolverCfg.input, Params.cfg, hp.minRateDiff, XQ.value]) p.divergence rfl
      (by rw [← hst.symm.trans hs]; rfl) sol hc'.binning (by rw [hc'.num]; push_cast; exact hmax) ht
    rw [hc'.divergence] at key
    rw [hc'.num] at key
    push_cast at key
    refine le_trans key (le_of_eq ?_)
    congr 1
    exact hcf.divergence _

/-- C103, `solver="cp"`: the same up to 10⁻⁶ per bin of the compared table. -/
theorem C103_monotone_cp (p : Params) (hull : List ℚ → Option ℚ) (stale : Bool) (pv : ℕ → ℕ → ℕ → ℕ → ℝ) (sc : SpecialCodes α)
    (so : SplitOpts α) (prebin : List (Rec α) → List α) (solver : Solver) (recs : List (Rec α)) (f : Fitted α) (reg : ℤ)
    (hw : WholeWeights recs) (hsort : ∀ l, (prebin l).Pairwise (· ≤ ·)) (hd : p.divergence = .iv ∨ p.divergence = .js) (hg : p.gamma = .num 0)
    (hp : OnlyTrend p) (hr : RespectsCP (p.cfg hull stale pv recs.length) reg solver)
    (h : fitParams p sc so prebin solver recs = .ok f) (hs : f.status = "OPTIMAL") :
    ∃ ps : List α, f.splits.Sublist ps ∧ ps.Sublist (prebin (splitData sc so recs).clean) ∧
      (CutsMixed (splitData sc so recs).clean (prebin (splitData sc so recs).clean) → ps = prebin (splitData sc so recs).clean) ∧
      ∀ cs : List α, cs.Sublist ps → (p.trend = .ascending → CutsAscending (splitData sc so recs).clean cs) →
        (p.trend = .descending → CutsDescending (splitData sc so recs).clean cs) → AtMost p.maxBins (cs.length + 1) →
        cutDivergence p.divergence.fn (splitData sc so recs).clean cs ≤ cutDivergence p.divergence.fn (splitData sc so recs).clean f.splits + ((cs.length : ℝ) + 1) / 1000000 :=
  cut_monotone_cp_of_size p hull stale pv sc so prebin solver recs f reg hw hsort hd hg hp hr h hs

/-- The rows of the binning table of a fit. -/
def Fitted.rows (f : Fitted α) : List Row := List.zipWith Row.mk f.nonevent f.event

theorem divSum_zipWith {D : ℝ → ℝ → ℝ} {te tne : ℝ} (a b : List ℕ) (hl : a.length = b.length) :
    divSum D te tne (List.zipWith Row.mk a b) = ∑ k ∈ range a.length,
      if 0 < b.getD k 0 ∧ 0 < a.getD k 0 then D (((b.getD k 0 : ℕ) : ℝ) / te) (((a.getD k 0 : ℕ) : ℝ) / tne) else 0 := by
  induction a generalizing b with
  | nil => simp [divSum]
  | cons x a ih =>
    cases b with
    | nil => simp at hl
    | cons y b =>
      have := ih b (by simpa using hl)
      unfold divSum at this ⊢
      rw [List.length_cons, sum_range_succ', List.zipWith_cons_cons, List.map_cons, List.sum_cons, this, add_comm]
      simp [Spec.Row.mixed]

theorem zip_sums (a b : List ℕ) (hl : a.length = b.length) :
    nonevents (List.zipWith Row.mk a b) = a.sum ∧ events (List.zipWith Row.mk a b) = b.sum := by
  induction a generalizing b with
  | nil => cases b with
    | nil => simp [nonevents, events, union]
    | cons y b => simp at hl
  | cons x a ih =>
    cases b with
    | nil => simp at hl
    | cons y b =>
      have := ih b (by simpa using hl)
      simp only [nonevents, events, union] at this ⊢
      rw [List.zipWith_cons_cons, List.map_cons, List.map_cons, List.sum_cons, List.sum_cons, List.sum_cons, List.sum_cons]
      exact ⟨congrArg (x + ·) this.1, congrArg (y + ·) this.2⟩

/-- C103: the divergence maximised is the one shown by the binning table (IV or JS), if no record is special or missing and both
classes occur. -/
theorem C103_reported (p : Params) (hull : List ℚ → Option ℚ) (stale : Bool) (pv : ℕ → ℕ → ℕ → ℕ → ℝ) (sc : SpecialCodes α)
    (prebin : List (Rec α) → List α) (solver : Solver) (recs : List (Rec α)) (f : Fitted α)
    (hsc : ProperCodes sc) (hw : WholeWeights recs) (hsort : ∀ l, (prebin l).Pairwise (· ≤ ·)) (hd : p.divergence = .iv ∨ p.divergence = .js)
    (hr : Respects (p.cfg hull stale pv recs.length) solver) (h : fitParams p sc {} prebin solver recs = .ok f)
    (hclean : ∀ r ∈ recs, r.x ≠ none ∧ r.y ≠ none ∧ ¬ IsSpecialValue sc r.x) (hc1 : 0 < classWeight recs false) (hc2 : 0 < classWeight recs true)
    (sort : List Row → List Row) :
    ∃ b, buildTable sort f.rows = .ok b ∧
      (p.divergence = .iv → b.tIv = cutDivergence p.divergence.fn recs f.splits) ∧
      (p.divergence = .js → b.tJs = cutDivergence p.divergence.fn recs f.splits) := by
  have hk : p.divergence.keepsPure = false := by rcases hd with hd | hd <;> rw [hd] <;> rfl
  have hcl : (splitData sc {} recs).clean = recs := by
    simp only [splitData, fixBounds]
    rw [List.filter_eq_self]
    intro r hr
    obtain ⟨h1, h2, h3⟩ := hclean r hr
    have h4 := (contains_codes_iff sc r.x).not.2 h3
    have h1' : r.x.isNone = false := by cases hx : r.x <;> simp_all
    have h2' : r.y.isNone = false := by cases hx : r.y <;> simp_all
    simp only [Rec.isMissing, Rec.isSpecial, h1', h2']
    simpa using h4
  have hsp : (splitData sc {} recs).special = [] := by
    rw [List.eq_nil_iff_forall_not_mem]
    intro r hr
    have := (C01_groups sc recs r).2.1.1 hr
    exact (hclean r this.1).2.2 this.2
  have hms : (splitData sc {} recs).missing = [] := by
    rw [List.eq_nil_iff_forall_not_mem]
    intro r hr
    obtain ⟨h1, h2⟩ := (C01_groups sc recs r).2.2.1 hr
    rcases h2 with h2 | h2
    · exact (hclean r h1).1 h2
    · exact (hclean r h1).2.1 h2
  have hfit := fitParams_fit h
  have hkn : KnownTargets recs := fun r hr => (hclean r hr).2.1
  obtain ⟨tn, te⟩ := C02_totals hsc hkn hw hr hsort hfit
  obtain ⟨ps, g1, -, -, g3, g4⟩ := fit_cuts hw (fun nev ev hn => hr.last nev ev hn) hsort hk hfit
  rw [hcl] at g3 g4
  obtain ⟨st', hf⟩ := fitNumerical_from hfit
  obtain ⟨-, hcol⟩ := fitFrom_column rfl (fun nev ev hn => hr.last nev ev hn) (fun r hr => ((C01_groups sc recs r).1.1 hr).2.1)
    (fun r hr => hw r ((C01_groups sc recs r).1.1 hr).1) (hsort _) hf
  have hspl : f.splits.Pairwise (· ≤ ·) := by
    obtain ⟨h1, -⟩ := fitFrom_column rfl (fun nev ev hn => hr.last nev ev hn) (fun r hr => ((C01_groups sc recs r).1.1 hr).2.1)
      (fun r hr => hw r ((C01_groups sc recs r).1.1 hr).1) (hsort _) hf
    exact (hsort _).sublist h1
  rw [hsp, hms, hcl] at hcol
  obtain ⟨reg0, e0, l0, r0⟩ := hcol false
  obtain ⟨reg1, e1, l1, r1⟩ := hcol true
  simp only [Bool.false_eq_true, if_false, if_true] at e0 e1
  have hreg : ∀ event k, ((recs.filter fun r => r.isEvent == event && digitize false f.splits r.x == k).map Rec.w).sum = cutWeight recs f.splits event k := by
    intro event k
    classical
    unfold cutWeight weight
    congr 2
    refine List.filter_congr fun r hr => ?_
    have h2 := isEvent_beq r (hclean r hr).2.1 event
    rw [Bool.eq_iff_iff]
    simp only [Bool.and_eq_true, h2, beq_iff_eq, decide_eq_true_eq]
    refine and_congr Iff.rfl ?_
    cases hxv : r.x with
    | none => exact absurd hxv (hclean r hr).1
    | some v => rw [inInterval_iff hspl]; simp
  simp only [hreg] at r0 r1
  -- every interval holds both classes
  have hpos : ∀ k < f.splits.length + 1, 0 < reg0.getD k 0 ∧ 0 < reg1.getD k 0 := by
    intro k hk
    have key : 0 < cutWeight recs f.splits false k ∧ 0 < cutWeight recs f.splits true k := by
      rcases g4 with rfl | ⟨nev, ev, m1, m2, hp, -, ⟨idx, hcf⟩, -⟩
      · have hnil := List.sublist_nil.1 g1
        rw [hnil] at hk ⊢
        have hk0 : k = 0 := by simpa using hk
        subst hk0
        have hall : ∀ event, cutWeight recs ([] : List α) event 0 = classWeight recs event := by
          intro event
          classical
          unfold cutWeight classWeight
          refine weight_congr fun r hr => ?_
          constructor
          · exact fun h => h.1
          · intro h
            refine ⟨h, ?_⟩
            cases hx : r.x with
            | none => exact absurd hx (hclean r hr).1
            | some v => exact ⟨v, rfl, by simp [InInterval]⟩
        rw [hall, hall]; exact ⟨hc1, hc2⟩
      · obtain ⟨s, e, hb, rfl⟩ := hcf.surj k (by omega)
        rw [← hcf.rowNe s e hb, ← hcf.rowEv s e hb]
        have q0 := total_pos (n := nev.length) (x := fun k => ((nev.getD k 0 : ℕ) : ℤ)) (fun k hk => Int.natCast_pos.2 (hp k hk).1) hb.1 hb.2.1
        have q1 := total_pos (n := nev.length) (x := fun k => ((ev.getD k 0 : ℕ) : ℤ)) (fun k hk => Int.natCast_pos.2 (hp k hk).2) hb.1 hb.2.1
        exact ⟨Int.cast_pos.2 q0, Int.cast_pos.2 q1⟩
    rw [← r0 k, ← r1 k] at key
    exact ⟨by exact_mod_cast key.1, by exact_mod_cast key.2⟩
  have hzero : ∀ event, ∀ x ∈ specialCounts sc ([] : List (Rec α)) event ++ [truncWeight (([] : List (Rec α)).filter fun q => q.isEvent == event)], x = 0 := by
    intro event x hx
    rcases List.mem_append.1 hx with hx | hx
    · unfold specialCounts at hx
      split at hx
      · obtain ⟨g, -, rfl⟩ := List.mem_map.1 hx
        simp [truncWeight]
      · simpa [truncWeight] using hx
    · simpa [truncWeight] using hx
  set z0 := specialCounts sc ([] : List (Rec α)) false ++ [truncWeight (([] : List (Rec α)).filter fun q => q.isEvent == false)] with hz0
  set z1 := specialCounts sc ([] : List (Rec α)) true ++ [truncWeight (([] : List (Rec α)).filter fun q => q.isEvent == true)] with hz1
  have hzl : z0.length = z1.length := by
    rw [hz0, hz1]; simp [specialCounts_length]
  have hlen : f.nonevent.length = f.event.length := by rw [e0, e1]; simp [l0, l1, hzl]
  have hg0 : ∀ k, f.splits.length + 1 ≤ k → f.nonevent.getD k 0 = 0 := by
    intro k hk
    rw [e0, List.getD_append_right _ _ _ _ (by omega)]
    by_cases hlt : k - reg0.length < z0.length
    · have hm : z0.getD (k - reg0.length) 0 ∈ z0 := by
        rw [List.getD_eq_getElem?_getD, List.getElem?_eq_getElem hlt]; exact List.getElem_mem hlt
      exact hzero false _ hm
    · rw [List.getD_eq_default _ _ (by omega)]
  have hdiv : ∀ D : ℝ → ℝ → ℝ, divSum D (events f.rows) (nonevents f.rows) f.rows = cutDivergence D recs f.splits := by
    intro D
    unfold Fitted.rows
    rw [(zip_sums _ _ hlen).1, (zip_sums _ _ hlen).2, divSum_zipWith _ _ hlen]
    unfold cutDivergence
    have hle : f.splits.length + 1 ≤ f.nonevent.length := by rw [e0]; simp [l0]
    rw [← Finset.sum_subset (s₁ := range (f.splits.length + 1)) (fun k hk => by
      have := mem_range.1 hk; exact mem_range.2 (by omega))]
    · refine sum_congr rfl fun k hk => ?_
      have hk' := mem_range.1 hk
      have a0 : f.nonevent.getD k 0 = reg0.getD k 0 := by rw [e0, List.getD_append _ _ _ _ (by omega)]
      have a1 : f.event.getD k 0 = reg1.getD k 0 := by rw [e1, List.getD_append _ _ _ _ (by omega)]
      rw [a0, a1, if_pos ⟨(hpos k hk').2, (hpos k hk').1⟩, ← r0 k, ← r1 k]
      have t0 : (((f.nonevent.sum : ℕ) : ℚ) : ℝ) = ((classWeight recs false : ℚ) : ℝ) := by rw [tn]; rfl
      have t1 : (((f.event.sum : ℕ) : ℚ) : ℝ) = ((classWeight recs true : ℚ) : ℝ) := by rw [te]; rfl
      rw [← t0, ← t1]
      simp only [Rat.cast_natCast]
    · intro k _ hk
      rw [hg0 k (by have := mt mem_range.2 hk; omega), if_neg (fun h => absurd h.2 (lt_irrefl _))]
  have hmixed : f.rows.filter Spec.Row.mixed ≠ [] := by
    intro hnil
    rw [List.filter_eq_nil_iff] at hnil
    have hlen1 : 0 < f.nonevent.length := by rw [e0]; simp [l0]
    have hm : (⟨f.nonevent.getD 0 0, f.event.getD 0 0⟩ : Row) ∈ f.rows := by
      unfold Fitted.rows
      rw [List.mem_iff_getElem]
      refine ⟨0, by simp; omega, ?_⟩
      simp only [List.getElem_zipWith, List.getD_eq_getElem?_getD]
      rw [List.getElem?_eq_getElem hlen1, List.getElem?_eq_getElem (by omega)]
      rfl
    have := hnil _ hm
    have a0 : f.nonevent.getD 0 0 = reg0.getD 0 0 := by rw [e0, List.getD_append _ _ _ _ (by omega)]
    have a1 : f.event.getD 0 0 = reg1.getD 0 0 := by rw [e1, List.getD_append _ _ _ _ (by omega)]
    rw [a0, a1] at this
    have hp := hpos 0 (by omega)
    simp only [Spec.Row.mixed] at this
    exact this (by simp only [Bool.and_eq_true, decide_eq_true_eq]; exact ⟨hp.2, hp.1⟩)
  refine ⟨buildCore sort f.rows, by unfold buildTable; rw [if_neg hmixed], ?_, ?_⟩
  · intro hiv
    rw [build_tIv, hdiv, hiv]; rfl
  · intro hjs
    rw [build_tJs, hdiv, hjs]; rfl

end OptBinning
