import Verif.Lemmas.ModelData
import Verif.Spec.Objective

/-! The refinement between solver models and the specification. -/
namespace OptBinning
open Finset Spec

section generic
variable {R : Type*} [CommRing R] [LinearOrder R] [IsStrictOrderedRing R]

omit [IsStrictOrderedRing R] in
theorem feasibleCore.core {o : Opts} {M : R} {dat : Data R} {a : Assign} (h : feasibleCore o M dat a) :
    Core dat.n a.x := ⟨h.1.1, h.2.1, h.2.2.1⟩

omit [CommRing R] [LinearOrder R] [IsStrictOrderedRing R] in
theorem binTotal_records (dat : Data R) (s e : ℕ) :
    binTotal dat.records s e = binTotal dat.nonevent s e + binTotal dat.event s e := by
  unfold binTotal Data.records
  exact Finset.sum_add_distrib

theorem feasibleCore.admissible {o : Opts} {M : R} {dat : Data R} {a : Assign} (h : feasibleCore o M dat a)
    (hn : 0 < dat.n) :
    Admissible o dat.n (diag a.x) dat.nonevent dat.event (fun s e => dat.D e s) := by
  have hc := h.core
  obtain ⟨⟨-, hy, hd, hu⟩, -, -, hb, hs, hne, hev, hmono, -, hfix⟩ := h
  have hbins := minMaxBins_sound hc hd hb
  have hcnt1 := (minMaxCount_iff hc).1 hne
  have hcnt2 := (minMaxCount_iff hc).1 hev
  refine ⟨hc.isBinning hn, hbins.1, hbins.2, ?_, ?_, ?_, ?_, ?_, ?_, trend_sound hc hy hmono, ?_⟩
  · intro s e hse; rw [← binTotal_records]; exact (minMaxBinSize_sound hc hu hs hse).1
  · intro s e hse; rw [← binTotal_records]; exact (minMaxBinSize_sound hc hu hs hse).2
  · exact fun s e hse => (hcnt1 s e hse).1
  · exact fun s e hse => (hcnt1 s e hse).2
  · exact fun s e hse => (hcnt2 s e hse).1
  · exact fun s e hse => (hcnt2 s e hse).2
  · intro f hf i hi hfi
    exact (diag_eq_true hc (by omega)).2 (hfix f hf i hi hfi)

theorem rowTotal_nonneg_le {n : ℕ} {x : ℕ → ℕ → ℤ} (h : Core n x) {c : ℕ → ℤ} (hc : ∀ k < n, 0 ≤ c k) {i : ℕ}
    (hi : i < n) : 0 ≤ rowTotal c x i ∧ rowTotal c x i ≤ ∑ k ∈ range n, c k := by
  have hnn : 0 ≤ ∑ k ∈ range n, c k := Finset.sum_nonneg fun k hk => hc k (by simpa using hk)
  rcases h.one_or hi with h0 | ⟨_, s, hb⟩
  · rw [h.rowTotal_none c hi h0]; exact ⟨le_rfl, hnn⟩
  · rw [h.rowTotal_bin c hb]
    unfold binTotal
    refine ⟨Finset.sum_nonneg fun k hk => hc k ?_, ?_⟩
    · simp only [mem_Icc] at hk; omega
    · apply Finset.sum_le_sum_of_subset_of_nonneg
      · intro k hk
        simp only [mem_Icc] at hk
        simp only [mem_range]; omega
      · intro k hk _; exact hc k (by simpa using hk)

/-- Completeness: an admissible binning extends to an accepted assignment. -/
theorem feasibleCore.complete {o : Opts} {M : R} (hM : 0 ≤ M) {dat : Data R} {sol : ℕ → Bool}
    (hD : ∀ i < dat.n, ∀ j ≤ i, 0 ≤ dat.D i j ∧ dat.D i j ≤ M)
    (hrec : ∀ k < dat.n, 0 ≤ dat.records k)
    (hcut : ¬ cutsOn o) (hex : ExactTrend o.trend)
    (htc : ∀ tc, o.trend = .peakHeuristic tc ∨ o.trend = .valleyHeuristic tc → tc ≤ dat.n)
    (h : Admissible o dat.n sol dat.nonevent dat.event (fun s e => dat.D e s)) :
    ∃ a : Assign, feasibleCore o M dat a ∧ a.x = encode sol := by
  have hc : Core dat.n (encode sol) := encode_core h.binning
  have hdiag : diag (encode sol) = sol := encode_diag sol
  have hn := h.binning.1
  rw [← hdiag] at h
  obtain ⟨y, t, hy, ht0, htn, hmono⟩ := trend_complete hc hM hD hcut hex htc h.trend
  have hbins := minMaxBins_complete hc h.minBins h.maxBins
  have hsize := minMaxBinSize_complete (o := o) (c := dat.records) hc hn (fun s e hse => by
    rw [binTotal_records]; exact ⟨h.minSize s e hse, h.maxSize s e hse⟩)
  let a : Assign := Assign.mk (encode sol) y t (dWit o dat.n (diag (encode sol))) (uWit o (encode sol) dat.records)
    (∑ k ∈ range dat.n, dat.records k) 0
  refine ⟨a, ?_, rfl⟩
  refine ⟨⟨hc.bool, fun _ => ⟨hy, ht0, htn⟩, hbins.1, hsize.1⟩, hc.uniq, hc.cont, hbins.2, hsize.2, ?_, ?_,
    hmono _ _ _ _, ?_, ?_⟩
  · exact (minMaxCount_iff hc).2 fun s e hse => ⟨h.minNonevent s e hse, h.maxNonevent s e hse⟩
  · exact (minMaxCount_iff hc).2 fun s e hse => ⟨h.minEvent s e hse, h.maxEvent s e hse⟩
  · intro _
    have hnn : 0 ≤ ∑ k ∈ range dat.n, dat.records k :=
      Finset.sum_nonneg fun k hk => hrec k (by simpa using hk)
    refine ⟨⟨hnn, le_rfl, le_rfl, hnn⟩, fun i hi => ?_, hnn⟩
    have hb := rowTotal_nonneg_le hc hrec hi
    refine ⟨?_, hb.2⟩
    change (0 : ℤ) ≤ (∑ k ∈ range dat.n, dat.records k) * (1 - encode sol i i) + rowTotal dat.records (encode sol) i
    rcases hc.bool i hi i le_rfl with h0 | h1
    · rw [h0]; omega
    · rw [h1]; omega
  · intro f hf i hi hfi
    exact (diag_eq_true hc (by omega)).1 (h.fixed f hf i hi hfi)

omit [LinearOrder R] [IsStrictOrderedRing R] in
/-- The objective is the total over the bins of the coefficients. -/
theorem objective_eq {dat : Data R} {x : ℕ → ℕ → ℤ} (h : Core dat.n x) :
    objective dat x = totalOverBins dat.n (diag x) (fun s e => dat.V e s) := by
  classical
  unfold objective totalOverBins binsOf
  have h1 : ∀ i ∈ range dat.n, (dat.V i i * (x i i : R) + ∑ j ∈ range i, (dat.V i j - dat.V i (j + 1)) * (x i j : R))
      = ∑ s ∈ range dat.n, if IsBin dat.n (diag x) s i then dat.V i s else 0 := by
    intro i hi
    simp only [mem_range] at hi
    have e1 : dat.V i i * (x i i : R) + ∑ j ∈ range i, (dat.V i j - dat.V i (j + 1)) * (x i j : R)
        = rowRate dat.V x i := by unfold rowRate rowS; ring
    rw [e1]
    rcases h.one_or hi with h0 | ⟨_, s, hb⟩
    · rw [h.rowRate_none dat.V hi h0, Finset.sum_eq_zero]
      intro s _
      rw [if_neg]
      intro hb
      have := h.end_one hb
      omega
    · rw [h.rowRate_bin dat.V hb, Finset.sum_eq_single s]
      · rw [if_pos hb]
      · intro s' _ hne
        rw [if_neg]
        intro hb'
        exact hne (isBin_start_unique hb' hb)
      · intro hns
        exfalso; apply hns
        simp only [mem_range]
        have := hb.1
        omega
  rw [Finset.sum_congr rfl h1, Finset.sum_filter, Finset.sum_product_right]

end generic

/-! ### the answer of `solve` -/

theorem solOf_map {n : ℕ} (x : ℕ → ℕ → ℤ) {k : ℕ} (hk : k < n) :
    solOf ((List.range n).map fun i => x i i != 0) k = diag x k := by
  unfold solOf diag
  rw [List.getD_eq_getElem?_getD]
  simp [hk]

theorem isBin_congr {n : ℕ} {sol sol' : ℕ → Bool} (h : ∀ k < n, sol k = sol' k) (s e : ℕ) :
    IsBin n sol s e ↔ IsBin n sol' s e := by
  have key : ∀ sol sol' : ℕ → Bool, (∀ k < n, sol k = sol' k) → IsBin n sol s e → IsBin n sol' s e := by
    rintro sol sol' h ⟨h1, h2, h3, h4, h5⟩
    refine ⟨h1, h2, by rw [← h e h2]; exact h3, ?_, fun k hk hk' => by rw [← h k (by omega)]; exact h5 k hk hk'⟩
    rcases h4 with h4 | h4
    · exact Or.inl h4
    · refine Or.inr ?_
      rw [← h (s - 1) (by omega)]; exact h4
  exact ⟨key _ _ h, key _ _ fun k hk => (h k hk).symm⟩

theorem numBins_congr {n : ℕ} {sol sol' : ℕ → Bool} (h : ∀ k < n, sol k = sol' k) : numBins n sol = numBins n sol' := by
  unfold numBins
  congr 1
  apply Finset.filter_congr
  intro k hk
  rw [h k (by simpa using hk)]

theorem binsOf_congr {n : ℕ} {sol sol' : ℕ → Bool} (h : ∀ k < n, sol k = sol' k) : binsOf n sol = binsOf n sol' := by
  classical
  unfold binsOf
  apply Finset.filter_congr
  intro p _
  exact isBin_congr h p.1 p.2

theorem admissible_congr {R : Type*} [CommRing R] [LinearOrder R] {o : Opts} {n : ℕ} {sol sol' : ℕ → Bool}
    {ne ev : ℕ → ℤ} {r : ℕ → ℕ → R} (h : ∀ k < n, sol k = sol' k) (ha : Admissible o n sol ne ev r) :
    Admissible o n sol' ne ev r := by
  have hb := fun s e => isBin_congr h s e
  have hnb := numBins_congr h
  obtain ⟨a1, a2, a3, a4, a5, a6, a7, a8, a9, a10, a11⟩ := ha
  have hn := a1.1
  refine ⟨⟨hn, by rw [← h (n - 1) (by omega)]; exact a1.2⟩, by rw [← hnb]; exact a2, by rw [← hnb]; exact a3,
    fun s e he => a4 s e ((hb s e).2 he), fun s e he => a5 s e ((hb s e).2 he), fun s e he => a6 s e ((hb s e).2 he),
    fun s e he => a7 s e ((hb s e).2 he), fun s e he => a8 s e ((hb s e).2 he), fun s e he => a9 s e ((hb s e).2 he),
    ?_, fun f hf i hi hfi => by rw [← h i (by omega)]; exact a11 f hf i hi hfi⟩
  have hasc : ∀ P, AscendingOn n sol r P → AscendingOn n sol' r P := by
    intro P hP s e s' e' h1 h2; exact hP s e s' e' ((hb s e).2 h1) ((hb s' e').2 h2)
  have hdesc : ∀ P, DescendingOn n sol r P → DescendingOn n sol' r P := by
    intro P hP s e s' e' h1 h2; exact hP s e s' e' ((hb s e).2 h1) ((hb s' e').2 h2)
  cases ht : o.trend <;> rw [ht] at a10
  · trivial
  · exact hasc _ a10
  · exact hdesc _ a10
  · intro s₁ e₁ s₂ e₂ s₃ e₃ h1 h2 h3
    exact a10 s₁ e₁ s₂ e₂ s₃ e₃ ((hb _ _).2 h1) ((hb _ _).2 h2) ((hb _ _).2 h3)
  · intro s₁ e₁ s₂ e₂ s₃ e₃ h1 h2 h3
    exact a10 s₁ e₁ s₂ e₂ s₃ e₃ ((hb _ _).2 h1) ((hb _ _).2 h2) ((hb _ _).2 h3)
  · obtain ⟨c, h1, h2⟩ := a10; exact ⟨c, hasc _ h1, hdesc _ h2⟩
  · obtain ⟨c, h1, h2⟩ := a10; exact ⟨c, hdesc _ h1, hasc _ h2⟩
  · exact ⟨hasc _ a10.1, hdesc _ a10.2⟩
  · exact ⟨hdesc _ a10.1, hasc _ a10.2⟩

theorem separated_congr {pol : Policy} {n : ℕ} {sol sol' : ℕ → Bool} {bad : ℕ → ℕ → ℕ → ℕ → Prop}
    (h : ∀ k < n, sol k = sol' k) (hs : Separated pol n sol bad) : Separated pol n sol' bad :=
  fun s e s' e' h1 h2 => hs s e s' e' ((isBin_congr h s e).2 h1) ((isBin_congr h s' e').2 h2)

/-! ### CP -/

/-- Rates at the precision of the CP solver: `⌊10^6 · rate⌋`. -/
def rate6 (inp : BinaryInput) (s e : ℕ) : ℤ := ⌊eventRate inp.ne inp.ev s e * 1000000⌋

theorem admissible_rate_congr {R : Type*} [CommRing R] [LinearOrder R] {o : Opts} {n : ℕ} {sol : ℕ → Bool}
    {ne ev : ℕ → ℤ} {r r' : ℕ → ℕ → R} (h : ∀ s e, s ≤ e → e < n → r s e = r' s e) (ha : Admissible o n sol ne ev r) :
    Admissible o n sol ne ev r' := by
  refine { ha with trend := ?_ }
  have a10 := ha.trend
  have hr : ∀ s e, IsBin n sol s e → r s e = r' s e := fun s e hb => h s e hb.1 hb.2.1
  have hasc : ∀ P, AscendingOn n sol r P → AscendingOn n sol r' P := by
    intro P hP s e s' e' h1 h2 h3 h4 h5
    rw [← hr _ _ h1, ← hr _ _ h2]; exact hP s e s' e' h1 h2 h3 h4 h5
  have hdesc : ∀ P, DescendingOn n sol r P → DescendingOn n sol r' P := by
    intro P hP s e s' e' h1 h2 h3 h4 h5
    rw [← hr _ _ h1, ← hr _ _ h2]; exact hP s e s' e' h1 h2 h3 h4 h5
  cases ht : o.trend <;> rw [ht] at a10
  · trivial
  · exact hasc _ a10
  · exact hdesc _ a10
  · intro s₁ e₁ s₂ e₂ s₃ e₃ h1 h2 h3 h4 h5
    rw [← hr _ _ h1, ← hr _ _ h2, ← hr _ _ h3]; exact a10 s₁ e₁ s₂ e₂ s₃ e₃ h1 h2 h3 h4 h5
  · intro s₁ e₁ s₂ e₂ s₃ e₃ h1 h2 h3 h4 h5
    rw [← hr _ _ h1, ← hr _ _ h2, ← hr _ _ h3]; exact a10 s₁ e₁ s₂ e₂ s₃ e₃ h1 h2 h3 h4 h5
  · obtain ⟨c, h1, h2⟩ := a10; exact ⟨c, hasc _ h1, hdesc _ h2⟩
  · obtain ⟨c, h1, h2⟩ := a10; exact ⟨c, hdesc _ h1, hasc _ h2⟩
  · exact ⟨hasc _ a10.1, hdesc _ a10.2⟩
  · exact ⟨hdesc _ a10.1, hasc _ a10.2⟩

theorem admissible_opts_congr {R : Type*} [CommRing R] [LinearOrder R] {o : Opts} {n : ℕ} {sol : ℕ → Bool}
    {ne ev : ℕ → ℤ} {r : ℕ → ℕ → R} (b b' : Bool) :
    Admissible { o with minRateDiffZero := b, scenario := b' } n sol ne ev r ↔ Admissible o n sol ne ev r := by
  constructor <;> rintro ⟨a1, a2, a3, a4, a5, a6, a7, a8, a9, a10, a11⟩ <;>
    exact ⟨a1, a2, a3, a4, a5, a6, a7, a8, a9, a10, a11⟩

theorem rateCP_eq_rate6 (inp : BinaryInput) (hw : inp.Wf) {i j : ℕ} (hi : i < inp.n) (hj : j ≤ i) :
    inp.rateCP i j = rate6 inp j i := by
  rw [rateCP_floor, rate_eq inp hw hi hj]; rfl

/-- Pairs of bins whose rates (at precision 1e-6) are closer than `min_event_rate_diff` (at the same precision). -/
def tooClose6 (inp : BinaryInput) (s e s' e' : ℕ) : Prop :=
  0 < inp.minDiff ∧ |rate6 inp s e - rate6 inp s' e'| < ⌊inp.minDiff * 1000000⌋

/-- Pairs of bins whose rates are closer than `min_event_rate_diff`. -/
def tooClose (inp : BinaryInput) (s e s' e' : ℕ) : Prop :=
  0 < inp.minDiff ∧ |eventRate inp.ne inp.ev s e - eventRate inp.ne inp.ev s' e'| < inp.minDiff

theorem enum_minDiffCP (inp : BinaryInput) (hw : inp.Wf) :
    Enumerates .consecutive inp.n inp.dataCP.minDiffViol (tooClose6 inp) := by
  intro i r j k
  unfold BinaryInput.dataCP tooClose6
  simp only
  split_ifs with hpos
  · rw [mem_minDiff]
    have htr : truncRat (inp.minDiff * scale) = ⌊inp.minDiff * 1000000⌋ := by
      unfold truncRat scale
      push_cast
      rw [if_pos (by positivity)]
    rw [htr]
    constructor
    · rintro ⟨h1, h2, h3, h4, h5⟩
      rw [rateCP_eq_rate6 inp hw (by omega) h1, rateCP_eq_rate6 inp hw h4 h3] at h5
      exact ⟨h1, by omega, fun _ => h2, h3, h4, hpos, h5⟩
    · rintro ⟨h1, h2, h2', h3, h4, -, h5⟩
      rw [← rateCP_eq_rate6 inp hw (by omega) h1, ← rateCP_eq_rate6 inp hw h4 h3] at h5
      exact ⟨h1, h2' trivial, h3, h4, h5⟩
  · simp only [List.not_mem_nil, false_iff]
    rintro ⟨-, -, -, -, -, h, -⟩
    exact hpos h

theorem enum_minDiffMIP (inp : BinaryInput) (hw : inp.Wf) :
    Enumerates .consecutive inp.n inp.dataMIP.minDiffViol (tooClose inp) := by
  intro i r j k
  unfold BinaryInput.dataMIP tooClose
  simp only
  split_ifs with hpos
  · rw [mem_minDiff]
    constructor
    · rintro ⟨h1, h2, h3, h4, h5⟩
      rw [rate_eq inp hw (by omega) h1, rate_eq inp hw h4 h3] at h5
      exact ⟨h1, by omega, fun _ => h2, h3, h4, hpos, h5⟩
    · rintro ⟨h1, h2, h2', h3, h4, -, h5⟩
      rw [← rate_eq inp hw (by omega) h1, ← rate_eq inp hw h4 h3] at h5
      exact ⟨h1, h2' trivial, h3, h4, h5⟩
  · simp only [List.not_mem_nil, false_iff]
    rintro ⟨-, -, -, -, -, h, -⟩
    exact hpos h

theorem acceptsCP.core {o : Opts} {inp : BinaryInput} {a : Assign} (h : acceptsCP o inp a) : Core inp.n a.x :=
  h.1.core

theorem acceptsMIP.core {o : Opts} {inp : BinaryInput} {a : Assign} (h : acceptsMIP o inp a) : Core inp.n a.x :=
  h.1.core

theorem acceptsCP.admissible {o : Opts} {inp : BinaryInput} {a : Assign} (hw : inp.Wf) (h : acceptsCP o inp a) :
    Admissible o inp.n (diag a.x) inp.ne inp.ev (rate6 inp) := by
  have h1 := h.1.admissible hw.pos
  rw [admissible_opts_congr] at h1
  exact admissible_rate_congr (fun s e hse he => rateCP_eq_rate6 inp hw he hse) h1

theorem acceptsMIP.admissible {o : Opts} {inp : BinaryInput} {a : Assign} (hw : inp.Wf) (h : acceptsMIP o inp a) :
    Admissible o inp.n (diag a.x) inp.ne inp.ev (fun s e => (eventRate inp.ne inp.ev s e : ℝ)) := by
  have h1 := h.1.admissible hw.pos
  rw [admissible_opts_congr] at h1
  exact admissible_rate_congr (fun s e hse he => by
    change ((inp.rate e s : ℚ) : ℝ) = _
    rw [rate_eq inp hw he hse]) h1

theorem acceptsCP.separated {o : Opts} {inp : BinaryInput} {a : Assign} (hw : inp.Wf) (h : acceptsCP o inp a) :
    Separated inp.policy inp.n (diag a.x) (failsTest inp) ∧
      Separated .consecutive inp.n (diag a.x) (tooClose6 inp) := by
  have e1 := enum_pviol inp hw
  have e2 := enum_minDiffCP inp hw
  exact ⟨(e1.separated _).1 ((violationCP_iff h.core e1.wf).1 h.2.1),
    (e2.separated _).1 ((violationCP_iff h.core e2.wf).1 h.2.2)⟩

theorem acceptsMIP.separated {o : Opts} {inp : BinaryInput} {a : Assign} (hw : inp.Wf) (h : acceptsMIP o inp a) :
    Separated inp.policy inp.n (diag a.x) (failsTest inp) ∧
      Separated .consecutive inp.n (diag a.x) (tooClose inp) := by
  have e1 := enum_pviol inp hw
  have e2 := enum_minDiffMIP inp hw
  exact ⟨(e1.separated _).1 ((violationMIP_iff h.core e1.wf).1 h.2.1),
    (e2.separated _).1 ((violationMIP_iff h.core e2.wf).1 h.2.2)⟩

/-- Conditions under which the constraint formulation loses nothing. -/
structure NoShortcuts (o : Opts) (inp : BinaryInput) : Prop where
  cuts : (o.trend = .unconstrained ∨ o.trend = .peak ∨ o.trend = .valley) ∨ inp.minDiff ≠ 0
  trend : o.trend ≠ .concave ∧ o.trend ≠ .convex
  change : ∀ tc, o.trend = .peakHeuristic tc ∨ o.trend = .valleyHeuristic tc → tc ≤ inp.n

theorem NoShortcuts.exact {o : Opts} {inp : BinaryInput} (h : NoShortcuts o inp) : ExactTrend o.trend := by
  obtain ⟨-, ⟨h1, h2⟩, -⟩ := h
  cases ht : o.trend <;> simp_all [ExactTrend]

/-- `trend_complete` needs no cut hypothesis for trends without cuts. -/
theorem feasibleCore.complete' {R : Type*} [CommRing R] [LinearOrder R] [IsStrictOrderedRing R]
    {o : Opts} {M : R} (hM : 0 ≤ M) {dat : Data R} {sol : ℕ → Bool}
    (hD : ∀ i < dat.n, ∀ j ≤ i, 0 ≤ dat.D i j ∧ dat.D i j ≤ M)
    (hrec : ∀ k < dat.n, 0 ≤ dat.records k)
    (hcut : (o.trend = .unconstrained ∨ o.trend = .peak ∨ o.trend = .valley) ∨ ¬ cutsOn o)
    (hex : ExactTrend o.trend)
    (htc : ∀ tc, o.trend = .peakHeuristic tc ∨ o.trend = .valleyHeuristic tc → tc ≤ dat.n)
    (h : Admissible o dat.n sol dat.nonevent dat.event (fun s e => dat.D e s)) :
    ∃ a : Assign, feasibleCore o M dat a ∧ a.x = encode sol := by
  rcases hcut with ht | hcut
  · -- the value of `minRateDiffZero` is irrelevant: switch it off
    have h' : Admissible { o with minRateDiffZero := false, scenario := false } dat.n sol dat.nonevent dat.event
        (fun s e => dat.D e s) := (admissible_opts_congr false false).2 h
    obtain ⟨a, ha, hx⟩ := feasibleCore.complete (o := { o with minRateDiffZero := false, scenario := false }) hM hD hrec
      (by unfold cutsOn; simp) hex htc h'
    refine ⟨a, ?_, hx⟩
    obtain ⟨b1, b2, b3, b4, b5, b6, b7, b8, b9, b10⟩ := ha
    refine ⟨b1, b2, b3, b4, b5, b6, b7, ?_, b9, b10⟩
    unfold monotonicity at b8 ⊢
    rcases ht with ht | ht | ht <;> simp only [ht] at b8 ⊢ <;> exact b8
  · exact feasibleCore.complete hM hD hrec hcut hex htc h

/-- The encoding of an admissible binning is accepted. -/
theorem acceptsCP.complete_encode {o : Opts} {inp : BinaryInput} {sol : ℕ → Bool} (hw : inp.Wf) (hs : NoShortcuts o inp)
    (h : Admissible o inp.n sol inp.ne inp.ev (rate6 inp))
    (hp : Separated inp.policy inp.n sol (failsTest inp)) (hd : Separated .consecutive inp.n sol (tooClose6 inp)) :
    ∃ a, acceptsCP o inp a ∧ a.x = encode sol := by
  have hadm : Admissible { o with minRateDiffZero := decide (inp.minDiff = 0), scenario := false } inp.dataCP.n sol
      inp.dataCP.nonevent inp.dataCP.event (fun s e => inp.dataCP.D e s) :=
    (admissible_opts_congr _ _).2 (admissible_rate_congr (fun s e hse he => (rateCP_eq_rate6 inp hw he hse).symm) h)
  obtain ⟨a, ha, hx⟩ := feasibleCore.complete' (o := { o with minRateDiffZero := decide (inp.minDiff = 0), scenario := false })
    (dat := inp.dataCP) (M := (1000000 : ℤ)) (by norm_num)
    (fun i _ j _ => rateCP_bounds inp i j)
    (fun k _ => by unfold Data.records BinaryInput.dataCP; positivity)
    (by
      rcases hs.cuts with h1 | h1
      · exact Or.inl h1
      · refine Or.inr ?_
        unfold cutsOn
        simp [h1])
    hs.exact hs.change hadm
  have hcore : Core inp.n a.x := ha.core
  have hdiag : diag a.x = sol := by rw [hx]; exact encode_diag sol
  have e1 := enum_pviol inp hw
  have e2 := enum_minDiffCP inp hw
  refine ⟨a, ⟨ha, ?_, ?_⟩, hx⟩
  · exact (violationCP_iff hcore e1.wf).2 ((e1.separated _).2 (by rw [hdiag]; exact hp))
  · exact (violationCP_iff hcore e2.wf).2 ((e2.separated _).2 (by rw [hdiag]; exact hd))

theorem acceptsCP.complete {o : Opts} {inp : BinaryInput} {sol : ℕ → Bool} (hw : inp.Wf) (hs : NoShortcuts o inp)
    (h : Admissible o inp.n sol inp.ne inp.ev (rate6 inp))
    (hp : Separated inp.policy inp.n sol (failsTest inp)) (hd : Separated .consecutive inp.n sol (tooClose6 inp)) :
    ∃ a, acceptsCP o inp a ∧ diag a.x = sol := by
  obtain ⟨a, ha, hx⟩ := acceptsCP.complete_encode hw hs h hp hd
  exact ⟨a, ha, by rw [hx]; exact encode_diag sol⟩

/-- The encoding of an admissible binning is accepted. -/
theorem acceptsMIP.complete_encode {o : Opts} {inp : BinaryInput} {sol : ℕ → Bool} (hw : inp.Wf) (hs : NoShortcuts o inp)
    (h : Admissible o inp.n sol inp.ne inp.ev (fun s e => (eventRate inp.ne inp.ev s e : ℝ)))
    (hp : Separated inp.policy inp.n sol (failsTest inp)) (hd : Separated .consecutive inp.n sol (tooClose inp)) :
    ∃ a, acceptsMIP o inp a ∧ a.x = encode sol := by
  have hadm : Admissible { o with minRateDiffZero := decide (inp.minDiff = 0), scenario := false } inp.dataMIP.n sol
      inp.dataMIP.nonevent inp.dataMIP.event (fun s e => inp.dataMIP.D e s) :=
    (admissible_opts_congr _ _).2 (admissible_rate_congr (fun s e hse he => by
      change _ = ((inp.rate e s : ℚ) : ℝ)
      rw [rate_eq inp hw he hse]) h)
  obtain ⟨a, ha, hx⟩ := feasibleCore.complete' (o := { o with minRateDiffZero := decide (inp.minDiff = 0), scenario := false })
    (dat := inp.dataMIP) (M := (1 : ℝ)) (by norm_num)
    (fun i _ j _ => by
      have := rate_bounds inp i j
      change 0 ≤ ((inp.rate i j : ℚ) : ℝ) ∧ ((inp.rate i j : ℚ) : ℝ) ≤ 1
      exact ⟨by exact_mod_cast this.1, by exact_mod_cast this.2⟩)
    (fun k _ => by unfold Data.records BinaryInput.dataMIP; positivity)
    (by
      rcases hs.cuts with h1 | h1
      · exact Or.inl h1
      · refine Or.inr ?_
        unfold cutsOn
        simp [h1])
    hs.exact hs.change hadm
  have hcore : Core inp.n a.x := ha.core
  have hdiag : diag a.x = sol := by rw [hx]; exact encode_diag sol
  have e1 := enum_pviol inp hw
  have e2 := enum_minDiffMIP inp hw
  refine ⟨a, ⟨ha, ?_, ?_⟩, hx⟩
  · exact (violationMIP_iff hcore e1.wf).2 ((e1.separated _).2 (by rw [hdiag]; exact hp))
  · exact (violationMIP_iff hcore e2.wf).2 ((e2.separated _).2 (by rw [hdiag]; exact hd))

theorem acceptsMIP.complete {o : Opts} {inp : BinaryInput} {sol : ℕ → Bool} (hw : inp.Wf) (hs : NoShortcuts o inp)
    (h : Admissible o inp.n sol inp.ne inp.ev (fun s e => (eventRate inp.ne inp.ev s e : ℝ)))
    (hp : Separated inp.policy inp.n sol (failsTest inp)) (hd : Separated .consecutive inp.n sol (tooClose inp)) :
    ∃ a, acceptsMIP o inp a ∧ diag a.x = sol := by
  obtain ⟨a, ha, hx⟩ := acceptsMIP.complete_encode hw hs h hp hd
  exact ⟨a, ha, by rw [hx]; exact encode_diag sol⟩

end OptBinning
