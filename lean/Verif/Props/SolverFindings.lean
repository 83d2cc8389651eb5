import Verif.Props.Solver
import Mathlib.Tactic.IntervalCases

/-!
# Where the full statements of C12, C13, C18 fail for the unchanged code

Each theorem exhibits concrete pre-bin counts.
-/
namespace OptBinning
open Finset Spec

/-- Rates of an input as concrete rational numbers: helper for the witnesses. -/
theorem rateCP_val {inp : BinaryInput} {i j : ℕ} {q : ℚ} {z : ℤ} (h : inp.rate i j = q)
    (h1 : (z : ℚ) ≤ q * 1000000) (h2 : q * 1000000 < z + 1) : inp.rateCP i j = z := by
  rw [rateCP_floor, h]
  exact Int.floor_eq_iff.2 ⟨h1, h2⟩

/-! ## C12: the CP solver only sees six digits -/

/-- Two pre-bins with event rates 1/2000000 and 1/4000000. -/
noncomputable def tinyInp : BinaryInput where
  nonevent := [1999999, 3999999]
  event := [1, 1]
  div := fun p q => (p - q) * Real.log (p / q)

theorem tiny_rates : tinyInp.rateCP 0 0 = 0 ∧ tinyInp.rateCP 1 1 = 0 ∧ tinyInp.rateCP 1 0 = 0 := by
  have a1 : cumAt tinyInp.event 0 0 = 1 := rfl
  have a2 : cumAt tinyInp.nonevent 0 0 = 1999999 := rfl
  have a3 : cumAt tinyInp.event 1 1 = 1 := rfl
  have a4 : cumAt tinyInp.nonevent 1 1 = 3999999 := rfl
  have a5 : cumAt tinyInp.event 1 0 = 2 := rfl
  have a6 : cumAt tinyInp.nonevent 1 0 = 5999998 := rfl
  refine ⟨rateCP_val (q := 1 / 2000000) ?_ ?_ ?_, rateCP_val (q := 1 / 4000000) ?_ ?_ ?_,
    rateCP_val (q := 2 / 6000000) ?_ ?_ ?_⟩ <;> first | (norm_num; done) | skip
  · unfold BinaryInput.rate; rw [a1, a2]; norm_num
  · unfold BinaryInput.rate; rw [a3, a4]; norm_num
  · unfold BinaryInput.rate; rw [a5, a6]; norm_num

/-- C12 is false for `solver="cp"` if read exactly: an ascending binning returned by the CP solver can have strictly
decreasing event rates (they agree in the first six digits). -/
theorem C12_cp_not_exact : ∃ a, acceptsCP { trend := .ascending } tinyInp a ∧
    IsBin 2 (fun k => a.x k k != 0) 0 0 ∧ IsBin 2 (fun k => a.x k k != 0) 1 1 ∧
    eventRate tinyInp.ne tinyInp.ev 1 1 < eventRate tinyInp.ne tinyInp.ev 0 0 := by
  obtain ⟨r0, r1, r10⟩ := tiny_rates
  refine ⟨{ x := fun i j => if i = j then 1 else 0 }, ?_, ?_, ?_, ?_⟩
  · refine ⟨⟨⟨?_, by simp, by simp, by simp⟩, ?_, ?_, trivial, trivial, ?_, ?_, ?_, by simp [dominating], ?_⟩, ?_, ?_⟩
    · intro i _ j _; by_cases h : i = j <;> simp [h]
    · intro j hj
      change j < 2 at hj
      interval_cases j <;> decide
    · intro i hi j hj
      change i < 2 at hi
      have : i = 1 ∧ j = 0 := by omega
      rw [this.1, this.2]; simp
    · intro i _; simp
    · intro i _; simp
    · refine ⟨?_, fun _ => ?_⟩
      · intro i h1 h2 z hz
        change i < 2 at h2
        have hi : i = 1 := by omega
        have hz0 : z = 0 := by omega
        subst hi; subst hz0
        change ascIneq (1000000 : ℤ) tinyInp.rateCP _ 0 1
        simp [ascIneq, rowS, r0, r1]
      · intro i _ h2 h3
        change i + 1 < 2 at h2
        have hi : i = 0 := by omega
        subst hi
        change tinyInp.rateCP 1 0 - tinyInp.rateCP 1 1 > 0 at h3
        rw [r1, r10] at h3; omega
    · intro f hf; simp at hf
    · intro v hv
      change v ∈ tinyInp.pviol at hv
      simp [BinaryInput.pviol, tinyInp] at hv
    · intro v hv
      have : tinyInp.dataCP.minDiffViol = [] := by simp [BinaryInput.dataCP, tinyInp]
      rw [this] at hv; simp at hv
  · exact ⟨le_rfl, by norm_num, by simp, Or.inl rfl, fun k h1 h2 => by omega⟩
  · exact ⟨le_rfl, by norm_num, by simp, Or.inr (by simp), fun k h1 h2 => by omega⟩
  · have b1 : binTotal tinyInp.ev 1 1 = 1 := rfl
    have b2 : binTotal tinyInp.ne 1 1 = 3999999 := rfl
    have b3 : binTotal tinyInp.ev 0 0 = 1 := rfl
    have b4 : binTotal tinyInp.ne 0 0 = 1999999 := rfl
    unfold eventRate
    rw [b1, b2, b3, b4]; norm_num

/-! ## C18: preprocessing cuts exclude admissible binnings -/

theorem ex_cut : exInp.rateCP 2 1 = 450000 ∧ exInp.rateCP 2 2 = 400000 := by
  have a1 : cumAt exInp.event 2 1 = 45 := rfl
  have a2 : cumAt exInp.nonevent 2 1 = 55 := rfl
  have a3 : cumAt exInp.event 2 2 = 20 := rfl
  have a4 : cumAt exInp.nonevent 2 2 = 30 := rfl
  refine ⟨rateCP_val (q := 45 / 100) ?_ ?_ ?_, rateCP_val (q := 20 / 50) ?_ ?_ ?_⟩ <;>
    first | (norm_num; done) | skip
  · unfold BinaryInput.rate; rw [a1, a2]; norm_num
  · unfold BinaryInput.rate; rw [a3, a4]; norm_num

/-- The binning {0,1}, {2,3}. -/
def twoSol : ℕ → Bool := fun k => k == 1 || k == 3

/-- C18 is false with preprocessing cuts: for ascending trend, `min_bin_size=100`, `min_n_bins=2` the binning {0,1},{2,3}
is admissible, but the CP model accepts no assignment at all, so the solver reports INFEASIBLE. -/
theorem C18_cuts_exclude_admissible :
    Admissible { trend := .ascending, minBins := some 2, minSize := some 100 } exInp.n twoSol exInp.ne exInp.ev
        (eventRate exInp.ne exInp.ev) ∧
      ¬ ∃ a, acceptsCP { trend := .ascending, minBins := some 2, minSize := some 100 } exInp a := by
  have hn : exInp.n = 4 := rfl
  constructor
  · have hbins : ∀ s e, IsBin 4 twoSol s e → (s = 0 ∧ e = 1) ∨ (s = 2 ∧ e = 3) := by
      rintro s e ⟨h1, h2, h3, h4, h5⟩
      have c1 : e = 1 ∨ e = 3 := by simpa [twoSol] using h3
      rcases c1 with rfl | rfl
      · rcases h4 with h4 | h4
        · omega
        · simp [twoSol] at h4; omega
      · rcases h4 with h4 | h4
        · have := h5 1 (by omega) (by omega); simp [twoSol] at this
        · simp [twoSol] at h4; omega
    have t1 : binTotal exInp.ev 0 1 = 26 := rfl
    have t2 : binTotal exInp.ne 0 1 = 74 := rfl
    have t3 : binTotal exInp.ev 2 3 = 65 := rfl
    have t4 : binTotal exInp.ne 2 3 = 35 := rfl
    refine ⟨⟨by decide, rfl⟩, ?_, by simp [AtMost], ?_, by simp [AtMost], by simp [AtLeast], by simp [AtMost],
      by simp [AtLeast], by simp [AtMost], ?_, by simp⟩
    · intro b hb; cases hb
      have : numBins exInp.n twoSol = 2 := by rw [hn]; decide
      rw [this]; norm_num
    · intro s e hb b hbb
      cases hbb
      rcases hbins s e hb with ⟨rfl, rfl⟩ | ⟨rfl, rfl⟩
      · rw [t1, t2]; norm_num
      · rw [t3, t4]; norm_num
    · intro s e s' e' hb hb' hlt _ _
      rcases hbins s e hb with ⟨rfl, rfl⟩ | ⟨rfl, rfl⟩ <;> rcases hbins s' e' hb' with ⟨rfl, rfl⟩ | ⟨rfl, rfl⟩
      · omega
      · unfold eventRate; rw [t1, t2, t3, t4]; norm_num
      · omega
      · omega
  · rintro ⟨a, ha⟩
    have hadm := ha.admissible exInp_wf
    have hc : Core 4 a.x := ha.core
    have hcut : a.x 1 1 = 0 := by
      have hm : monoAscending _ (1000000 : ℤ) exInp.n exInp.rateCP a.x := ha.1.2.2.2.2.2.2.2.1
      have h2 := hm.2 ⟨by simp [exInp], rfl⟩ 1 (by omega) (by rw [hn]; omega)
        (by rw [ex_cut.1, ex_cut.2]; norm_num)
      exact h2.1
    -- the first bin must be everything
    obtain ⟨s, e, hb, hs0, he0⟩ := isBin_cover hadm.binning (show 0 < exInp.n by rw [hn]; omega)
    have hs : s = 0 := by omega
    subst hs
    have he4 : e < 4 := hb.2.1
    have hsz := hadm.minSize 0 e hb 100 rfl
    have he : e = 3 := by
      have hne1 : e ≠ 1 := by
        rintro rfl
        have := hc.end_one hb; omega
      have hne0 : e ≠ 0 := by
        rintro rfl
        have t1 : binTotal exInp.ev 0 0 = 1 := rfl
        have t2 : binTotal exInp.ne 0 0 = 49 := rfl
        rw [t1, t2] at hsz; omega
      by_contra hne
      have he2 : e = 2 := by omega
      subst he2
      obtain ⟨s', e', hb', hs', he'⟩ := isBin_cover hadm.binning (show 3 < exInp.n by rw [hn]; omega)
      have h3 : 2 < s' := isBin_ordered hb hb' (by omega)
      have h4 : e' < 4 := hb'.2.1
      have e1 : s' = 3 := by omega
      have e2 : e' = 3 := by omega
      subst e1; subst e2
      have hsz' := hadm.minSize 3 3 hb' 100 rfl
      have t1 : binTotal exInp.ev 3 3 = 45 := rfl
      have t2 : binTotal exInp.ne 3 3 = 5 := rfl
      rw [t1, t2] at hsz'; omega
    subst he
    have hnb : numBins exInp.n (diag a.x) = 1 := by
      unfold numBins
      rw [Finset.card_eq_one]
      refine ⟨3, ?_⟩
      ext k
      simp only [mem_filter, mem_range, mem_singleton]
      constructor
      · rintro ⟨hk, hsk⟩
        by_contra hne
        have := hb.2.2.2.2 k (by omega) (by rw [hn] at hk; omega)
        rw [hsk] at this; simp at this
      · rintro rfl; exact ⟨by rw [hn]; omega, hb.2.2.1⟩
    have := hadm.minBins 2 rfl
    rw [hnb] at this
    norm_num at this

/-! ## C18: the concave formulation -/

/-- Four pre-bins of 10 records with event rates 0.8, 0.9, 0.9, 0.8. -/
noncomputable def concInp : BinaryInput where
  nonevent := [2, 1, 1, 2]
  event := [8, 9, 9, 8]
  div := fun p q => (p - q) * Real.log (p / q)

/-- C18 is false for the concave trend: the big-M constant only relaxes a triple by `M` per missing bin, so a bin end
that is *not* selected between two selected ends with rates adding up to more than 1 makes the assignment infeasible.  The
two-bin binning {0,1},{2,3} (no triple of bins at all, so trivially concave) is rejected. -/
theorem C18_concave_excludes_admissible :
    TrendHolds concInp.n twoSol (eventRate concInp.ne concInp.ev) .concave ∧
      ¬ ∃ a, acceptsCP { trend := .concave } concInp a ∧ ∀ k < concInp.n, (a.x k k != 0) = twoSol k := by
  have hn : concInp.n = 4 := rfl
  constructor
  · intro s₁ e₁ s₂ e₂ s₃ e₃ h1 h2 h3 h12 h23
    have c1 : e₁ = 1 ∨ e₁ = 3 := by simpa [twoSol] using h1.2.2.1
    have c2 : e₂ = 1 ∨ e₂ = 3 := by simpa [twoSol] using h2.2.2.1
    have c3 : e₃ = 1 ∨ e₃ = 3 := by simpa [twoSol] using h3.2.2.1
    omega
  · rintro ⟨a, ha, hd⟩
    have hc : Core 4 a.x := ha.core
    have hd' : ∀ k < 4, diag a.x k = twoSol k := hd
    have b1 : IsBin 4 (diag a.x) 0 1 := by
      refine ⟨by omega, by omega, by rw [hd' 1 (by omega)]; rfl, Or.inl rfl, fun k _ h2 => ?_⟩
      have : k = 0 := by omega
      subst this; rw [hd' 0 (by omega)]; rfl
    have b2 : IsBin 4 (diag a.x) 2 3 := by
      refine ⟨by omega, by omega, by rw [hd' 3 (by omega)]; rfl, Or.inr (by rw [hd' 1 (by omega)]; rfl),
        fun k _ h2 => ?_⟩
      have : k = 2 := by omega
      subst this; rw [hd' 2 (by omega)]; rfl
    have x2 : a.x 2 2 = 0 := by
      rw [← diag_eq_false hc (by omega), hd' 2 (by omega)]; rfl
    have hm : monoConcave (1000000 : ℤ) concInp.n concInp.rateCP a.x := ha.1.2.2.2.2.2.2.2.1
    have h := hm 3 (by omega) (by rw [hn]; omega) 2 (by omega) (by omega) 1 (by omega)
    rw [hc.rowRate_bin concInp.rateCP b1, hc.rowRate_bin concInp.rateCP b2, hc.rowRate_none concInp.rateCP (by omega) x2,
      hc.end_one b1, hc.end_one b2, x2] at h
    have a1 : cumAt concInp.event 3 2 = 17 := rfl
    have a2 : cumAt concInp.nonevent 3 2 = 3 := rfl
    have a3 : cumAt concInp.event 1 0 = 17 := rfl
    have a4 : cumAt concInp.nonevent 1 0 = 3 := rfl
    have r1 : concInp.rateCP 3 2 = 850000 := by
      refine rateCP_val (q := 17 / 20) ?_ (by norm_num) (by norm_num)
      unfold BinaryInput.rate; rw [a1, a2]; norm_num
    have r2 : concInp.rateCP 1 0 = 850000 := by
      refine rateCP_val (q := 17 / 20) ?_ (by norm_num) (by norm_num)
      unfold BinaryInput.rate; rw [a3, a4]; norm_num
    rw [r1, r2] at h
    norm_num at h

/-! ## C18: the convex formulation -/

/-- Three pre-bins of 10 records with event rates 0.9, 0.9, 0.5. -/
noncomputable def convInp : BinaryInput where
  nonevent := [1, 1, 5]
  event := [9, 9, 5]
  div := fun p q => (p - q) * Real.log (p / q)

/-- The binning {0,1}, {2}. -/
def convSol : ℕ → Bool := fun k => k == 1 || k == 2

/-- C18 is false for the convex trend: an unselected end `k` before two selected ends `j < i` only relaxes the triple by
`M`, so `2·r_j - r_i > 1` makes the assignment infeasible.  The two-bin binning {0,1},{2} (trivially convex) is rejected. -/
theorem C18_convex_excludes_admissible :
    TrendHolds convInp.n convSol (eventRate convInp.ne convInp.ev) .convex ∧
      ¬ ∃ a, acceptsCP { trend := .convex } convInp a ∧ ∀ k < convInp.n, (a.x k k != 0) = convSol k := by
  have hn : convInp.n = 3 := rfl
  constructor
  · intro s₁ e₁ s₂ e₂ s₃ e₃ h1 h2 h3 h12 h23
    have c1 : e₁ = 1 ∨ e₁ = 2 := by simpa [convSol] using h1.2.2.1
    have c2 : e₂ = 1 ∨ e₂ = 2 := by simpa [convSol] using h2.2.2.1
    have c3 : e₃ = 1 ∨ e₃ = 2 := by simpa [convSol] using h3.2.2.1
    omega
  · rintro ⟨a, ha, hd⟩
    have hc : Core 3 a.x := ha.core
    have hd' : ∀ k < 3, diag a.x k = convSol k := hd
    have b1 : IsBin 3 (diag a.x) 0 1 := by
      refine ⟨by omega, by omega, by rw [hd' 1 (by omega)]; rfl, Or.inl rfl, fun k _ h2 => ?_⟩
      have : k = 0 := by omega
      subst this; rw [hd' 0 (by omega)]; rfl
    have b2 : IsBin 3 (diag a.x) 2 2 := by
      refine ⟨by omega, by omega, by rw [hd' 2 (by omega)]; rfl, Or.inr (by rw [hd' 1 (by omega)]; rfl),
        fun k _ h2 => by omega⟩
    have x0 : a.x 0 0 = 0 := by
      rw [← diag_eq_false hc (by omega), hd' 0 (by omega)]; rfl
    have hm : monoConvex (1000000 : ℤ) convInp.n convInp.rateCP a.x := ha.1.2.2.2.2.2.2.2.1
    have h := hm 2 (by omega) (by rw [hn]; omega) 1 (by omega) (by omega) 0 (by omega)
    rw [hc.rowRate_bin convInp.rateCP b1, hc.rowRate_bin convInp.rateCP b2,
      hc.rowRate_none convInp.rateCP (by omega) x0, hc.end_one b1, hc.end_one b2, x0] at h
    have a1 : cumAt convInp.event 2 2 = 5 := rfl
    have a2 : cumAt convInp.nonevent 2 2 = 5 := rfl
    have a3 : cumAt convInp.event 1 0 = 18 := rfl
    have a4 : cumAt convInp.nonevent 1 0 = 2 := rfl
    have r1 : convInp.rateCP 2 2 = 500000 := by
      refine rateCP_val (q := 5 / 10) ?_ (by norm_num) (by norm_num)
      unfold BinaryInput.rate; rw [a1, a2]; norm_num
    have r2 : convInp.rateCP 1 0 = 900000 := by
      refine rateCP_val (q := 18 / 20) ?_ (by norm_num) (by norm_num)
      unfold BinaryInput.rate; rw [a3, a4]; norm_num
    rw [r1, r2] at h
    norm_num at h

end OptBinning
