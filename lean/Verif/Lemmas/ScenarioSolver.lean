import Verif.Model.Scenarios
import Verif.Lemmas.MulticlassSolver

/-! # The scenario formulation, scenario by scenario -/
namespace OptBinning
open Finset Spec

/-- The arrays are rectangular: `n ≥ 1` rows and one column per scenario. -/
structure MultiInput.Rect (inp : MultiInput) : Prop where
  pos : 0 < inp.n
  some_class : 0 < inp.classes
  nclasses : inp.nonevent.length = inp.event.length
  ev : ∀ l ∈ inp.event, l.length = inp.n
  ne : ∀ l ∈ inp.nonevent, l.length = inp.n

theorem MultiInput.Rect.wf {inp : MultiInput} (h : inp.Rect) :
    inp.Wf { trends := List.replicate inp.classes .unconstrained } :=
  ⟨h.pos, by simp, h.some_class, h.nclasses, h.ev, h.ne⟩

theorem MultiInput.Rect.column {inp : MultiInput} (h : inp.Rect) {c : ℕ} (hc : c < inp.classes) :
    (inp.cls c).Wf ∧ (inp.cls c).n = inp.n := h.wf.column hc

section
variable {R : Type*} [CommRing R] [LinearOrder R] [IsStrictOrderedRing R]

theorem monoPeak_sound {n c : ℕ} {x : ℕ → ℕ → ℤ} (h : Core n x) {M : R} {D : ℕ → ℕ → R} {y : ℕ → ℤ}
    (hcp : ∀ i < n, (i < c → y i = 1) ∧ (c ≤ i → y i = 0)) (hc : monoPeak M n D x y) :
    AscendingOn n (diag x) (fun s e => D e s) (fun e => e < c) ∧ DescendingOn n (diag x) (fun s e => D e s) (fun e => c ≤ e) := by
  constructor
  · intro s e s' e' hb hb' hlt h1 h2
    have := (hc e' (by omega) hb'.2.1 e hlt).2
    rw [(hcp e hb.2.1).1 h1, (hcp e' hb'.2.1).1 h2, peak_first_eq, h.rowRate_bin D hb, h.rowRate_bin D hb',
      h.end_one hb'] at this
    push_cast at this
    linarith
  · intro s e s' e' hb hb' hlt h1 h2
    have := (hc e' (by omega) hb'.2.1 e hlt).1
    rw [(hcp e hb.2.1).2 h1, (hcp e' hb'.2.1).2 h2, peak_first_eq, h.rowRate_bin D hb, h.rowRate_bin D hb',
      h.end_one hb] at this
    push_cast at this
    linarith

theorem monoValley_sound {n c : ℕ} {x : ℕ → ℕ → ℤ} (h : Core n x) {M : R} {D : ℕ → ℕ → R} {y : ℕ → ℤ}
    (hcp : ∀ i < n, (i < c → y i = 1) ∧ (c ≤ i → y i = 0)) (hc : monoValley M n D x y) :
    DescendingOn n (diag x) (fun s e => D e s) (fun e => e < c) ∧ AscendingOn n (diag x) (fun s e => D e s) (fun e => c ≤ e) := by
  constructor
  · intro s e s' e' hb hb' hlt h1 h2
    have := (hc e' (by omega) hb'.2.1 e hlt).2
    rw [(hcp e hb.2.1).1 h1, (hcp e' hb'.2.1).1 h2, peak_first_eq, h.rowRate_bin D hb, h.rowRate_bin D hb',
      h.end_one hb] at this
    push_cast at this
    linarith
  · intro s e s' e' hb hb' hlt h1 h2
    have := (hc e' (by omega) hb'.2.1 e hlt).1
    rw [(hcp e hb.2.1).2 h1, (hcp e' hb'.2.1).2 h2, peak_first_eq, h.rowRate_bin D hb, h.rowRate_bin D hb',
      h.end_one hb'] at this
    push_cast at this
    linarith

theorem monoPeak_wit {n c : ℕ} {x : ℕ → ℕ → ℤ} (h : Core n x) {M : R} (hM : 0 ≤ M) {D : ℕ → ℕ → R}
    (hD : ∀ i < n, ∀ j ≤ i, 0 ≤ D i j ∧ D i j ≤ M)
    (ha : AscendingOn n (diag x) (fun s e => D e s) (fun e => e < c))
    (hd : DescendingOn n (diag x) (fun s e => D e s) (fun e => c ≤ e)) : monoPeak M n D x (yWit (min c n)) := by
  intro i hi1 hi2 z hz
  have bz := h.rate_bounds hM hD (show z < n by omega)
  have bi := h.rate_bounds hM hD hi2
  have e1 : yWit (min c n) i = if i < c then 1 else 0 := by unfold yWit; congr 1; simp; omega
  have e2 : yWit (min c n) z = if z < c then 1 else 0 := by unfold yWit; congr 1; simp; omega
  simp only [e1, e2]
  rw [peak_first_eq, peak_first_eq]
  constructor
  · rcases h.one_or (show z < n by omega) with h0 | ⟨hz1, s, hb⟩
    · rw [h0]
      split_ifs <;> push_cast <;> linarith
    · rw [hz1]
      rcases h.one_or hi2 with h0 | ⟨hi1', s', hb'⟩
      · rw [h.rowRate_none D hi2 h0]
        split_ifs <;> push_cast <;> linarith
      · by_cases hzc : z < c
        · simp only [hzc, if_true]
          split_ifs <;> push_cast <;> linarith
        · have := hd s z s' i hb hb' hz (by omega) (by omega)
          rw [h.rowRate_bin D hb, h.rowRate_bin D hb']
          rw [if_neg hzc, if_neg (by omega)]
          push_cast; linarith
  · rcases h.one_or hi2 with h0 | ⟨hi1', s', hb'⟩
    · rw [h0]
      split_ifs <;> push_cast <;> linarith
    · rw [hi1']
      rcases h.one_or (show z < n by omega) with h0 | ⟨hz1, s, hb⟩
      · rw [h.rowRate_none D (by omega) h0]
        split_ifs <;> push_cast <;> linarith
      · by_cases hic : i < c
        · have := ha s z s' i hb hb' hz (by omega) (by omega)
          rw [h.rowRate_bin D hb, h.rowRate_bin D hb']
          rw [if_pos hic, if_pos (by omega)]
          push_cast; linarith
        · simp only [hic, if_false]
          split_ifs <;> push_cast <;> linarith

theorem monoValley_wit {n c : ℕ} {x : ℕ → ℕ → ℤ} (h : Core n x) {M : R} (hM : 0 ≤ M) {D : ℕ → ℕ → R}
    (hD : ∀ i < n, ∀ j ≤ i, 0 ≤ D i j ∧ D i j ≤ M)
    (ha : DescendingOn n (diag x) (fun s e => D e s) (fun e => e < c))
    (hd : AscendingOn n (diag x) (fun s e => D e s) (fun e => c ≤ e)) : monoValley M n D x (yWit (min c n)) := by
  intro i hi1 hi2 z hz
  have bz := h.rate_bounds hM hD (show z < n by omega)
  have bi := h.rate_bounds hM hD hi2
  have e1 : yWit (min c n) i = if i < c then 1 else 0 := by unfold yWit; congr 1; simp; omega
  have e2 : yWit (min c n) z = if z < c then 1 else 0 := by unfold yWit; congr 1; simp; omega
  simp only [e1, e2]
  rw [peak_first_eq, peak_first_eq]
  constructor
  · rcases h.one_or hi2 with h0 | ⟨hi1', s', hb'⟩
    · rw [h0]
      split_ifs <;> push_cast <;> linarith
    · rw [hi1']
      rcases h.one_or (show z < n by omega) with h0 | ⟨hz1, s, hb⟩
      · rw [h.rowRate_none D (by omega) h0]
        split_ifs <;> push_cast <;> linarith
      · by_cases hzc : z < c
        · simp only [hzc, if_true]
          split_ifs <;> push_cast <;> linarith
        · have := hd s z s' i hb hb' hz (by omega) (by omega)
          rw [h.rowRate_bin D hb, h.rowRate_bin D hb']
          rw [if_neg hzc, if_neg (by omega)]
          push_cast; linarith
  · rcases h.one_or (show z < n by omega) with h0 | ⟨hz1, s, hb⟩
    · rw [h0]
      split_ifs <;> push_cast <;> linarith
    · rw [hz1]
      rcases h.one_or hi2 with h0 | ⟨hi1', s', hb'⟩
      · rw [h.rowRate_none D hi2 h0]
        split_ifs <;> push_cast <;> linarith
      · by_cases hic : i < c
        · have := ha s z s' i hb hb' hz (by omega) (by omega)
          rw [h.rowRate_bin D hb, h.rowRate_bin D hb']
          rw [if_pos hic, if_pos (by omega)]
          push_cast; linarith
        · simp only [hic, if_false]
          split_ifs <;> push_cast <;> linarith

end

theorem acceptsScen.core {o : ScenOpts} {inp : MultiInput} {a : Assign} (h : acceptsScen o inp a) : Core inp.n a.x :=
  ⟨h.1.1, h.2.1, h.2.2.1⟩

/-- The limits of scenario `s` without the trend, as options of a binary problem. -/
def ScenOpts.limits (o : ScenOpts) (s : ℕ) : Opts :=
  { minBins := o.minBins, maxBins := o.maxBins, fixed := o.fixed,
    minSize := o.minSize.map fun l => l.getD s 0, maxSize := o.maxSize.map fun l => l.getD s 0 }

theorem trendInAll_congr {R : Type*} [CommRing R] [LinearOrder R] {S n : ℕ} {sol sol' : ℕ → Bool}
    {r r' : ℕ → ℕ → ℕ → R} {t : Trend} (hs : ∀ k < n, sol k = sol' k)
    (hr : ∀ i < S, ∀ s e, s ≤ e → e < n → r i s e = r' i s e) (h : TrendInAll S n sol r t) : TrendInAll S n sol' r' t := by
  have hb : ∀ {s e}, IsBin n sol' s e → IsBin n sol s e := fun h => (isBin_congr hs _ _).2 h
  have asc : ∀ {i} {P : ℕ → Prop}, i < S → AscendingOn n sol (r i) P → AscendingOn n sol' (r' i) P := by
    intro i P hi h s e s' e' h1 h2 h3 h4 h5
    rw [← hr i hi s e h1.1 h1.2.1, ← hr i hi s' e' h2.1 h2.2.1]
    exact h s e s' e' (hb h1) (hb h2) h3 h4 h5
  have desc : ∀ {i} {P : ℕ → Prop}, i < S → DescendingOn n sol (r i) P → DescendingOn n sol' (r' i) P := by
    intro i P hi h s e s' e' h1 h2 h3 h4 h5
    rw [← hr i hi s e h1.1 h1.2.1, ← hr i hi s' e' h2.1 h2.2.1]
    exact h s e s' e' (hb h1) (hb h2) h3 h4 h5
  cases t with
  | unconstrained => intro i hi; trivial
  | ascending => intro i hi; exact asc hi (h i hi)
  | descending => intro i hi; exact desc hi (h i hi)
  | concave =>
    intro i hi s₁ e₁ s₂ e₂ s₃ e₃ h1 h2 h3 h4 h5
    rw [← hr i hi _ _ h1.1 h1.2.1, ← hr i hi _ _ h2.1 h2.2.1, ← hr i hi _ _ h3.1 h3.2.1]
    exact h i hi _ _ _ _ _ _ (hb h1) (hb h2) (hb h3) h4 h5
  | convex =>
    intro i hi s₁ e₁ s₂ e₂ s₃ e₃ h1 h2 h3 h4 h5
    rw [← hr i hi _ _ h1.1 h1.2.1, ← hr i hi _ _ h2.1 h2.2.1, ← hr i hi _ _ h3.1 h3.2.1]
    exact h i hi _ _ _ _ _ _ (hb h1) (hb h2) (hb h3) h4 h5
  | peak => obtain ⟨c, h⟩ := h; exact ⟨c, fun i hi => ⟨asc hi (h i hi).1, desc hi (h i hi).2⟩⟩
  | valley => obtain ⟨c, h⟩ := h; exact ⟨c, fun i hi => ⟨desc hi (h i hi).1, asc hi (h i hi).2⟩⟩
  | peakHeuristic c => intro i hi; exact ⟨asc hi (h i hi).1, desc hi (h i hi).2⟩
  | valleyHeuristic c => intro i hi; exact ⟨desc hi (h i hi).1, asc hi (h i hi).2⟩

/-- The trends of `SBOptimalBinning`. -/
def Trend.scen : Trend → Prop
  | .peakHeuristic _ => False
  | .valleyHeuristic _ => False
  | _ => True

theorem acceptsScen.trend {o : ScenOpts} {inp : MultiInput} {a : Assign} (hw : inp.Rect) (ht : o.trend.scen)
    (h : acceptsScen o inp a) :
    TrendInAll inp.classes inp.n (diag a.x) (fun s => rate6 (inp.cls s)) o.trend := by
  have hc := h.core
  obtain ⟨⟨-, hy, -⟩, -, -, -, -, htr, -⟩ := h
  refine trendInAll_congr (sol := diag a.x) (r := fun s i j => (inp.cls s).rateCP j i) (fun _ _ => rfl) ?_ ?_
  · intro s hs i j hij hj
    obtain ⟨hcw, hcn⟩ := hw.column hs
    exact rateCP_eq_rate6 _ hcw (by rw [hcn]; exact hj) hij
  have one : ∀ (o' : Opts) (s : ℕ), (o'.trend = .peak ∨ o'.trend = .valley → False) →
      monotonicity o' (1000000 : ℤ) inp.n (inp.cls s).rateCP a →
      TrendHolds inp.n (diag a.x) (fun i j => (inp.cls s).rateCP j i) o'.trend :=
    fun o' s hno hm => trend_sound hc (fun hp => (hno hp).elim) hm
  unfold trendScenarios at htr
  cases hto : o.trend with
  | unconstrained => intro s hs; trivial
  | ascending =>
    simp only [hto] at htr
    intro s hs
    have := one (o.base (decide (inp.minDiff = 0))) s (by simp [ScenOpts.base, hto])
      (by simp only [monotonicity, ScenOpts.base, hto]; simpa [ScenOpts.base, hto] using htr s hs)
    simpa only [ScenOpts.base, hto] using this
  | descending =>
    simp only [hto] at htr
    intro s hs
    have := one (o.base (decide (inp.minDiff = 0))) s (by simp [ScenOpts.base, hto])
      (by simp only [monotonicity, ScenOpts.base, hto]; simpa [ScenOpts.base, hto] using htr s hs)
    simpa only [ScenOpts.base, hto] using this
  | concave =>
    simp only [hto] at htr
    intro s hs
    have := one (o.base (decide (inp.minDiff = 0))) s (by simp [ScenOpts.base, hto])
      (by simp only [monotonicity, ScenOpts.base, hto]; exact htr s hs)
    simpa only [ScenOpts.base, hto] using this
  | convex =>
    simp only [hto] at htr
    intro s hs
    have := one (o.base (decide (inp.minDiff = 0))) s (by simp [ScenOpts.base, hto])
      (by simp only [monotonicity, ScenOpts.base, hto]; exact htr s hs)
    simpa only [ScenOpts.base, hto] using this
  | peak =>
    simp only [hto] at htr
    obtain ⟨h1, h2, h3⟩ := hy (Or.inl hto)
    obtain ⟨c, hcp⟩ := change_cases h1 h2 h3 htr.1
    exact ⟨c, fun s hs => monoPeak_sound hc hcp (htr.2 s hs)⟩
  | valley =>
    simp only [hto] at htr
    obtain ⟨h1, h2, h3⟩ := hy (Or.inr hto)
    obtain ⟨c, hcp⟩ := change_cases h1 h2 h3 htr.1
    exact ⟨c, fun s hs => monoValley_sound hc hcp (htr.2 s hs)⟩
  | peakHeuristic c => rw [hto] at ht; exact ht.elim
  | valleyHeuristic c => rw [hto] at ht; exact ht.elim

theorem records_total (inp : BinaryInput) (s e : ℕ) :
    binTotal inp.dataCP.records s e = binTotal inp.ne s e + binTotal inp.ev s e := binTotal_records inp.dataCP s e

theorem acceptsScen.admissible {o : ScenOpts} {inp : MultiInput} {a : Assign} (hw : inp.Rect) (h : acceptsScen o inp a)
    {s : ℕ} (hs : s < inp.classes) :
    Admissible (o.limits s) inp.n (diag a.x) (inp.cls s).ne (inp.cls s).ev (rate6 (inp.cls s)) := by
  have hc := h.core
  obtain ⟨⟨-, -, hd, -⟩, -, -, hb, hsz, -, -, -, hf⟩ := h
  have hbins := minMaxBins_sound hc hd hb
  have hsize := (minMaxCount_iff (mn := o.minSize.map fun l => l.getD s 0) (mx := o.maxSize.map fun l => l.getD s 0)
    (c := (inp.cls s).dataCP.records) hc).1 (by
      intro i hi
      obtain ⟨h1, h2⟩ := hsz s hs i hi
      constructor
      · intro b hb
        cases hm : o.minSize with
        | none => simp [hm] at hb
        | some l => simp only [hm, Option.map_some, Option.some.injEq] at hb; subst hb; exact h1 l hm
      · intro b hb
        cases hm : o.maxSize with
        | none => simp [hm] at hb
        | some l => simp only [hm, Option.map_some, Option.some.injEq] at hb; subst hb; exact h2 l hm)
  refine ⟨hc.isBinning hw.pos, hbins.1, hbins.2, ?_, ?_, ?_, ?_, ?_, ?_, trivial, ?_⟩
  · intro s' e hse; rw [← records_total]; exact (hsize s' e hse).1
  · intro s' e hse; rw [← records_total]; exact (hsize s' e hse).2
  · intro s' e _ b hb; cases hb
  · intro s' e _ b hb; cases hb
  · intro s' e _ b hb; cases hb
  · intro s' e _ b hb; cases hb
  · intro f hff i hi hfi
    exact (diag_eq_true hc (by omega)).2 (hf f hff i hi hfi)

theorem acceptsScen.separated {o : ScenOpts} {inp : MultiInput} {a : Assign} (hw : inp.Rect) (h : acceptsScen o inp a)
    {s : ℕ} (hs : s < inp.classes) :
    Separated inp.policy inp.n (diag a.x) (failsTest (inp.cls s)) ∧
      Separated .consecutive inp.n (diag a.x) (tooClose6 (inp.cls s)) := by
  obtain ⟨hcw, hcn⟩ := hw.column hs
  have e1 := enum_pviol _ hcw
  have e2 := enum_minDiffCP _ hcw
  have hc := h.core
  rw [hcn] at e1 e2
  obtain ⟨-, -, -, -, -, -, hp, hm, -⟩ := h
  exact ⟨(e1.separated _).1 ((violationCP_iff hc e1.wf).1 (hp s hs)),
    (e2.separated _).1 ((violationCP_iff hc e2.wf).1 (hm s hs))⟩

/-- Every binning admissible in all scenarios is accepted. -/
theorem acceptsScen.complete {o : ScenOpts} {inp : MultiInput} {sol : ℕ → Bool} (hw : inp.Rect)
    (hex : ExactTrend o.trend) (hsc : o.trend.scen)
    (ht : TrendInAll inp.classes inp.n sol (fun s => rate6 (inp.cls s)) o.trend)
    (h : ∀ s < inp.classes, Admissible (o.limits s) inp.n sol (inp.cls s).ne (inp.cls s).ev (rate6 (inp.cls s)) ∧
      Separated inp.policy inp.n sol (failsTest (inp.cls s)) ∧ Separated .consecutive inp.n sol (tooClose6 (inp.cls s))) :
    ∃ a, acceptsScen o inp a ∧ a.x = encode sol := by
  have h0 := (h 0 hw.some_class).1
  have hc : Core inp.n (encode sol) := encode_core h0.binning
  have hdiag : diag (encode sol) = sol := encode_diag sol
  have hbins := minMaxBins_complete (o := o.base (decide (inp.minDiff = 0))) hc (by rw [hdiag]; exact h0.minBins)
    (by rw [hdiag]; exact h0.maxBins)
  have hD : ∀ s, ∀ i < inp.n, ∀ j ≤ i, 0 ≤ (inp.cls s).rateCP i j ∧ (inp.cls s).rateCP i j ≤ 1000000 :=
    fun s i _ j _ => rateCP_bounds _ i j
  have ht' : TrendInAll inp.classes inp.n (diag (encode sol)) (fun s i j => (inp.cls s).rateCP j i) o.trend := by
    refine trendInAll_congr (fun k _ => by rw [hdiag]) ?_ ht
    intro s hs i j hij hj
    obtain ⟨hcw, hcn⟩ := hw.column hs
    exact (rateCP_eq_rate6 _ hcw (by rw [hcn]; exact hj) hij).symm
  have htrend : ∃ (y : ℕ → ℤ) (t : ℤ), (∀ i < inp.n, y i = 0 ∨ y i = 1) ∧ 0 ≤ t ∧ t ≤ inp.n ∧
      trendScenarios o inp { x := encode sol, y := y, t := t, d := dWit (o.base (decide (inp.minDiff = 0))) inp.n (diag (encode sol)) } := by
    have one : ∀ s < inp.classes, TrendHolds inp.n (diag (encode sol)) (fun i j => (inp.cls s).rateCP j i) o.trend →
        ∃ (y : ℕ → ℤ) (t : ℤ), (∀ i < inp.n, y i = 0 ∨ y i = 1) ∧ 0 ≤ t ∧ t ≤ inp.n ∧ ∀ d u pmax pmin,
          monotonicity (o.base (decide (inp.minDiff = 0))) (1000000 : ℤ) inp.n (inp.cls s).rateCP
            { x := encode sol, y := y, t := t, d := d, u := u, pmax := pmax, pmin := pmin } := by
      intro s hs hT
      refine trend_complete (o := o.base (decide (inp.minDiff = 0))) hc (by norm_num) (hD s) ?_ hex ?_ hT
      · rintro ⟨-, h⟩; cases h
      · intro tc htc
        change o.trend = _ ∨ o.trend = _ at htc
        rcases htc with htc | htc <;> rw [htc] at hsc <;> exact hsc.elim
    cases hto : o.trend with
    | unconstrained =>
      exact ⟨fun _ => 0, 0, by simp, le_rfl, by omega, by simp [trendScenarios, hto]⟩
    | ascending =>
      refine ⟨fun _ => 0, 0, by simp, le_rfl, by omega, ?_⟩
      simp only [trendScenarios, hto]
      intro s hs
      rw [hto] at ht'
      obtain ⟨y, t, -, -, -, hm⟩ := one s hs (by rw [hto]; exact ht' s hs)
      have := hm 0 (fun _ => 0) 0 0
      simp only [monotonicity, ScenOpts.base, hto] at this ⊢
      exact this
    | descending =>
      refine ⟨fun _ => 0, 0, by simp, le_rfl, by omega, ?_⟩
      simp only [trendScenarios, hto]
      intro s hs
      rw [hto] at ht'
      obtain ⟨y, t, -, -, -, hm⟩ := one s hs (by rw [hto]; exact ht' s hs)
      have := hm 0 (fun _ => 0) 0 0
      simp only [monotonicity, ScenOpts.base, hto] at this ⊢
      exact this
    | concave => rw [hto] at hex; exact hex.elim
    | convex => rw [hto] at hex; exact hex.elim
    | peak =>
      rw [hto] at ht'
      obtain ⟨c, hcc⟩ := ht'
      refine ⟨yWit (min c inp.n), (min c inp.n : ℕ), fun i _ => by unfold yWit; split_ifs <;> simp, by omega, by omega, ?_⟩
      simp only [trendScenarios, hto]
      exact ⟨changePoint_wit (by omega), fun s hs => monoPeak_wit hc (by norm_num) (hD s) (hcc s hs).1 (hcc s hs).2⟩
    | valley =>
      rw [hto] at ht'
      obtain ⟨c, hcc⟩ := ht'
      refine ⟨yWit (min c inp.n), (min c inp.n : ℕ), fun i _ => by unfold yWit; split_ifs <;> simp, by omega, by omega, ?_⟩
      simp only [trendScenarios, hto]
      exact ⟨changePoint_wit (by omega), fun s hs => monoValley_wit hc (by norm_num) (hD s) (hcc s hs).1 (hcc s hs).2⟩
    | peakHeuristic c => rw [hto] at hsc; exact hsc.elim
    | valleyHeuristic c => rw [hto] at hsc; exact hsc.elim
  obtain ⟨y, t, hy, ht0, htn, htr⟩ := htrend
  refine ⟨_, ⟨⟨hc.bool, fun _ => ⟨hy, ht0, htn⟩, hbins.1, ?_⟩, hc.uniq, hc.cont, hbins.2, ?_, htr, ?_, ?_, ?_⟩, rfl⟩
  · intro mn mx h1; cases h1
  · intro s hs i hi
    have hadm := (h s hs).1
    have hcnt := (minMaxCount_iff (mn := (o.limits s).minSize) (mx := (o.limits s).maxSize)
      (c := (inp.cls s).dataCP.records) hc).2 (by
        intro s' e hb
        rw [hdiag] at hb
        rw [records_total]
        exact ⟨hadm.minSize s' e hb, hadm.maxSize s' e hb⟩) i hi
    exact ⟨fun l hl => hcnt.1 _ (by simp [ScenOpts.limits, hl]), fun l hl => hcnt.2 _ (by simp [ScenOpts.limits, hl])⟩
  · intro s hs
    obtain ⟨hcw, hcn⟩ := hw.column hs
    have e1 := enum_pviol _ hcw
    rw [hcn] at e1
    exact (violationCP_iff hc e1.wf).2 ((e1.separated _).2 (by rw [hdiag]; exact (h s hs).2.1))
  · intro s hs
    obtain ⟨hcw, hcn⟩ := hw.column hs
    have e2 := enum_minDiffCP _ hcw
    rw [hcn] at e2
    exact (violationCP_iff hc e2.wf).2 ((e2.separated _).2 (by rw [hdiag]; exact (h s hs).2.2))
  · intro f hf i hi hfi
    exact (diag_eq_true hc (by omega)).1 (by rw [hdiag]; exact h0.fixed f hf i hi hfi)

end OptBinning
