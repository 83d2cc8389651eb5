import Verif.Props.Piecewise2
import Verif.Props.Metrics

/-! # C83, C84, C86: WoE transform, divergences and analysis of `OptimalPWBinning`; a concrete fit -/
set_option linter.unusedSectionVars false
namespace OptBinning
open Spec

/-! ## C83 -/

section fitted
variable {F : Type*} [Field F] [LinearOrder F] [IsStrictOrderedRing F]
variable {f : PWFitted F} {c : PWCfg F} {sv : SolverCfg} {lb ub : Option F} {recs : List (Rec F)}

theorem pwInner_totals {clean : List (Rec F)} {g : Fitted F} (ho : c.outlier = none)
    (hr : Respects sv c.solver) (hsort : ∀ l, (c.prebin l).Pairwise (· ≤ ·)) (hy : KnownTargets clean) (hw : WholeWeights clean)
    (h : pwInner c clean = .ok g) :
    ((g.nonevent.sum : ℕ) : ℚ) = weight clean (fun r => r.y = some false) ∧
    ((g.event.sum : ℕ) : ℚ) = weight clean (fun r => r.y = some true) := by
  have hpn : ProperCodes (.none : SpecialCodes F) := ⟨fun h => h, trivial⟩
  unfold pwInner at h
  have hso : ({ outlier := c.outlier } : SplitOpts F) = {} := by rw [ho]
  rw [hso] at h
  cases hu : c.userSplits with
  | none =>
    rw [hu] at h
    exact C02_totals hpn hy hw hr hsort h
  | some us =>
    rw [hu] at h
    simp only at h
    cases hfu : fitUser {} .none {} c.solver { userSplits := us, fixed := c.fixed } clean with
    | error e => rw [hfu] at h; simp [Except.map] at h
    | ok r =>
      rw [hfu] at h
      simp only [Except.map, Except.ok.injEq] at h
      subst h
      exact C02_totals_user_splits (st' := r.1) hpn hy hw hr hfu

theorem sum_pos_of_getElem {l : List ℕ} {i : ℕ} (h : i < l.length) (h0 : 0 < l[i]) : 0 < l.sum :=
  lt_of_lt_of_le h0 (List.single_le_sum (by simp) _ (List.getElem_mem h))

/-- C83: a successful fit has seen records of both classes. -/
theorem C83_two_classes (ho : c.outlier = none) (hr : Respects sv c.solver) (hsort : ∀ l, (c.prebin l).Pairwise (· ≤ ·))
    (hp : ProperCodes c.sc) (hk : KnownTargets recs) (hu : ∀ r ∈ recs, r.w = 1) (h : pwFit c lb ub recs = .ok f) :
    0 < f.nonevent.sum ∧ 0 < f.event.sum := by
  obtain ⟨t0, t1⟩ := C80_totals ho hr hsort hp hk hu h
  unfold pwFit at h
  have hso : ({ outlier := c.outlier } : SplitOpts F) = {} := by rw [ho]
  rw [hso] at h
  have hg := fun r hr => (C01_groups c.sc recs r).1.1 hr
  cases hi : pwInner c (splitData c.sc {} recs).clean with
  | error e => simp [hi, bind, Except.bind] at h
  | ok g =>
    simp only [hi, bind, Except.bind] at h
    split_ifs at h with h0
    have hwu : ∀ r ∈ (splitData c.sc {} recs).clean, r.w = 1 := fun r hr => hu r (hg r hr).1
    obtain ⟨s0, s1⟩ := pwInner_totals ho hr hsort (fun r hr => hk r (hg r hr).1)
      (fun r hr => ⟨1, by simp [hwu r hr]⟩) hi
    rw [weight_unit hwu] at s0 s1
    have s0 := Nat.cast_injective s0
    have s1 := Nat.cast_injective s1
    obtain ⟨row, hrow⟩ := List.exists_mem_of_ne_nil _ h0
    obtain ⟨hm, hmix⟩ := List.mem_filter.1 hrow
    simp only [Spec.Row.mixed, Bool.and_eq_true, decide_eq_true_eq] at hmix
    unfold rowsOf at hm
    obtain ⟨i, hilt, rfl⟩ := List.mem_iff_getElem.1 hm
    simp only [List.getElem_zipWith] at hmix
    have hl : i < g.nonevent.length ∧ i < g.event.length := by
      rw [List.length_zipWith] at hilt; omega
    have p0 := sum_pos_of_getElem hl.1 hmix.2
    have p1 := sum_pos_of_getElem hl.2 hmix.1
    rw [s0] at p0
    rw [s1] at p1
    rw [t0, t1]
    have key : ∀ q : Rec F → Bool, 0 < (splitData c.sc {} recs).clean.countP q → 0 < recs.countP q := by
      intro q hq
      obtain ⟨r, hr, hqr⟩ := List.countP_pos_iff.1 hq
      exact List.countP_pos_iff.2 ⟨r, (hg r hr).1, hqr⟩
    exact ⟨key _ p0, key _ p1⟩

end fitted

variable {f : PWFitted ℝ} {sc : SpecialCodes ℝ} {ms mm : PWOpt ℝ} {lb ub : Option ℝ}

theorem woe_arg {N E : ℕ} {r : ℝ} (hr : r ≠ 0) : (1 / r - 1) * (E : ℝ) / (N : ℝ) = ((1 - r) / r) / ((N : ℝ) / (E : ℝ)) := by
  rw [div_div_eq_mul_div, sub_div, div_self hr]

/-- `npWoe` in terms of the specification. -/
theorem npWoe_cases {N E : ℕ} (hN : 0 < N) (hE : 0 < E) (r : ℝ) :
    (0 < r ∧ r < 1 → npWoe N E r = .fin (woeOfRate N E r)) ∧ (r = 0 → npWoe N E r = .posInf) ∧
    (r = 1 → npWoe N E r = .negInf) ∧ (r < 0 ∨ 1 < r → npWoe N E r = .nan) := by
  have hN' : (0 : ℝ) < N := Nat.cast_pos.2 hN
  have hE' : (0 : ℝ) < E := Nat.cast_pos.2 hE
  have hNE := div_pos hN' hE'
  refine ⟨fun ⟨h0, h1⟩ => ?_, fun h => ?_, fun h => ?_, fun h => ?_⟩
  · unfold npWoe npLog
    have hpos : 0 < ((1 - r) / r) / ((N : ℝ) / (E : ℝ)) := div_pos (div_pos (by linarith) h0) hNE
    rw [if_neg h0.ne', woe_arg h0.ne', if_pos hpos]
    rfl
  · simp [npWoe, h]
  · subst h
    simp [npWoe, npLog]
  · have hne : r ≠ 0 := by rintro rfl; rcases h with h | h <;> linarith
    have hneg : ((1 - r) / r) / ((N : ℝ) / (E : ℝ)) < 0 := by
      refine div_neg_of_neg_of_pos ?_ hNE
      rcases h with h | h
      · exact div_neg_of_pos_of_neg (by linarith) h
      · exact div_neg_of_neg_of_pos (by linarith) (by linarith)
    unfold npWoe npLog
    rw [if_neg hne, woe_arg hne, if_neg (by linarith), if_neg hneg.ne]

/-- What a successful call with `metric="woe"` returns. -/
theorem transform_woe {x : List (Option ℝ)} {y : List FVal} (h : f.transform sc "woe" ms mm lb ub x = .ok y) :
    y = x.map (pwApply sc (fun v => npWoe f.nonevent.sum f.event.sum (pwClean f.splits f.coef lb ub v))
        (fun i => npWoe f.nonevent.sum f.event.sum (pwSpecialRate f.neSpecial f.evSpecial i))
        (npWoe f.nonevent.sum f.event.sum (pwMissingRate f.neMissing f.evMissing))
        (ms.value.map .fin) (mm.value.map .fin)) := by
  unfold PWFitted.transform pwTransform at h
  have e1 : ("woe" = "event_rate") = False := by decide
  simp only [e1, false_or, not_true, if_false] at h
  split_ifs at h
  injection h with h
  exact h.symm

theorem clean_eq_rate {v : ℝ} (hv : ¬ IsSpecialValue sc (some v)) :
    pwClean f.splits f.coef lb ub v = f.rate sc ms mm lb ub (some v) := by
  unfold PWFitted.rate pwRate PWFitted.args
  rw [pwApply_clean _ _ _ _ _ hv]

/-- C83: with `metric="woe"` a clean value gets the weight of evidence of its transformed event rate if that lies strictly
between 0 and 1; rate 0 gives `inf`, rate 1 gives `-inf`, and a rate outside `[0, 1]` gives NaN. -/
theorem C83_woe (hN : 0 < f.nonevent.sum) (hE : 0 < f.event.sum) {x : List (Option ℝ)} {y : List FVal}
    (h : f.transform sc "woe" ms mm lb ub x = .ok y) {i : ℕ} {v : ℝ} (hx : x[i]? = some (some v))
    (hv : ¬ IsSpecialValue sc (some v)) :
    (0 < f.rate sc ms mm lb ub (some v) ∧ f.rate sc ms mm lb ub (some v) < 1 →
      y[i]? = some (.fin (woeOfRate f.nonevent.sum f.event.sum (f.rate sc ms mm lb ub (some v))))) ∧
    (f.rate sc ms mm lb ub (some v) = 0 → y[i]? = some .posInf) ∧
    (f.rate sc ms mm lb ub (some v) = 1 → y[i]? = some .negInf) ∧
    (f.rate sc ms mm lb ub (some v) < 0 ∨ 1 < f.rate sc ms mm lb ub (some v) → y[i]? = some .nan) := by
  rw [transform_woe h, List.getElem?_map, hx, Option.map_some, pwApply_clean _ _ _ _ _ hv, clean_eq_rate (ms := ms) (mm := mm) hv]
  obtain ⟨h1, h2, h3, h4⟩ := npWoe_cases hN hE (f.rate sc ms mm lb ub (some v))
  exact ⟨fun h => by rw [h1 h], fun h => by rw [h2 h], fun h => by rw [h3 h], fun h => by rw [h4 h]⟩

theorem woeOfRate_anti {N E : ℕ} (hN : 0 < N) (hE : 0 < E) {r r' : ℝ} (h0 : 0 < r) (h : r ≤ r') (h1 : r' < 1) :
    woeOfRate N E r' ≤ woeOfRate N E r := by
  have hNE : (0 : ℝ) < (N : ℝ) / (E : ℝ) := div_pos (Nat.cast_pos.2 hN) (Nat.cast_pos.2 hE)
  unfold woeOfRate
  refine Real.log_le_log (div_pos (div_pos (by linarith) (by linarith)) hNE) ?_
  refine div_le_div_of_nonneg_right ?_ hNE.le
  exact div_le_div₀ (by linarith) (by linarith) h0 h

/-- C83: with bounds `0 < lb ≤ ub < 1` the WoE of every clean value is a number between the WoE of `ub` and the WoE of `lb`. -/
theorem C83_bounded (hN : 0 < f.nonevent.sum) (hE : 0 < f.event.sum) {l u : ℝ} (hl : 0 < l) (hlu : l ≤ u) (hu : u < 1)
    {x : List (Option ℝ)} {y : List FVal} (h : f.transform sc "woe" ms mm (some l) (some u) x = .ok y) {i : ℕ} {v : ℝ}
    (hx : x[i]? = some (some v)) (hv : ¬ IsSpecialValue sc (some v)) :
    ∃ w, y[i]? = some (.fin w) ∧ woeOfRate f.nonevent.sum f.event.sum u ≤ w ∧ w ≤ woeOfRate f.nonevent.sum f.event.sum l := by
  have hin : WithinBounds (some l) (some u) (f.rate sc ms mm (some l) (some u) (some v)) := by
    rw [rate_clean f hv]
    exact (pwClip_isClamp (by rintro a b ha hb; cases ha; cases hb; exact hlu) _).1
  have a1 := hin.1 l rfl
  have a2 := hin.2 u rfl
  refine ⟨_, (C83_woe hN hE h hx hv).1 ⟨by linarith, by linarith⟩, ?_, ?_⟩
  · exact woeOfRate_anti hN hE (by linarith) a2 hu
  · exact woeOfRate_anti hN hE hl a1 (by linarith)

/-- C83: with such bounds and increasing pieces that do not jump down at the split points (increasing event rate), WoE is
decreasing in the value. -/
theorem C83_monotone (hN : 0 < f.nonevent.sum) (hE : 0 < f.event.sum) {l u : ℝ} (hl : 0 < l) (hlu : l ≤ u) (hu : u < 1)
    (hs : f.splits.Pairwise (· ≤ ·)) (hP : AscendingPieces f.splits (pieces f.coef))
    {x : List (Option ℝ)} {y : List FVal} (h : f.transform sc "woe" ms mm (some l) (some u) x = .ok y) {i j : ℕ} {v w : ℝ}
    (hx : x[i]? = some (some v)) (hv : ¬ IsSpecialValue sc (some v)) (hxj : x[j]? = some (some w))
    (hw : ¬ IsSpecialValue sc (some w)) (hvw : v ≤ w) :
    ∃ a b, y[i]? = some (.fin a) ∧ y[j]? = some (.fin b) ∧ b ≤ a := by
  have hin : ∀ z, ¬ IsSpecialValue sc (some z) → l ≤ f.rate sc ms mm (some l) (some u) (some z) ∧
      f.rate sc ms mm (some l) (some u) (some z) ≤ u := by
    intro z hz
    have : WithinBounds (some l) (some u) (f.rate sc ms mm (some l) (some u) (some z)) := by
      rw [rate_clean f hz]
      exact (pwClip_isClamp (by rintro a b ha hb; cases ha; cases hb; exact hlu) _).1
    exact ⟨this.1 l rfl, this.2 u rfl⟩
  obtain ⟨a1, a2⟩ := hin v hv
  obtain ⟨b1, b2⟩ := hin w hw
  exact ⟨_, _, (C83_woe hN hE h hx hv).1 ⟨by linarith, by linarith⟩, (C83_woe hN hE h hxj hw).1 ⟨by linarith, by linarith⟩,
    woeOfRate_anti hN hE (by linarith) (C81_ascending hs hP hvw hv hw) (by linarith)⟩

/-- C82 for both metrics: given numbers are returned unchanged, also with `metric="woe"`, and nothing raises if no option is
empirical. -/
theorem C82_given (hp : ProperCodes sc) (q r : ℝ) {metric : String} (hm : metric = "event_rate" ∨ metric = "woe")
    (x : List (Option ℝ)) : ∃ y : List FVal, f.transform sc metric (.number q) (.number r) lb ub x = .ok y ∧ y.length = x.length ∧
      ∀ i : ℕ, (∀ z, x[i]? = some z → IsSpecialValue sc z → y[i]? = some (FVal.fin q)) ∧ (x[i]? = some none → y[i]? = some (FVal.fin r)) := by
  have hcase : ∃ g : Option ℝ → FVal, f.transform sc metric (.number q) (.number r) lb ub x = .ok (x.map g) ∧
      (∀ z, IsSpecialValue sc z → g z = .fin q) ∧ g none = .fin r := by
    unfold PWFitted.transform pwTransform
    rcases hm with rfl | rfl
    · refine ⟨_, by simp only [PWOpt.valid, true_or, not_true, if_false, if_true, Bool.true_eq_false]; rfl, fun z hz => ?_, ?_⟩
      · rw [show pwRate (f.args sc) lb ub (.number q) (.number r) z = q from (C82_given_rate hp f q r).1 z hz (.number r)]
      · rw [show pwRate (f.args sc) lb ub (.number q) (.number r) none = r from (C82_given_rate hp f q r).2 (.number q)]
    · have e1 : ("woe" = "event_rate") = False := by decide
      refine ⟨_, by simp only [PWOpt.valid, e1, or_true, not_true, if_false, Bool.true_eq_false, PWOpt.value, reduceCtorEq,
        false_and]; rfl, fun z hz => ?_, ?_⟩
      · obtain ⟨i, -, hi⟩ := assign_special (β := FVal) hp hz
        unfold pwApply
        exact hi _ _ _ _ _
      · exact pwApply_missing _ _ _ _ _ _
  obtain ⟨g, hg, h1, h2⟩ := hcase
  refine ⟨_, hg, by simp, fun i => ⟨fun z hz hsp => ?_, fun hn => ?_⟩⟩
  · rw [List.getElem?_map, hz, Option.map_some, h1 z hsp]
  · rw [List.getElem?_map, hn, Option.map_some, h2]

/-- C83, finding: `metric="woe"` with `metric_missing="empirical"` raises `ZeroDivisionError`, whatever is transformed, if the
training data has no missing record or its missing records are all events. -/
theorem C83_empirical_missing_raises {c : PWCfg ℝ} {lb₀ ub₀ : Option ℝ} {recs : List (Rec ℝ)} (ho : c.outlier = none)
    (hk : KnownTargets recs) (h : pwFit c lb₀ ub₀ recs = .ok f)
    (hmiss : countClass recs false (fun x => x = none) = 0) (hms : ms.valid = true) (x : List (Option ℝ)) :
    f.transform c.sc "woe" ms .empirical lb ub x = .error "ZeroDivisionError" := by
  obtain ⟨g, -, -, -, -, -, -, e3, -⟩ := pwFit_ok h
  have hso : ({ outlier := c.outlier } : SplitOpts ℝ) = {} := by rw [ho]
  rw [hso, countClass_missing hk, hmiss] at e3
  have e1 : ("woe" = "event_rate") = False := by decide
  unfold PWFitted.transform pwTransform
  have e2 : (PWOpt.empirical : PWOpt ℝ).valid = true := rfl
  simp [e1, e2, hms, PWOpt.value, PWFitted.args, e3, pwMissingRate]

/-- C83: with valid options, `metric="woe"` raises in no other case, and `metric="event_rate"` never raises. -/
theorem C83_no_other_error (hms : ms.valid = true) (hmm : mm.valid = true) (x : List (Option ℝ)) :
    (∃ y, f.transform sc "event_rate" ms mm lb ub x = .ok y ∧ y.length = x.length) ∧
    ((mm.value = none → 0 < f.neMissing) → ∃ y, f.transform sc "woe" ms mm lb ub x = .ok y ∧ y.length = x.length) := by
  constructor
  · exact ⟨x.map fun v => .fin (f.rate sc ms mm lb ub v), by
      unfold PWFitted.transform pwTransform; simp [hms, hmm, PWFitted.rate], by simp⟩
  · intro h
    have e1 : ("woe" = "event_rate") = False := by decide
    unfold PWFitted.transform pwTransform
    have hno : ¬ (mm.value = none ∧ (pwMissingRate (f.args sc).nEventMissing (f.args sc).nNoneventMissing : ℝ) = 0) := by
      rintro ⟨h1, h2⟩
      have h3 := h h1
      unfold pwMissingRate PWFitted.args at h2
      simp only at h2
      rw [if_pos (by omega), div_eq_zero_iff] at h2
      rcases h2 with h2 | h2 <;> · have := Nat.cast_eq_zero.1 h2; omega
    simp only [e1, hms, hmm, or_true, not_true, if_false, Bool.true_eq_false, hno]
    exact ⟨_, rfl, by simp⟩

/-! ## C84 -/

theorem sum_eq_zero_iff_of_nonneg {l : List ℝ} (h : ∀ a ∈ l, 0 ≤ a) : l.sum = 0 ↔ ∀ a ∈ l, a = 0 := by
  induction l with
  | nil => simp
  | cons a l ih =>
    have h1 := h a (by simp)
    have h2 : 0 ≤ l.sum := List.sum_nonneg fun b hb => h b (by simp [hb])
    rw [List.sum_cons, add_eq_zero_iff_of_nonneg h1 h2, ih fun b hb => h b (by simp [hb])]
    simp

/-- The densities at rate `r` relative to the overall event rate agree only if the rate is the overall rate. -/
theorem density_eq_iff {r p : ℝ} (h0 : 0 < p) (h1 : p < 1) : (1 - r) / (1 - p) = r / p ↔ r = p := by
  rw [div_eq_div_iff (by linarith) h0.ne']
  constructor <;> intro h <;> nlinarith

/-- C84: the reported divergences (IV, JS, Hellinger, triangular) are non-negative, and zero exactly if the piecewise event rate
of every clean record is the overall event rate and every special group and the missing records with both classes contain the same
share of the events as of the non-events. -/
theorem C84_divergence {d : ℝ → ℝ → ℝ} (hd : GoodDiv d) {rates : List ℝ} {nes evs : List ℕ} {nem evm tne tev : ℕ}
    (hr : ∀ r ∈ rates, 0 < r ∧ r < 1) (hlen : nes.length = evs.length) (hN : 0 < tne) (hE : 0 < tev) :
    0 ≤ pwDivergence d rates nes evs nem evm tne tev ∧
    (pwDivergence d rates nes evs nem evm tne tev = 0 ↔
      (∀ r ∈ rates, r = classRate tev tne) ∧
      (∀ (j : ℕ) a b, nes[j]? = some a → evs[j]? = some b → 0 < a → 0 < b → (a : ℝ) / tne = (b : ℝ) / tev) ∧
      (0 < nem → 0 < evm → (nem : ℝ) / tne = (evm : ℝ) / tev)) := by
  have hN' : (0 : ℝ) < tne := Nat.cast_pos.2 hN
  have hE' : (0 : ℝ) < tev := Nat.cast_pos.2 hE
  have hn : (0 : ℝ) < (tne : ℝ) + (tev : ℝ) := by linarith
  have hsh : (classRate tev tne : ℝ) = (tev : ℝ) / ((tne : ℝ) + (tev : ℝ)) := by unfold classRate; rw [add_comm]
  set p : ℝ := (tev : ℝ) / ((tne : ℝ) + (tev : ℝ)) with hpdef
  have hp0 : 0 < p := div_pos hE' hn
  have hp1 : p < 1 := by rw [hpdef, div_lt_one hn]; linarith
  -- the three summands
  have hc : ∀ a ∈ rates.map (fun r => d ((1 - r) / (1 - p)) (r / p)), 0 ≤ a := by
    intro a ha
    obtain ⟨r, hrm, rfl⟩ := List.mem_map.1 ha
    have := hr r hrm
    exact hd.nonneg _ _ (div_pos (by linarith) (by linarith)) (div_pos this.1 hp0)
  have hg : ∀ g ∈ (nes.zip evs).filter (fun g => decide (0 < g.2) && decide (0 < g.1)), 0 < g.1 ∧ 0 < g.2 := by
    intro g hgm
    have := (List.mem_filter.1 hgm).2
    simp only [Bool.and_eq_true, decide_eq_true_eq] at this
    exact this.symm
  have hsp : ∀ a ∈ ((nes.zip evs).filter (fun g => decide (0 < g.2) && decide (0 < g.1))).map
      (fun g => d ((g.1 : ℝ) / (tne : ℝ)) ((g.2 : ℝ) / (tev : ℝ))), 0 ≤ a := by
    intro a ha
    obtain ⟨g, hgm, rfl⟩ := List.mem_map.1 ha
    have := hg g hgm
    exact hd.nonneg _ _ (div_pos (Nat.cast_pos.2 this.1) hN') (div_pos (Nat.cast_pos.2 this.2) hE')
  set cl := (rates.map fun r => d ((1 - r) / (1 - p)) (r / p)).sum / ((tne : ℝ) + (tev : ℝ)) with hcl
  set spv : ℝ := (if (nes.zip evs).filter (fun g => decide (0 < g.2) && decide (0 < g.1)) = [] then 0 else
    (((nes.zip evs).filter (fun g => decide (0 < g.2) && decide (0 < g.1))).map
      fun g => d ((g.1 : ℝ) / (tne : ℝ)) ((g.2 : ℝ) / (tev : ℝ))).sum / (evs.length : ℝ)) with hspv
  set mv : ℝ := (if 0 < evm ∧ 0 < nem then d ((nem : ℝ) / (tne : ℝ)) ((evm : ℝ) / (tev : ℝ)) else 0) with hmv
  have heq : pwDivergence d rates nes evs nem evm tne tev = cl + spv + mv := rfl
  have n1 : 0 ≤ cl := div_nonneg (List.sum_nonneg hc) hn.le
  have n2 : 0 ≤ spv := by
    rw [hspv]; split_ifs
    · exact le_rfl
    · exact div_nonneg (List.sum_nonneg hsp) (Nat.cast_nonneg _)
  have n3 : 0 ≤ mv := by
    rw [hmv]; split_ifs with h
    · exact hd.nonneg _ _ (div_pos (Nat.cast_pos.2 h.2) hN') (div_pos (Nat.cast_pos.2 h.1) hE')
    · exact le_rfl
  have z1 : cl = 0 ↔ ∀ r ∈ rates, r = classRate tev tne := by
    rw [hcl, div_eq_zero_iff, or_iff_left hn.ne', sum_eq_zero_iff_of_nonneg hc, hsh]
    constructor
    · intro h r hrm
      have := hr r hrm
      have h2 := h _ (List.mem_map.2 ⟨r, hrm, rfl⟩)
      rw [hd.zero_iff _ _ (div_pos (by linarith) (by linarith)) (div_pos this.1 hp0)] at h2
      exact (density_eq_iff hp0 hp1).1 h2
    · intro h a ha
      obtain ⟨r, hrm, rfl⟩ := List.mem_map.1 ha
      have := hr r hrm
      rw [hd.zero_iff _ _ (div_pos (by linarith) (by linarith)) (div_pos this.1 hp0)]
      exact (density_eq_iff hp0 hp1).2 (h r hrm)
  have z2 : spv = 0 ↔ ∀ (j : ℕ) a b, nes[j]? = some a → evs[j]? = some b → 0 < a → 0 < b → (a : ℝ) / tne = (b : ℝ) / tev := by
    have hall : (∀ g ∈ (nes.zip evs).filter (fun g => decide (0 < g.2) && decide (0 < g.1)),
        (g.1 : ℝ) / tne = (g.2 : ℝ) / tev) ↔
        ∀ (j : ℕ) a b, nes[j]? = some a → evs[j]? = some b → 0 < a → 0 < b → (a : ℝ) / tne = (b : ℝ) / tev := by
      constructor
      · intro h j a b ha hb h0 h1
        refine h (a, b) (List.mem_filter.2 ⟨?_, by simp [h0, h1]⟩)
        refine List.mem_of_getElem? (i := j) ?_
        rw [List.getElem?_zip_eq_some]
        exact ⟨ha, hb⟩
      · intro h g hgm
        obtain ⟨j, hj⟩ := List.mem_iff_getElem?.1 (List.mem_filter.1 hgm).1
        rw [List.getElem?_zip_eq_some] at hj
        exact h j g.1 g.2 hj.1 hj.2 (hg g hgm).1 (hg g hgm).2
    rw [← hall, hspv]
    split_ifs with h0
    · simp [h0]
    · have hlen' : ((evs.length : ℕ) : ℝ) ≠ 0 := by
        have : evs ≠ [] := by
          rintro rfl
          simp at h0
        exact Nat.cast_ne_zero.2 (by simpa using this)
      rw [div_eq_zero_iff, or_iff_left hlen', sum_eq_zero_iff_of_nonneg hsp]
      constructor
      · intro h g hgm
        have := hg g hgm
        rw [← hd.zero_iff _ _ (div_pos (Nat.cast_pos.2 this.1) hN') (div_pos (Nat.cast_pos.2 this.2) hE')]
        exact h _ (List.mem_map.2 ⟨g, hgm, rfl⟩)
      · intro h a ha
        obtain ⟨g, hgm, rfl⟩ := List.mem_map.1 ha
        have := hg g hgm
        rw [hd.zero_iff _ _ (div_pos (Nat.cast_pos.2 this.1) hN') (div_pos (Nat.cast_pos.2 this.2) hE')]
        exact h g hgm
  have z3 : mv = 0 ↔ (0 < nem → 0 < evm → (nem : ℝ) / tne = (evm : ℝ) / tev) := by
    rw [hmv]
    split_ifs with h
    · rw [hd.zero_iff _ _ (div_pos (Nat.cast_pos.2 h.2) hN') (div_pos (Nat.cast_pos.2 h.1) hE')]
      exact ⟨fun e _ _ => e, fun e => e h.2 h.1⟩
    · simp only [true_iff]
      intro h1 h2
      exact absurd ⟨h2, h1⟩ h
  rw [heq]
  refine ⟨by linarith, ?_⟩
  rw [← z1, ← z2, ← z3]
  constructor
  · intro h
    exact ⟨by linarith, by linarith, by linarith⟩
  · rintro ⟨h1, h2, h3⟩
    linarith

/-- C84 for a fitted object: the rates entering the reported divergences lie in `[1e-8, 1 - 1e-8]`, so all four divergences are
non-negative. -/
theorem C84_fitted {c : PWCfg ℝ} {sv : SolverCfg} {recs : List (Rec ℝ)} (ho : c.outlier = none) (hr : Respects sv c.solver)
    (hsort : ∀ l, (c.prebin l).Pairwise (· ≤ ·)) (hp : ProperCodes c.sc) (hk : KnownTargets recs) (hu : ∀ r ∈ recs, r.w = 1)
    (h : pwFit c lb ub recs = .ok f) :
    (∀ r ∈ f.cleanRates c.sc (splitData c.sc {} recs).clean, 1e-8 ≤ r ∧ r ≤ 1 - 1e-8) ∧
    ∀ d ∈ [jeffrey, jensenShannon, hellinger, triangular], 0 ≤ f.divergence c.sc (splitData c.sc {} recs).clean d := by
  have hrates : ∀ r ∈ f.cleanRates c.sc (splitData c.sc {} recs).clean, 1e-8 ≤ r ∧ r ≤ 1 - 1e-8 := by
    intro r hrm
    obtain ⟨q, hq, rfl⟩ := List.mem_map.1 hrm
    have hg := (C01_groups c.sc recs q).1.1 hq
    obtain ⟨v, hv⟩ := Option.ne_none_iff_exists'.1 hg.2.1
    have hsp : ¬ IsSpecialValue c.sc (some v) := by rw [← hv]; exact hg.2.2.2
    rw [hv, rate_clean f hsp]
    have := (pwClip_isClamp (lb := some (1e-8 : ℝ)) (ub := some (1 - 1e-8)) (by
      rintro a b ha hb; cases ha; cases hb; norm_num) (pieces f.coef (digitize false f.splits (some v)) v)).1
    exact ⟨this.1 _ rfl, this.2 _ rfl⟩
  refine ⟨hrates, fun d hd => ?_⟩
  have hgood : GoodDiv d := by
    simp only [List.mem_cons, List.not_mem_nil, or_false] at hd
    rcases hd with rfl | rfl | rfl | rfl
    · exact goodDiv_jeffrey
    · exact goodDiv_jensenShannon
    · exact goodDiv_hellinger
    · exact goodDiv_triangular
  obtain ⟨g, -, -, -, -, e1, e2, -⟩ := pwFit_ok h
  obtain ⟨hN, hE⟩ := C83_two_classes ho hr hsort hp hk hu h
  refine (C84_divergence hgood (fun r hrm => ?_) ?_ hN hE).1
  · obtain ⟨h1, h2⟩ := hrates r hrm
    constructor
    · exact lt_of_lt_of_le (by norm_num) h1
    · exact lt_of_le_of_lt h2 (by norm_num)
  · rw [e1, e2, specialCounts_length, specialCounts_length]

end OptBinning
