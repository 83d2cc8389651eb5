import Verif.Props.Piecewise
import Verif.Lemmas.Divergence

/-! # C81–C84: the transform and the reported divergences of `OptimalPWBinning` -/
set_option linter.unusedSectionVars false
namespace OptBinning
open Spec

variable {F : Type*} [Field F] [LinearOrder F] [IsStrictOrderedRing F]
variable {f : PWFitted F} {sc : SpecialCodes F} {ms mm : PWOpt F} {lb ub : Option F}

theorem rate_clean (f : PWFitted F) {v : F} (hv : ¬ IsSpecialValue sc (some v)) :
    f.rate sc ms mm lb ub (some v) = pwClip lb ub (pieces f.coef (digitize false f.splits (some v)) v) := by
  unfold PWFitted.rate pwRate PWFitted.args
  rw [pwApply_clean _ _ _ _ _ hv, pwClean_eq]

/-! ## C81 -/

/-- C81: a value that is neither special nor missing gets the polynomial of the interval which contains it, moved to the nearest
number within `lb` and `ub`. -/
theorem C81_value (hs : f.splits.Pairwise (· ≤ ·)) (hb : BoundsOk lb ub) {v : F} (hv : ¬ IsSpecialValue sc (some v)) {k : ℕ}
    (hk : InInterval f.splits k v) :
    IsClamp lb ub (polyAt (f.coef.getD k []) v) (f.rate sc ms mm lb ub (some v)) := by
  rw [rate_clean f hv, (inInterval_iff hs v k).2 hk]
  exact pwClip_isClamp hb _

/-- C81: without bounds it is the value of the polynomial. -/
theorem C81_value_unbounded (hs : f.splits.Pairwise (· ≤ ·)) {v : F} (hv : ¬ IsSpecialValue sc (some v)) {k : ℕ}
    (hk : InInterval f.splits k v) : f.rate sc ms mm none none (some v) = polyAt (f.coef.getD k []) v := by
  rw [rate_clean f hv, (inInterval_iff hs v k).2 hk]
  rfl

/-- C81: with increasing pieces that do not jump down at the split points the transform is increasing, whatever the bounds. -/
theorem C81_ascending (hs : f.splits.Pairwise (· ≤ ·)) (hP : AscendingPieces f.splits (pieces f.coef)) {v w : F} (h : v ≤ w)
    (hv : ¬ IsSpecialValue sc (some v)) (hw : ¬ IsSpecialValue sc (some w)) :
    f.rate sc ms mm lb ub (some v) ≤ f.rate sc ms mm lb ub (some w) := by
  rw [rate_clean f hv, rate_clean f hw]
  exact pwClip_mono _ _ (ascending_digitize hs hP h)

/-- C81: with decreasing pieces that do not jump up at the split points the transform is decreasing, whatever the bounds. -/
theorem C81_descending (hs : f.splits.Pairwise (· ≤ ·)) (hP : DescendingPieces f.splits (pieces f.coef)) {v w : F} (h : v ≤ w)
    (hv : ¬ IsSpecialValue sc (some v)) (hw : ¬ IsSpecialValue sc (some w)) :
    f.rate sc ms mm lb ub (some w) ≤ f.rate sc ms mm lb ub (some v) := by
  rw [rate_clean f hv, rate_clean f hw]
  exact pwClip_mono _ _ (descending_digitize hs hP h)

/-- C81, default `degree=1`: it is enough that all slopes are non-negative and that the line of a bin is not above the line of
the next bin at their common split point. -/
theorem C81_linear_ascending (hs : f.splits.Pairwise (· ≤ ·)) (b a : ℕ → F) (hc : ∀ k ≤ f.splits.length, f.coef.getD k [] = [b k, a k])
    (ha : ∀ k ≤ f.splits.length, 0 ≤ a k)
    (hj : ∀ (k : ℕ) s, f.splits[k]? = some s → b k + a k * s ≤ b (k + 1) + a (k + 1) * s) {v w : F} (h : v ≤ w)
    (hv : ¬ IsSpecialValue sc (some v)) (hw : ¬ IsSpecialValue sc (some w)) :
    f.rate sc ms mm lb ub (some v) ≤ f.rate sc ms mm lb ub (some w) := by
  have hp : ∀ k ≤ f.splits.length, ∀ x, pieces f.coef k x = b k + a k * x := by
    intro k hk x
    unfold pieces
    rw [hc k hk]
    simp [polyAt, Finset.sum_range_succ]
  refine C81_ascending hs ⟨fun k hk x y _ _ hxy => ?_, fun k s hs' => ?_⟩ h hv hw
  · rw [hp k hk, hp k hk]
    have := mul_le_mul_of_nonneg_left hxy (ha k hk)
    linarith
  · have hlt := (List.getElem?_eq_some_iff.1 hs').1
    rw [hp k hlt.le, hp (k + 1) hlt]
    exact hj k s hs'

/-- C81: if neighbouring pieces agree at the split points (`continuous=True`), the transform is a continuous function on the
values which are not special codes. -/
theorem C81_continuous {f : PWFitted ℝ} {sc : SpecialCodes ℝ} {ms mm : PWOpt ℝ} {lb ub : Option ℝ}
    (hs : f.splits.Pairwise (· ≤ ·)) (hP : PiecesAgree f.splits (pieces f.coef)) :
    ContinuousOn (fun v => f.rate sc ms mm lb ub (some v)) {v | ¬ IsSpecialValue sc (some v)} := by
  have h1 : Continuous fun v => pwClip lb ub (pieces f.coef (digitize false f.splits (some v)) v) :=
    (continuous_pwClip lb ub).comp (continuous_digitize hs (fun k => continuous_polyAt _) hP)
  exact h1.continuousOn.congr fun v hv => rate_clean f hv

/-! ## C82 -/

/-- C82: numbers given for special and missing values are returned for exactly these values. -/
theorem C82_given_rate (hp : ProperCodes sc) (f : PWFitted F) (q r : F) :
    (∀ x, IsSpecialValue sc x → ∀ mm, f.rate sc (.number q) mm lb ub x = q) ∧
    (∀ ms, f.rate sc ms (.number r) lb ub none = r) := by
  refine ⟨fun x hx mm => ?_, fun ms => ?_⟩
  · obtain ⟨i, -, hi⟩ := assign_special (β := F) hp hx
    unfold PWFitted.rate pwRate pwApply
    exact hi _ _ _ _ _
  · unfold PWFitted.rate pwRate
    rw [pwApply_missing]
    rfl

theorem countClass_missing {recs : List (Rec F)} (hk : KnownTargets recs) {sc : SpecialCodes F} (e : Bool) :
    pwMissingCount (splitData sc {} recs).missing e = countClass recs e (fun x => x = none) := by
  unfold pwMissingCount countClass splitData
  rw [List.countP_filter]
  refine List.countP_congr fun r hr => ?_
  have h1 := isEvent_beq r (hk r hr) e
  have h2 := hk r hr
  simp only [Bool.and_eq_true, decide_eq_true_eq, Rec.isMissing, Bool.or_eq_true, Option.isNone_iff_eq_none, h1]
  tauto

theorem countClass_special {recs : List (Rec F)} (hu : ∀ r ∈ recs, r.w = 1) (hk : KnownTargets recs) {sc : SpecialCodes F}
    (hp : ProperCodes sc) {s : List F} (hs : s.Pairwise (· ≤ ·)) {j : ℕ} (hj : j < nGroups sc) (e : Bool) :
    (specialCounts sc (splitData sc {} recs).special e).getD j 0 = countClass recs e (InGroup sc j) := by
  have hsp : ∀ r ∈ (splitData sc {} recs).special, r ∈ recs ∧ IsSpecialValue sc r.x := by
    intro r hr
    obtain ⟨h1, h2⟩ := List.mem_filter.1 hr
    exact ⟨h1, (contains_codes_iff _ _).1 h2⟩
  have h := specialCounts_getD hp (special := (splitData sc {} recs).special)
    (fun r hr => ⟨1, by simp [hu r (hsp r hr).1]⟩) (fun r hr => ⟨(hsp r hr).2, hk r (hsp r hr).1⟩) (s.length + 1)
    (fun x => ((digitize false s x : ℕ) : ℤ)) e (j := j) (by rw [groupCount_eq]; exact hj)
  rw [weight_unit (fun r hr => hu r (hsp r hr).1)] at h
  have h := Nat.cast_injective h
  rw [h]
  unfold countClass
  simp only [splitData]
  rw [List.countP_filter]
  refine List.countP_congr fun r hr => ?_
  simp only [Bool.and_eq_true, decide_eq_true_eq, assign_inRow hp hs]
  constructor
  · rintro ⟨⟨h1, h2⟩, h3⟩
    refine ⟨h1, ?_⟩
    have hx : IsSpecialValue sc r.x := (contains_codes_iff _ _).1 h3
    rcases h2 with ⟨v, -, hn, -⟩ | ⟨i, hi, hg⟩ | ⟨hi, hn⟩
    · exact absurd hx hn
    · obtain rfl : j = i := by omega
      exact hg
    · rw [hn] at hx; exact absurd hx hp.1
  · rintro ⟨h1, h2⟩
    refine ⟨⟨h1, Or.inr (Or.inl ⟨j, rfl, h2⟩)⟩, (contains_codes_iff _ _).2 ?_⟩
    cases sc with
    | none => exact h2.elim
    | list l => exact h2.2
    | dict gs => obtain ⟨g, hg, hx⟩ := h2; exact ⟨g, List.mem_of_getElem? hg, hx⟩

section fitted
variable {c : PWCfg F} {sv : SolverCfg} {lb₀ ub₀ : Option F} {recs : List (Rec F)}

/-- C82, what `"empirical"` returns: for a special value the share of the *non-events* among the training records of its group
(0 if a class is absent), for a missing value the share of the non-events among the missing training records (0 if there are
none).  The English claim (the empirical event rate) does not hold: see `C82_empirical_not_event_rate`. -/
theorem C82_empirical_partial (ho : c.outlier = none) (hr : Respects sv c.solver) (hsort : ∀ l, (c.prebin l).Pairwise (· ≤ ·))
    (hp : ProperCodes c.sc) (hk : KnownTargets recs) (hu : ∀ r ∈ recs, r.w = 1) (h : pwFit c lb₀ ub₀ recs = .ok f) :
    (∀ j x, InGroup c.sc j x → ∀ mm, f.rate c.sc .empirical mm lb ub x =
      if 0 < countClass recs true (InGroup c.sc j) ∧ 0 < countClass recs false (InGroup c.sc j) then
        1 - classRate (countClass recs true (InGroup c.sc j)) (countClass recs false (InGroup c.sc j)) else 0) ∧
    (∀ ms, f.rate c.sc ms .empirical lb ub none =
      if 0 < countClass recs true (fun x => x = none) + countClass recs false (fun x => x = none) then
        1 - classRate (countClass recs true fun x => x = none) (countClass recs false fun x => x = none) else 0) := by
  have hs := (C80_histogram ho hr hsort hp hk hu h).1
  obtain ⟨g, -, -, -, -, e1, e2, e3, e4⟩ := pwFit_ok h
  have hso : ({ outlier := c.outlier } : SplitOpts F) = {} := by rw [ho]
  rw [hso] at e1 e2 e3 e4
  have key : ∀ a b : ℕ, 0 < a + b → ((b : ℕ) : F) / ((b + a : ℕ) : F) = 1 - classRate a b := by
    intro a b hab
    have : ((a : F) + (b : F)) ≠ 0 := by
      have : (0 : F) < ((a + b : ℕ) : F) := Nat.cast_pos.2 hab
      push_cast at this
      exact this.ne'
    unfold classRate
    push_cast
    rw [add_comm (b : F), eq_sub_iff_add_eq, ← add_div, add_comm (b : F), div_self this]
  refine ⟨fun j x hj mm => ?_, fun ms => ?_⟩
  · unfold PWFitted.rate pwRate PWFitted.args
    rw [pwApply_group hp _ _ _ _ _ hj]
    simp only [PWOpt.value, Option.getD_none, pwSpecialRate, e1, e2, countClass_special hu hk hp hs (inGroup_lt hj)]
    by_cases hc : 0 < countClass recs true (InGroup c.sc j) ∧ 0 < countClass recs false (InGroup c.sc j)
    · rw [if_pos hc, if_pos hc.symm, key _ _ (by omega)]
    · rw [if_neg hc, if_neg fun h => hc h.symm]
  · unfold PWFitted.rate pwRate PWFitted.args
    rw [pwApply_missing]
    simp only [PWOpt.value, Option.getD_none, pwMissingRate, e3, e4, countClass_missing hk]
    by_cases hc : 0 < countClass recs true (fun x => x = none) + countClass recs false (fun x => x = none)
    · rw [if_pos hc, if_pos (by omega), key _ _ hc]
    · rw [if_neg hc, if_neg (by omega)]

/-- C82, finding: for a group of special codes with both classes, `"empirical"` is the event rate only if both classes have the
same number of records. -/
theorem C82_empirical_not_event_rate (ho : c.outlier = none) (hr : Respects sv c.solver)
    (hsort : ∀ l, (c.prebin l).Pairwise (· ≤ ·))
    (hp : ProperCodes c.sc) (hk : KnownTargets recs) (hu : ∀ r ∈ recs, r.w = 1) (h : pwFit c lb₀ ub₀ recs = .ok f) {j : ℕ}
    {x : Option F} (hx : InGroup c.sc j x) (h1 : 0 < countClass recs true (InGroup c.sc j))
    (h2 : 0 < countClass recs false (InGroup c.sc j)) :
    f.rate c.sc .empirical mm lb ub x = classRate (countClass recs true (InGroup c.sc j)) (countClass recs false (InGroup c.sc j)) ↔
      countClass recs true (InGroup c.sc j) = countClass recs false (InGroup c.sc j) := by
  rw [(C82_empirical_partial ho hr hsort hp hk hu h).1 j x hx mm, if_pos ⟨h1, h2⟩]
  generalize countClass recs true (InGroup c.sc j) = a at h1 h2 ⊢
  generalize countClass recs false (InGroup c.sc j) = b at h1 h2 ⊢
  have ha : (0 : F) < a := Nat.cast_pos.2 h1
  have hb : (0 : F) < b := Nat.cast_pos.2 h2
  have hab : (a : F) + b ≠ 0 := (add_pos ha hb).ne'
  unfold classRate
  constructor
  · intro h
    rw [sub_eq_iff_eq_add, ← add_div, eq_div_iff hab] at h
    have : (a : F) = b := by linarith
    exact Nat.cast_injective this
  · intro h
    subst h
    rw [sub_eq_iff_eq_add, ← add_div, div_self hab]

end fitted

end OptBinning
