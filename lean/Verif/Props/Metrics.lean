import Verif.Lemmas.Gini
import Mathlib.Analysis.SpecialFunctions.Log.Deriv

/-! # C20–C23: WoE, divergences, Gini, KS, HHI, quality score of the binning table -/
namespace OptBinning
open Spec (Row events nonevents eventShare noneventShare union SameDistribution PureRow Coarsens TwoClasses)

/-! ## C20 -/

theorem C20_event_rate_of_woe_of_event_rate {r ne e : ℝ} (hr : 0 < r) (hr1 : r < 1) (hne : 0 < ne) (he : 0 < e) :
    woeToEventRate (eventRateToWoe r ne e) ne e = r := by
  have h : 0 < (1 / r - 1) * e / ne := by
    have : 1 < 1 / r := by rw [lt_div_iff₀ hr]; linarith
    have : 0 < 1 / r - 1 := by linarith
    positivity
  unfold woeToEventRate eventRateToWoe
  rw [Real.exp_log h]
  field_simp
  ring

theorem C20_woe_of_event_rate_of_woe (w : ℝ) {ne e : ℝ} (hne : 0 < ne) (he : 0 < e) :
    eventRateToWoe (woeToEventRate w ne e) ne e = w := by
  have hx := Real.exp_pos w
  unfold woeToEventRate eventRateToWoe
  have : (1 / (1 / (1 + ne / e * Real.exp w)) - 1) * e / ne = Real.exp w := by
    field_simp; ring
  rw [this, Real.log_exp]

theorem C20_event_rate_in_unit_interval (w : ℝ) {ne e : ℝ} (hne : 0 < ne) (he : 0 < e) :
    0 < woeToEventRate w ne e ∧ woeToEventRate w ne e < 1 := by
  have hx := Real.exp_pos w
  have : 0 < ne / e * Real.exp w := by positivity
  unfold woeToEventRate
  constructor
  · positivity
  · rw [div_lt_one (by positivity)]; linarith

theorem C20_event_rate_decreasing {w w' ne e : ℝ} (hne : 0 < ne) (he : 0 < e) :
    w < w' ↔ woeToEventRate w' ne e < woeToEventRate w ne e := by
  have h1 := Real.exp_pos w
  have h2 := Real.exp_pos w'
  have hk : 0 < ne / e := by positivity
  unfold woeToEventRate
  rw [div_lt_div_iff_of_pos_left one_pos (by positivity) (by positivity), add_lt_add_iff_left, mul_lt_mul_iff_right₀ hk,
    Real.exp_lt_exp]

theorem C20_woe_decreasing {r r' ne e : ℝ} (hr : 0 < r) (hr1 : r < 1) (hr' : 0 < r') (hr1' : r' < 1) (hne : 0 < ne)
    (he : 0 < e) : r < r' ↔ eventRateToWoe r' ne e < eventRateToWoe r ne e := by
  rw [C20_event_rate_decreasing (w := eventRateToWoe r' ne e) hne he, C20_event_rate_of_woe_of_event_rate hr hr1 hne he,
    C20_event_rate_of_woe_of_event_rate hr' hr1' hne he]

/-- WoE is zero exactly at the average event rate. -/
theorem C20_woe_zero_iff {r ne e : ℝ} (hr : 0 < r) (hr1 : r < 1) (hne : 0 < ne) (he : 0 < e) :
    eventRateToWoe r ne e = 0 ↔ r = e / (e + ne) := by
  constructor
  · intro h
    have := C20_event_rate_of_woe_of_event_rate hr hr1 hne he
    rw [h] at this
    rw [← this]
    unfold woeToEventRate
    rw [Real.exp_zero]; field_simp
  · rintro rfl
    unfold eventRateToWoe
    have : (1 / (e / (e + ne)) - 1) * e / ne = 1 := by field_simp; ring
    rw [this, Real.log_one]

/-- The WoE and event-rate columns of the table: on a bin with both classes the WoE is the log of the ratio of the shares, the
event rate is the share of events of the bin, and the two are related by the WoE transformations. -/
theorem C20_table_woe (sort) {t : List Row} {b : BuiltTable} (h : buildTable sort t = .ok b) {k : ℕ} (hk : k < t.length)
    (he : 0 < t[k].event) (hne : 0 < t[k].nonevent) :
    b.eventRate[k]? = some (Spec.rate t[k]) ∧
    b.woe[k]? = some (Real.log (noneventShare t t[k] / eventShare t t[k])) ∧
    Real.log (noneventShare t t[k] / eventShare t t[k]) = eventRateToWoe (Spec.rate t[k]) (nonevents t) (events t) ∧
    woeToEventRate (Real.log (noneventShare t t[k] / eventShare t t[k])) (nonevents t) (events t) = Spec.rate t[k] := by
  have hm : t[k].mixed = true := (mixed_iff _).mpr ⟨he, hne⟩
  have hb : b = buildCore sort t := by
    unfold buildTable at h; split_ifs at h; simpa using h.symm
  subst hb
  obtain ⟨p1, p2⟩ := events_pos_of_mem (List.getElem_mem hk) hm
  have p1 : (0 : ℝ) < events t := by exact_mod_cast p1
  have p2 : (0 : ℝ) < nonevents t := by exact_mod_cast p2
  have q1 : (0 : ℝ) < t[k].event := by exact_mod_cast he
  have q2 : (0 : ℝ) < t[k].nonevent := by exact_mod_cast hne
  have e1 : eventRateToWoe (Spec.rate t[k]) (nonevents t) (events t) =
      Real.log (noneventShare t t[k] / eventShare t t[k]) := by
    unfold eventRateToWoe Spec.rate noneventShare eventShare
    congr 1; field_simp; ring
  refine ⟨?_, ?_, e1.symm, ?_⟩
  · simp only [buildCore, List.getElem?_map, List.getElem?_eq_getElem hk, Option.map_some, hm, if_true]; rfl
  · rw [← e1]
    simp only [buildCore, List.getElem?_map, List.getElem?_eq_getElem hk,
      cast_sum_map, List.zip_eq_zipWith, List.getElem?_zipWith, Option.map_some, hm, if_true]
    unfold eventRateToWoe Spec.rate
    rw [← events_eq, ← nonevents_eq, ← Real.log_mul]
    · congr 2; ring
    · have : 1 / ((t[k].event : ℝ) / (t[k].event + t[k].nonevent)) - 1 = t[k].nonevent / t[k].event := by
        field_simp; ring
      rw [this]; positivity
    · positivity
  · rw [← e1]
    have r0 : 0 < Spec.rate t[k] := by unfold Spec.rate; positivity
    have r1 : Spec.rate t[k] < 1 := by unfold Spec.rate; rw [div_lt_one (by positivity)]; linarith
    exact C20_event_rate_of_woe_of_event_rate r0 r1 p2 p1

/-! ## The concrete tables used as witnesses -/

open Classical in
/-- A sorting routine that meets the specification of `argsort`. -/
noncomputable def exSort : List Row → List Row := List.insertionSort fun a b => nonEventRate a ≤ nonEventRate b

theorem exSort_isArgsort : IsArgsort exSort := by
  classical
  intro l
  refine ⟨List.perm_insertionSort _ _, ?_⟩
  have : Std.Total fun a b : Row => nonEventRate a ≤ nonEventRate b := ⟨fun a b => le_total _ _⟩
  have : IsTrans Row fun a b : Row => nonEventRate a ≤ nonEventRate b := ⟨fun a b c h1 h2 => le_trans h1 h2⟩
  exact List.pairwise_insertionSort _ _

/-- Two mixed bins. -/
def exRows : List Row := [⟨3, 1⟩, ⟨1, 2⟩]

example : ∃ b, buildTable exSort exRows = .ok b := by
  unfold buildTable; rw [if_neg (by decide)]; exact ⟨_, rfl⟩

/-- C20 is not vacuous: the first bin of `exRows` has event rate 1/4 and WoE `log ((3/4)/(1/3))`. -/
example : ∃ b, buildTable exSort exRows = .ok b ∧ b.eventRate[0]? = some (1 / 4 : ℝ) ∧
    b.woe[0]? = some (Real.log ((3 / 4) / (1 / 3))) := by
  obtain ⟨b, hb⟩ : ∃ b, buildTable exSort exRows = .ok b := by
    unfold buildTable; rw [if_neg (by decide)]; exact ⟨_, rfl⟩
  have h := C20_table_woe exSort hb (k := 0) (by decide) (by decide) (by decide)
  refine ⟨b, hb, ?_, ?_⟩
  · rw [h.1]; norm_num [Spec.rate, exRows]
  · rw [h.2.1]; norm_num [noneventShare, eventShare, exRows, nonevents, events, union]

/-- The event-rate column does not show the share of events of a bin without non-events: it shows 0 although every record of
the bin is an event. -/
theorem C20_pure_event_bin_shows_zero (sort) : ∃ (t : List Row) (b : BuiltTable), buildTable sort t = .ok b ∧
    t[1]? = some ⟨0, 3⟩ ∧ b.eventRate[1]? = some 0 ∧ b.woe[1]? = some 0 ∧ Spec.rate ⟨0, 3⟩ = 1 := by
  refine ⟨[⟨2, 2⟩, ⟨0, 3⟩], buildCore sort [⟨2, 2⟩, ⟨0, 3⟩], ?_, rfl, ?_, ?_, ?_⟩
  · unfold buildTable; rw [if_neg (by decide)]
  · simp [buildCore, Spec.Row.mixed]
  · simp [buildCore, Spec.Row.mixed]
  · norm_num [Spec.rate]

/-! ## C21 -/

theorem buildTable_ok {sort} {t : List Row} {b : BuiltTable} (h : buildTable sort t = .ok b) : b = buildCore sort t := by
  unfold buildTable at h; split_ifs at h; simpa using h.symm

/-- All divergences of a table are non-negative, and so is the contribution of every bin to IV and JS. -/
theorem C21_nonneg (sort) {t : List Row} {b : BuiltTable} (h : buildTable sort t = .ok b) :
    0 ≤ b.tIv ∧ 0 ≤ b.tJs ∧ 0 ≤ b.tHellinger ∧ 0 ≤ b.tTriangular ∧ (∀ v ∈ b.iv, 0 ≤ v) ∧ ∀ v ∈ b.js, 0 ≤ v := by
  rw [buildTable_ok h, build_tIv, build_tJs, build_tHellinger, build_tTriangular]
  refine ⟨tableDiv_nonneg goodDiv_jeffrey t, tableDiv_nonneg goodDiv_jensenShannon t, tableDiv_nonneg goodDiv_hellinger t,
    tableDiv_nonneg goodDiv_triangular t, ?_, ?_⟩
  all_goals
    intro v hv
    simp only [buildCore, cast_sum_map, List.mem_map] at hv
    obtain ⟨r, hr, rfl⟩ := hv
    split_ifs with hm
    · have p1 : (0 : ℝ) < events t := by exact_mod_cast (events_pos_of_mem hr hm).1
      have p2 : (0 : ℝ) < nonevents t := by exact_mod_cast (events_pos_of_mem hr hm).2
      first
        | exact goodDiv_jeffrey.nonneg _ _ (shares_pos p1 p2 hm).1 (shares_pos p1 p2 hm).2
        | exact goodDiv_jensenShannon.nonneg _ _ (shares_pos p1 p2 hm).1 (shares_pos p1 p2 hm).2
    · exact le_rfl

/-- JS is at most log 2, Hellinger at most 1, triangular discrimination at most 2. -/
theorem C21_bounds (sort) {t : List Row} {b : BuiltTable} (h : buildTable sort t = .ok b) :
    b.tJs ≤ Real.log 2 ∧ b.tHellinger ≤ 1 ∧ b.tTriangular ≤ 2 := by
  rw [buildTable_ok h, build_tJs, build_tHellinger, build_tTriangular]
  have l2 := Real.log_nonneg (show (1 : ℝ) ≤ 2 by norm_num)
  refine ⟨?_, ?_, ?_⟩
  · have := tableDiv_le (D := jensenShannon) (Real.log 2 / 2) (by positivity)
      (fun x y hx hy => (jensenShannon_le x y hx hy).trans (by linarith)) t
    linarith
  · have := tableDiv_le (D := hellinger) (1 / 2) (by norm_num)
      (fun x y hx hy => (hellinger_le x y hx hy).trans (by linarith)) t
    linarith
  · have := tableDiv_le (D := triangular) 1 (by norm_num)
      (fun x y hx hy => (triangular_le x y hx hy).trans (by linarith)) t
    linarith

/-- Exchanging the roles of event and non-event changes no divergence. -/
theorem C21_symmetric (sort) {t : List Row} {b : BuiltTable} (h : buildTable sort t = .ok b) :
    ∃ b', buildTable sort (Spec.swapColumns t) = .ok b' ∧ b'.tIv = b.tIv ∧ b'.tJs = b.tJs ∧ b'.tHellinger = b.tHellinger ∧
      b'.tTriangular = b.tTriangular := by
  refine ⟨buildCore sort (Spec.swapColumns t), ?_, ?_⟩
  · unfold buildTable at h ⊢
    split_ifs at h with h0
    rw [if_neg]
    intro h1
    apply h0
    rw [List.filter_eq_nil_iff] at h1 ⊢
    intro r hr hm
    apply h1 ⟨r.event, r.nonevent⟩ (List.mem_map.mpr ⟨r, hr, rfl⟩)
    rw [mixed_iff] at hm ⊢; exact ⟨hm.2, hm.1⟩
  · rw [buildTable_ok h]
    simp only [build_tIv, build_tJs, build_tHellinger, build_tTriangular, tableDiv_swap goodDiv_jeffrey,
      tableDiv_swap goodDiv_jensenShannon, tableDiv_swap goodDiv_hellinger, tableDiv_swap goodDiv_triangular, and_self]

theorem sameDistribution_iff {t : List Row} (hp : ∀ r ∈ t, ¬ PureRow r) :
    (∀ r ∈ t, r.mixed = true → eventShare t r = noneventShare t r) ↔ SameDistribution t := by
  constructor
  · intro h r hr
    rcases mixed_or_empty (hp r hr) with hm | ⟨h1, h2⟩
    · exact h r hr hm
    · simp [eventShare, noneventShare, h1, h2]
  · exact fun h r hr _ => h r hr

/-- A divergence of the table is zero iff events and non-events are distributed alike — provided no bin is pure (the full
claim, without this proviso, is false: see `C21_pure_bins_hide_divergence`). -/
theorem C21_zero_iff_partial (sort) {t : List Row} {b : BuiltTable} (h : buildTable sort t = .ok b)
    (hp : ∀ r ∈ t, ¬ PureRow r) :
    (b.tIv = 0 ↔ SameDistribution t) ∧ (b.tJs = 0 ↔ SameDistribution t) ∧ (b.tHellinger = 0 ↔ SameDistribution t) ∧
      (b.tTriangular = 0 ↔ SameDistribution t) := by
  rw [buildTable_ok h, build_tIv, build_tJs, build_tHellinger, build_tTriangular,
    tableDiv_zero_iff goodDiv_jeffrey, tableDiv_zero_iff goodDiv_jensenShannon, tableDiv_zero_iff goodDiv_hellinger,
    tableDiv_zero_iff goodDiv_triangular, sameDistribution_iff hp]
  simp

/-- Without the proviso: a divergence is zero iff the shares agree on the bins that have both classes. -/
theorem C21_zero_iff_on_mixed (sort) {t : List Row} {b : BuiltTable} (h : buildTable sort t = .ok b) :
    (b.tIv = 0 ↔ ∀ r ∈ t, 0 < r.event → 0 < r.nonevent → eventShare t r = noneventShare t r) ∧
    (b.tJs = 0 ↔ ∀ r ∈ t, 0 < r.event → 0 < r.nonevent → eventShare t r = noneventShare t r) := by
  rw [buildTable_ok h, build_tIv, build_tJs, tableDiv_zero_iff goodDiv_jeffrey, tableDiv_zero_iff goodDiv_jensenShannon]
  simp only [mixed_iff, and_imp, and_self]

/-- The table of a variable that separates part of the records perfectly. -/
def exPure : List Row := [⟨1, 1⟩, ⟨1, 0⟩, ⟨0, 1⟩]

/-- Counterexample to the unrestricted claim: bins 1 and 2 separate non-events from events, yet every divergence is 0. -/
theorem C21_pure_bins_hide_divergence (sort) : ∃ b, buildTable sort exPure = .ok b ∧ b.tIv = 0 ∧ b.tJs = 0 ∧
    b.tHellinger = 0 ∧ b.tTriangular = 0 ∧ ¬ SameDistribution exPure := by
  have hb : buildTable sort exPure = .ok (buildCore sort exPure) := by unfold buildTable; rw [if_neg (by decide)]
  have hz : ∀ r ∈ exPure, r.mixed = true → eventShare exPure r = noneventShare exPure r := by
    intro r hr hm
    simp only [exPure, List.mem_cons, List.not_mem_nil, or_false] at hr
    rcases hr with rfl | rfl | rfl
    · norm_num [eventShare, noneventShare, exPure, events, nonevents, union]
    · simp [Spec.Row.mixed] at hm
    · simp [Spec.Row.mixed] at hm
  refine ⟨_, hb, ?_, ?_, ?_, ?_, ?_⟩
  · rw [build_tIv, tableDiv_zero_iff goodDiv_jeffrey]; exact hz
  · rw [build_tJs, tableDiv_zero_iff goodDiv_jensenShannon]; exact hz
  · rw [build_tHellinger, tableDiv_zero_iff goodDiv_hellinger]; exact hz
  · rw [build_tTriangular, tableDiv_zero_iff goodDiv_triangular]; exact hz
  · intro h
    have := h ⟨1, 0⟩ (by simp [exPure])
    norm_num [eventShare, noneventShare, exPure, events, nonevents, union] at this

/-- If no bin has both classes `build` raises, although event and non-event shares are well defined. -/
theorem C21_separated_table_raises (sort) : ∃ t : List Row, TwoClasses t ∧ ∃ e, buildTable sort t = .error e := by
  refine ⟨[⟨4, 0⟩, ⟨0, 5⟩], ⟨by decide, by decide⟩, "ValueError: Found array with 0 sample(s)", ?_⟩
  unfold buildTable; rw [if_pos (by decide)]

/-- C21 is not vacuous: two mixed bins with different rates have positive IV. -/
example : ∃ b, buildTable exSort exRows = .ok b ∧ b.tIv ≠ 0 := by
  have hb : buildTable exSort exRows = .ok (buildCore exSort exRows) := by unfold buildTable; rw [if_neg (by decide)]
  refine ⟨_, hb, fun h => ?_⟩
  rw [(C21_zero_iff_partial exSort hb (by simp [exRows, PureRow])).1] at h
  have := h ⟨3, 1⟩ (by simp [exRows])
  norm_num [eventShare, noneventShare, exRows, events, nonevents, union] at this

/-! ## C22 -/

/-- Taking unions of bins never increases a divergence — provided no bin is pure (the claim is false for tables with pure
bins: `C22_merging_pure_bin_increases_iv`). -/
theorem C22_merging_partial (sort) {fine coarse : List Row} {bf bc : BuiltTable} (hf : buildTable sort fine = .ok bf)
    (hc : buildTable sort coarse = .ok bc) (h : Coarsens fine coarse) (hp : ∀ r ∈ fine, ¬ PureRow r) :
    bc.tIv ≤ bf.tIv ∧ bc.tJs ≤ bf.tJs ∧ bc.tHellinger ≤ bf.tHellinger ∧ bc.tTriangular ≤ bf.tTriangular := by
  have htwo : TwoClasses fine := by
    unfold buildTable at hf
    split_ifs at hf with h0
    obtain ⟨r, hr⟩ := List.exists_mem_of_ne_nil _ h0
    exact events_pos_of_mem (List.mem_filter.mp hr).1 (List.mem_filter.mp hr).2
  rw [buildTable_ok hf, buildTable_ok hc]
  simp only [build_tIv, build_tJs, build_tHellinger, build_tTriangular]
  exact ⟨tableDiv_coarsens goodDiv_jeffrey h hp htwo, tableDiv_coarsens goodDiv_jensenShannon h hp htwo,
    tableDiv_coarsens goodDiv_hellinger h hp htwo, tableDiv_coarsens goodDiv_triangular h hp htwo⟩

/-- Replacing two neighbouring bins by their union is a coarsening. -/
theorem C22_two_bins (l r : List Row) (a b : Row) :
    Coarsens (l ++ a :: b :: r) (l ++ ⟨a.nonevent + b.nonevent, a.event + b.event⟩ :: r) := by
  refine ⟨l.map (fun x => [x]) ++ [a, b] :: r.map (fun x => [x]), ?_, ?_⟩
  · have : ∀ s : List Row, (s.map fun x => [x]).flatten = s := by
      intro s; induction s with
      | nil => rfl
      | cons x s ih => simp [ih]
    simp [this]
  · have : ∀ s : List Row, (s.map fun x => [x]).map union = s := by
      intro s; induction s with
      | nil => rfl
      | cons x s ih => rw [List.map_cons, List.map_cons, ih]; rfl
    rw [List.map_append, List.map_cons, this, this]
    simp [union]

/-- Counterexample to the unrestricted claim: merging the pure bin `⟨1,0⟩` with its neighbour raises IV from 0. -/
theorem C22_merging_pure_bin_increases_iv (sort) : ∃ (fine coarse : List Row) (bf bc : BuiltTable),
    buildTable sort fine = .ok bf ∧ buildTable sort coarse = .ok bc ∧ Coarsens fine coarse ∧ bf.tIv < bc.tIv := by
  obtain ⟨bf, hbf, h0, -⟩ := C21_pure_bins_hide_divergence sort
  refine ⟨exPure, [⟨2, 1⟩, ⟨0, 1⟩], bf, buildCore sort [⟨2, 1⟩, ⟨0, 1⟩], hbf, ?_, C22_two_bins [] [⟨0, 1⟩] ⟨1, 1⟩ ⟨1, 0⟩, ?_⟩
  · unfold buildTable; rw [if_neg (by decide)]
  · rw [h0]
    refine lt_of_le_of_ne ?_ fun h => ?_
    · rw [build_tIv]; exact tableDiv_nonneg goodDiv_jeffrey _
    · rw [build_tIv, eq_comm, tableDiv_zero_iff goodDiv_jeffrey] at h
      have := h ⟨2, 1⟩ (by simp) (by decide)
      norm_num [eventShare, noneventShare, events, nonevents, union] at this

/-- C22 is not vacuous. -/
example : ∃ bf bc, buildTable exSort (exRows ++ [⟨2, 5⟩]) = .ok bf ∧ buildTable exSort [⟨3, 1⟩, ⟨3, 7⟩] = .ok bc ∧
    bc.tIv ≤ bf.tIv := by
  have h1 : buildTable exSort (exRows ++ [⟨2, 5⟩]) = .ok (buildCore exSort (exRows ++ [⟨2, 5⟩])) := by
    unfold buildTable; rw [if_neg (by decide)]
  have h2 : buildTable exSort [⟨3, 1⟩, ⟨3, 7⟩] = .ok (buildCore exSort [⟨3, 1⟩, ⟨3, 7⟩]) := by
    unfold buildTable; rw [if_neg (by decide)]
  refine ⟨_, _, h1, h2, (C22_merging_partial exSort h1 h2 (C22_two_bins [⟨3, 1⟩] [] ⟨1, 2⟩ ⟨2, 5⟩) ?_).1⟩
  intro r hr
  simp only [exRows, List.cons_append, List.nil_append, List.mem_cons, List.not_mem_nil, or_false] at hr
  rcases hr with rfl | rfl | rfl <;> simp [PureRow]

/-! ## C23 -/

/-- Gini of the table: (concordant - discordant) / all pairs of an event and a non-event, whatever order `argsort` gives ties. -/
theorem C23_gini_is_concordance (sort) (hs : IsArgsort sort) {t : List Row} {b : BuiltTable} (h : buildTable sort t = .ok b) :
    b.gini = Spec.concordance t / ((events t : ℝ) * (nonevents t : ℝ)) := by
  have htwo : TwoClasses t := by
    unfold buildTable at h
    split_ifs at h with h0
    obtain ⟨r, hr⟩ := List.exists_mem_of_ne_nil _ h0
    exact events_pos_of_mem (List.mem_filter.mp hr).1 (List.mem_filter.mp hr).2
  rw [buildTable_ok h]; exact gini_eq sort hs t htwo

theorem records_share_sum {t : List Row} (h : 0 < events t + nonevents t) :
    ((t.map fun r => ((r.event : ℝ) + (r.nonevent : ℝ)) / ((nonevents t : ℝ) + (events t : ℝ))).sum) = 1 := by
  have hp : (0 : ℝ) < (nonevents t : ℝ) + (events t : ℝ) := by
    rw [add_comm]; exact_mod_cast h
  simp only [div_eq_mul_inv]
  rw [List.sum_map_mul_right, List.sum_map_add, cast_sum_map, cast_sum_map, ← events_eq, ← nonevents_eq]
  field_simp
  ring

/-- Gini, KS, HHI and normalised HHI of every table lie in their documented ranges, whatever order `argsort` gives ties. -/
theorem C23_ranges (sort) (hs : IsArgsort sort) {t : List Row} {b : BuiltTable} (h : buildTable sort t = .ok b) :
    (0 ≤ b.gini ∧ b.gini ≤ 1) ∧ (0 ≤ b.ks ∧ b.ks ≤ 1) ∧ (1 / (t.length : ℝ) ≤ b.hhi ∧ b.hhi ≤ 1) ∧
      (0 ≤ b.hhiNorm ∧ b.hhiNorm ≤ 1) := by
  have htwo : TwoClasses t := by
    unfold buildTable at h
    split_ifs at h with h0
    obtain ⟨r, hr⟩ := List.exists_mem_of_ne_nil _ h0
    exact events_pos_of_mem (List.mem_filter.mp hr).1 (List.mem_filter.mp hr).2
  rw [buildTable_ok h]
  have hsum := records_share_sum (t := t) (Nat.add_pos_left htwo.1 _)
  have hnn : ∀ a ∈ t.map (fun r => ((r.event : ℝ) + (r.nonevent : ℝ)) / ((nonevents t : ℝ) + (events t : ℝ))), 0 ≤ a := by
    intro a ha
    obtain ⟨r, -, rfl⟩ := List.mem_map.mp ha
    positivity
  have hc : (buildCore sort t).hhi =
      hhi (t.map fun r => ((r.event : ℝ) + (r.nonevent : ℝ)) / ((nonevents t : ℝ) + (events t : ℝ))) := by
    simp only [buildCore, cast_sum_map, events_eq, nonevents_eq]
  have hc' : (buildCore sort t).hhiNorm =
      hhiNorm (t.map fun r => ((r.event : ℝ) + (r.nonevent : ℝ)) / ((nonevents t : ℝ) + (events t : ℝ))) := by
    simp only [buildCore, cast_sum_map, events_eq, nonevents_eq]
  refine ⟨gini_range sort hs t htwo, ?_, ?_, ?_⟩
  · obtain ⟨⟨k, -, hk⟩, -⟩ := ks_isGreatest sort t
    rw [hk]; exact cumulativeGap_range t k
  · rw [hc]
    have := hhi_range _ hnn hsum
    rwa [List.length_map] at this
  · rw [hc']; exact hhiNorm_range _ hnn hsum

/-- KS of the table is the largest distance of the two cumulative distributions over the bins. -/
theorem C23_ks_is_max_gap (sort) {t : List Row} {b : BuiltTable} (h : buildTable sort t = .ok b) :
    IsGreatest {x | ∃ k ≤ t.length, x = Spec.cumulativeGap t k} b.ks := by
  rw [buildTable_ok h]; exact ks_isGreatest sort t

/-- The quality score computed from a table and p-values in [0,1] lies in [0,1]. -/
theorem C23_quality_score (sort) {t : List Row} {b : BuiltTable} (h : buildTable sort t = .ok b) (hs : IsArgsort sort)
    (p : List ℝ) (hp : ∀ a ∈ p, 0 ≤ a ∧ a ≤ 1) :
    0 ≤ qualityScore b.tIv p b.hhiNorm ∧ qualityScore b.tIv p b.hhiNorm ≤ 1 :=
  qualityScore_range (C21_nonneg sort h).1 hp (C23_ranges sort hs h).2.2.2.1 (C23_ranges sort hs h).2.2.2.2

/-- The same for the scores of multiclass (Jensen-Shannon, at least two classes) and continuous targets. -/
theorem C23_other_quality_scores {v : ℝ} {p : List ℝ} {h : ℝ} {nc : ℕ} (hv : 0 ≤ v) (hp : ∀ a ∈ p, 0 ≤ a ∧ a ≤ 1)
    (h0 : 0 ≤ h) (h1 : h ≤ 1) :
    (0 ≤ multiclassQualityScore v nc p h ∧ multiclassQualityScore v nc p h ≤ 1) ∧
      (0 ≤ continuousQualityScore v p h ∧ continuousQualityScore v p h ≤ 1) :=
  ⟨qualityScore_range (div_nonneg hv (Real.log_natCast_nonneg nc)) hp h0 h1, continuousQualityScore_range hv hp h0 h1⟩

/-- The quality score reaches 1 only through IV = c: e.g. with no pairs of bins and perfectly balanced bins. -/
example : qualityScore qualityC [] 0 = 1 := by
  have : qualityC ≠ 0 := by unfold qualityC; norm_num
  simp [qualityScore, this]

/-- C23 is not vacuous: the table of `exRows` has Gini 5/12. -/
example : ∃ b, buildTable exSort exRows = .ok b ∧ b.gini = 5 / 12 := by
  have hb : buildTable exSort exRows = .ok (buildCore exSort exRows) := by unfold buildTable; rw [if_neg (by decide)]
  refine ⟨_, hb, ?_⟩
  rw [C23_gini_is_concordance exSort exSort_isArgsort hb]
  norm_num [Spec.concordance, exRows, Spec.rate, events, nonevents, union]

end OptBinning
